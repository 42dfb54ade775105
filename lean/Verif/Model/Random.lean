import Verif.Model.Dsfmt
import Verif.Model.Loop
import Mathlib.Analysis.SpecialFunctions.Exp
import Mathlib.Analysis.SpecialFunctions.Log.Basic
import Mathlib.Analysis.SpecialFunctions.Sqrt

/-!
# The global generator and generator objects

Models src/nrlib/random/random.cpp, random.hpp, randomgenerator.cpp, randomgenerator.hpp. The two
classes have the same code twice, and so has this file.

Simplifications: `unsigned long` has 64 bits (as on Linux and macOS). Floating point arithmetic is
exact. `time(0)` is an argument. A NaN result is the outcome `nonfinite`.
-/

namespace Verif

open Dsfmt (Build)

/-! ## The global generator -/

/-- The static members of `Random` (random.cpp lines 31-34) and `dsfmt_global_data` (dSFMT.cpp
line 25). -/
structure Random where
  isInitialized : Bool
  startSeed : BitVec 64
  useSeedFile : Bool
  seedFile : String
  dsfmt : Dsfmt

namespace Random

/-- Static initialisation: random.cpp lines 31-34; `dsfmt_global_data` is zero. -/
def initial : Random :=
  ⟨false, 0, false, "", ⟨List.replicate (Dsfmt.nW + 1) ⟨0, 0⟩, 0⟩⟩

/-- `InitializeMT`, random.cpp lines 162-165: the argument of `dsfmt_gv_init_gen_rand` has 32 bits
(dSFMT.h line 240). -/
def initializeMT (seed : BitVec 64) (s : Random) : Res Random := do
  let d ← Dsfmt.initGenRand (seed.setWidth 32) s.dsfmt
  .ok { s with dsfmt := d }

/-- `DrawUint32`, random.hpp line 50. -/
def drawUint32 (b : Build) (s : Random) : Res (BitVec 64 × Random) := do
  let (r, d) ← Dsfmt.genrandUint32 b s.dsfmt
  .ok (r.setWidth 64, { s with dsfmt := d })

/-- `Unif01`, random.hpp line 44. -/
noncomputable def unif01 (b : Build) (s : Random) : Res (ℝ × Random) := do
  let (x, d) ← Dsfmt.genrandCloseOpen b s.dsfmt
  .ok (x, { s with dsfmt := d })

/-- `Unif01Open`, random.hpp line 47. -/
noncomputable def unif01Open (b : Build) (s : Random) : Res (ℝ × Random) := do
  let (x, d) ← Dsfmt.genrandOpenOpen b s.dsfmt
  .ok (x, { s with dsfmt := d })

/-- `Initialize()`, random.cpp lines 36-42. -/
def initializeTime (b : Build) (time : BitVec 64) (s : Random) : Res Random := do
  let s ← initializeMT time s
  let (r, s) ← drawUint32 b s
  let s := { s with startSeed := r }
  let s := { s with isInitialized := true }
  initializeMT s.startSeed s

/-- `Initialize(seed)`, random.cpp lines 44-48. -/
def initializeSeed (seed : BitVec 64) (s : Random) : Res Random := do
  let s := { s with startSeed := seed }
  let s := { s with isInitialized := true }
  initializeMT s.startSeed s

/-- What reading an `unsigned long` from a file gives. If the text is not a number or is out of range
the variable is nevertheless assigned (0 or the largest value). -/
inductive SeedRead where
  | cannotOpen
  | failed (assigned : BitVec 64)
  | value (seed : BitVec 64)

/-- `Initialize(filename)`, random.cpp lines 50-62. An exception leaves the assignments made so far,
so the state is returned in either case, with the message if one is thrown. `contents` says what is
in the file. -/
def initializeFile (filename : String) (contents : SeedRead) (s : Random) :
    Res (Option String × Random) :=
  match contents with
  | .cannotOpen => .ok (some ("Error opening seed file " ++ filename ++ "\n"), s)
  | .failed v =>
    .ok (some ("Error reading seed from seed file " ++ filename ++ "\n"), { s with startSeed := v })
  | .value v => do
    let s := { s with startSeed := v }
    let s := { s with seedFile := filename }
    let s := { s with useSeedFile := true }
    let s := { s with isInitialized := true }
    let s ← initializeMT s.startSeed s
    .ok (none, s)

/-- `WriteSeedToFile`, random.cpp lines 130-142: the name of the file written and the number written
to it, if a seed file is used. That the file cannot be opened or written is not modelled. -/
def writeSeedToFile (b : Build) (s : Random) : Res (Option (String × BitVec 64) × Random) :=
  if s.useSeedFile then do
    let (r, s) ← drawUint32 b s
    .ok (some (s.seedFile, r), s)
  else .ok (none, s)

/-- `GetStartSeed`, random.cpp lines 121-127. -/
def getStartSeed (s : Random) : Res (BitVec 64) :=
  if !s.isInitialized then .throws "Random number generator is not initalized." else .ok s.startSeed

/-- `g`, random.cpp lines 145-159. -/
noncomputable def g (x : ℝ) : ℝ :=
  let a := 17.49731196
  let b := 2.36785163
  let c := 2.15787544
  let absx := |x|
  let result := a * Real.exp (-x * x / 2.0)
  if absx < 1.0 then result - (2.0 * b * (3.0 - x * x) + c * (1.5 - absx))
  else if absx < 1.5 then result - (b * (3.0 - absx) * (3.0 - absx) + c * (1.5 - absx))
  else result - b * (3.0 - absx) * (3.0 - absx)

/-- A round of the loop in random.cpp lines 86-92. -/
noncomputable def wedgeRound {σ : Type} (unif : σ → Res (ℝ × σ)) (s : σ) : Res (Option ℝ × σ) := do
  let (u1, s) ← unif s
  let (u2, s) ← unif s
  let x := 6.0 * u1 - 3.0
  .ok (if 0.358 * u2 > g x then none else some x, s)

/-- A round of the inner loop in random.cpp lines 98-106. The value is `(v1, v2, w)`. -/
noncomputable def discRound {σ : Type} (unif : σ → Res (ℝ × σ)) (s : σ) :
    Res (Option (ℝ × ℝ × ℝ) × σ) := do
  let (u1, s) ← unif s
  let (u2, s) ← unif s
  let v1 := 2.0 * u1 - 1.0
  let v2 := 2.0 * u2 - 1.0
  let w := v1 * v1 + v2 * v2
  .ok (if w ≥ 1.0 then none else some (v1, v2, w), s)

/-- A round of the outer loop in random.cpp lines 96-111, and the choice in lines 112-115 if it is
the last round. For `w = 0` the expression `sqrt((9.0-2.0*log(w))/w)` is infinite and `s` and `t` are
NaN; then both comparisons are false, the loop ends, and `x = t` is NaN. -/
noncomputable def tailRound {σ : Type} (unif : σ → Res (ℝ × σ)) (s : σ) : Res (Option ℝ × σ) := do
  let ((v1, v2, w), s) ← untilLoop (discRound unif) s
  if w = 0 then .nonfinite "NaN returned" else
  let c := √((9.0 - 2.0 * Real.log w) / w)
  let s' := c * v1
  let t := c * v2
  .ok (if |s'| ≤ 3.0 ∧ |t| ≤ 3.0 then none else some (if |s'| > 3.0 then s' else t), s)

/-- `Norm01`, random.cpp lines 64-118; the calls of `Unif01()` are calls of `unif`. -/
noncomputable def norm01With {σ : Type} (unif : σ → Res (ℝ × σ)) (s : σ) : Res (ℝ × σ) := do
  let (u, s) ← unif s
  if u < 0.8638 then do
    let (u1, s) ← unif s
    let (u2, s) ← unif s
    let (u3, s) ← unif s
    .ok (2.0 * (u1 + u2 + u3) - 3.0, s)
  else if u < 0.9745 then do
    let (u1, s) ← unif s
    let (u2, s) ← unif s
    .ok (1.5 * (u1 + u2 - 1.0), s)
  else if u < 0.9973002039 then untilLoop (wedgeRound unif) s
  else untilLoop (tailRound unif) s

/-- `Norm01` with the uniform numbers of the generator. -/
noncomputable def norm01 (b : Build) (s : Random) : Res (ℝ × Random) := norm01With (unif01 b) s

end Random

/-! ## Generator objects -/

/-- The members of `RandomGenerator`, randomgenerator.hpp lines 63-66. -/
structure RandomGenerator where
  dsfmt : Dsfmt
  startSeed : BitVec 64
  isInitialized : Bool

namespace RandomGenerator

/-- `RandomGenerator()`, randomgenerator.cpp lines 32-36. `raw` is what is in the memory of the
object: `dsfmt` is not initialised. -/
def create (raw : Dsfmt) : RandomGenerator := ⟨raw, 0, false⟩

/-- `InitializeMT`, randomgenerator.cpp lines 158-162. -/
def initializeMT (seed : BitVec 64) (s : RandomGenerator) : Res RandomGenerator := do
  let d ← Dsfmt.initGenRand (seed.setWidth 32) s.dsfmt
  .ok { s with dsfmt := d }

/-- `RandomGenerator(start_seed)`, randomgenerator.cpp lines 39-44. -/
def createSeeded (start_seed : BitVec 64) (raw : Dsfmt) : Res RandomGenerator :=
  initializeMT start_seed ⟨raw, start_seed, true⟩

/-- `DrawUint32`, randomgenerator.hpp line 42. -/
def drawUint32 (b : Build) (s : RandomGenerator) : Res (BitVec 64 × RandomGenerator) := do
  let (r, d) ← Dsfmt.genrandUint32 b s.dsfmt
  .ok (r.setWidth 64, { s with dsfmt := d })

/-- `Unif01`, randomgenerator.hpp line 45. -/
noncomputable def unif01 (b : Build) (s : RandomGenerator) : Res (ℝ × RandomGenerator) := do
  let (x, d) ← Dsfmt.genrandCloseOpen b s.dsfmt
  .ok (x, { s with dsfmt := d })

/-- `Unif01Open`, randomgenerator.hpp line 48. -/
noncomputable def unif01Open (b : Build) (s : RandomGenerator) : Res (ℝ × RandomGenerator) := do
  let (x, d) ← Dsfmt.genrandOpenOpen b s.dsfmt
  .ok (x, { s with dsfmt := d })

/-- `Initialize()`, randomgenerator.cpp lines 52-60. -/
def initializeTime (b : Build) (time : BitVec 64) (s : RandomGenerator) : Res RandomGenerator := do
  let s ← initializeMT time s
  let (r, s) ← drawUint32 b s
  let s := { s with startSeed := r }
  let s := { s with isInitialized := true }
  initializeMT s.startSeed s

/-- `Initialize(seed)`, randomgenerator.cpp lines 62-68. -/
def initializeSeed (seed : BitVec 64) (s : RandomGenerator) : Res RandomGenerator := do
  let s := { s with startSeed := seed }
  let s := { s with isInitialized := true }
  initializeMT s.startSeed s

/-- `GetStartSeed`, randomgenerator.cpp lines 129-136. -/
def getStartSeed (s : RandomGenerator) : Res (BitVec 64) :=
  if !s.isInitialized then .throws "Random number generator is not initalized." else .ok s.startSeed

/-- `g`, randomgenerator.cpp lines 140-155. -/
noncomputable def g (x : ℝ) : ℝ :=
  let a := 17.49731196
  let b := 2.36785163
  let c := 2.15787544
  let absx := |x|
  let result := a * Real.exp (-x * x / 2.0)
  if absx < 1.0 then result - (2.0 * b * (3.0 - x * x) + c * (1.5 - absx))
  else if absx < 1.5 then result - (b * (3.0 - absx) * (3.0 - absx) + c * (1.5 - absx))
  else result - b * (3.0 - absx) * (3.0 - absx)

/-- A round of the loop in randomgenerator.cpp lines 94-100. -/
noncomputable def wedgeRound {σ : Type} (unif : σ → Res (ℝ × σ)) (s : σ) : Res (Option ℝ × σ) := do
  let (u1, s) ← unif s
  let (u2, s) ← unif s
  let x := 6.0 * u1 - 3.0
  .ok (if 0.358 * u2 > g x then none else some x, s)

/-- A round of the inner loop in randomgenerator.cpp lines 106-114. -/
noncomputable def discRound {σ : Type} (unif : σ → Res (ℝ × σ)) (s : σ) :
    Res (Option (ℝ × ℝ × ℝ) × σ) := do
  let (u1, s) ← unif s
  let (u2, s) ← unif s
  let v1 := 2.0 * u1 - 1.0
  let v2 := 2.0 * u2 - 1.0
  let w := v1 * v1 + v2 * v2
  .ok (if w ≥ 1.0 then none else some (v1, v2, w), s)

/-- A round of the outer loop in randomgenerator.cpp lines 104-119, and the choice in lines 120-123
if it is the last round. For `w = 0` the result is NaN, as in `Random.tailRound`. -/
noncomputable def tailRound {σ : Type} (unif : σ → Res (ℝ × σ)) (s : σ) : Res (Option ℝ × σ) := do
  let ((v1, v2, w), s) ← untilLoop (discRound unif) s
  if w = 0 then .nonfinite "NaN returned" else
  let c := √((9.0 - 2.0 * Real.log w) / w)
  let s' := c * v1
  let t := c * v2
  .ok (if |s'| ≤ 3.0 ∧ |t| ≤ 3.0 then none else some (if |s'| > 3.0 then s' else t), s)

/-- `Norm01`, randomgenerator.cpp lines 71-126; the calls of `Unif01()` are calls of `unif`. -/
noncomputable def norm01With {σ : Type} (unif : σ → Res (ℝ × σ)) (s : σ) : Res (ℝ × σ) := do
  let (u, s) ← unif s
  if u < 0.8638 then do
    let (u1, s) ← unif s
    let (u2, s) ← unif s
    let (u3, s) ← unif s
    .ok (2.0 * (u1 + u2 + u3) - 3.0, s)
  else if u < 0.9745 then do
    let (u1, s) ← unif s
    let (u2, s) ← unif s
    .ok (1.5 * (u1 + u2 - 1.0), s)
  else if u < 0.9973002039 then untilLoop (wedgeRound unif) s
  else untilLoop (tailRound unif) s

/-- `Norm01` with the uniform numbers of the generator. -/
noncomputable def norm01 (b : Build) (s : RandomGenerator) : Res (ℝ × RandomGenerator) := norm01With (unif01 b) s

end RandomGenerator

end Verif
