import Verif.Spec.Threads
import Verif.Model.Api

/-!
# A simulation as a function of the words it draws

`advanced.simulate` with a seed in force draws words from the generator all threads share. Here the
words are in a list; `advancedSimulate_words` (Lemmas/ThreadsSim) ties this to the call itself.
-/

namespace Verif.Spec.Mt

open Threads

/-- The arguments of `advanced.simulate`. -/
structure SimArgs where
  v : Variogram
  nx : ℕ
  dx : ℝ
  ny : ℕ
  dy : ℝ
  nz : ℕ
  dz : ℝ
  padx : ℤ
  pady : ℤ
  padz : ℤ
  sx : ℝ
  sy : ℝ
  sz : ℝ

/-- The call. -/
noncomputable def SimArgs.call (a : SimArgs) (S : Setup) (e : Env) (s : Random) :
    Res (List ℝ × Random) :=
  advancedSimulate S e a.v a.nx a.dx a.ny a.dy a.nz a.dz a.padx a.pady a.padz a.sx a.sy a.sz s

/-- What the call does once there is a seed, from any source of words: `newRg` makes a generator
object, `norm` draws a normal number. -/
noncomputable def SimArgs.from {γ : Type} (a : SimArgs) (S : Setup)
    (newRg : γ → Res (RandomGenerator × γ)) (norm : γ → Res (ℝ × γ)) (g : γ) : Res (List ℝ × γ) :=
  if a.ny ≤ 1 ∨ a.dy < 0.0 then
    (simulate1D S.F S.p newRg (RandomGenerator.norm01 S.b) a.v a.nx a.dx a.nx none a.padx a.sx g).bind
      fun r => .ok (r.1, r.2.2)
  else if a.nz ≤ 1 ∨ a.dz < 0.0 then
    (simulate2D S.F S.p newRg (RandomGenerator.norm01 S.b) a.v a.nx a.dx a.ny a.dy 1 [] none a.padx
      a.pady a.sx a.sy g).bind fun r => (rd r.1 0).bind fun f => .ok (f.data, r.2.2)
  else
    (simulate3D S.F S.p norm a.v a.nx a.dx a.ny a.dy a.nz a.dz 1 [] a.padx a.pady a.padz a.sx a.sy
      a.sz g).bind fun r => (rd r.1 0).bind fun f => .ok (f.data, r.2)

/-- A generator object seeded with a word. -/
def rgOfWord (raw : Dsfmt) (w : BitVec 64) : Res RandomGenerator :=
  (RandomGenerator.create raw).initializeSeed (((w &&& 0xffffffff#64).setWidth 32).setWidth 64)

/-- The uniform number of a word. -/
noncomputable def unifOfWord (w : BitVec 64) : Res ℝ :=
  (Dsfmt.f64Val w).bind fun x => .ok (x - 1.0)

/-- Takes the next word of a list; without one there is no result. -/
def takeWord {α : Type} (f : BitVec 64 → Res α) : List (BitVec 64) → Res (α × List (BitVec 64))
  | [] => .diverges
  | w :: ws => (f w).bind fun x => .ok (x, ws)

/-- The call with the words in the list: the field and the words not used. There is no result if the
list is too short. -/
noncomputable def SimArgs.words (a : SimArgs) (S : Setup) (e : Env) :
    List (BitVec 64) → Res (List ℝ × List (BitVec 64)) :=
  a.from S (takeWord (rgOfWord e.raw)) (Random.norm01With (takeWord unifOfWord))

/-- The call has got enough words, and returns the field. -/
def SimArgs.Returns (a : SimArgs) (S : Setup) (e : Env) (l : List (BitVec 64)) (out : List ℝ) : Prop :=
  ∃ rest, a.words S e l = .ok (out, rest)

open Classical in
/-- The call as one that takes words until it can return. -/
noncomputable def SimArgs.client (a : SimArgs) (S : Setup) (e : Env) : Client (List (BitVec 64)) where
  next l w := l ++ [w]
  done l := decide (∃ out, a.Returns S e l out)

end Verif.Spec.Mt
