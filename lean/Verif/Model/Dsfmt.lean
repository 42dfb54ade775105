import Verif.Model.Outcome
import Mathlib.Data.Real.Basic

/-!
# The dSFMT generator

Models src/nrlib/random/dSFMT.cpp, dSFMT.h, dSFMT-common.h, dSFMT-params.h and
dSFMT-params19937.h, for `DSFMT_MEXP = 19937` (dSFMT.h line 50).

Simplifications, used throughout this file:
* The union `w128_t` is two 64-bit words; 32-bit accesses see it as little endian memory (on big
  endian machines `idxof`, dSFMT.cpp lines 55-67, swaps the halves so that the 64-bit words are the
  same). Pointers `&status[0].u[0]`, `&status[0].u32[0]`, `&status[0].d[0]` used as flat arrays over
  the whole state are modelled as indices into the whole state.
* `idx` is a natural number (an `int` in the code; it is never decreased below zero).
* Failed `assert`s are undefined behaviour.
-/

namespace Verif

/-- `w128_t`, dSFMT.h lines 154-182, as `u[0]` and `u[1]`. -/
structure W128 where
  u0 : BitVec 64
  u1 : BitVec 64

/-- `dsfmt_t`, dSFMT.h lines 185-189. `status` has `DSFMT_N + 1` entries. -/
structure Dsfmt where
  status : List W128
  idx : ℕ

namespace Dsfmt

/-- `DSFMT_N`, dSFMT.h line 72. -/
def nW : ℕ := (19937 - 128) / 104 + 1
/-- `DSFMT_N64`, dSFMT.h line 78. -/
def n64 : ℕ := nW * 2
/-- `DSFMT_POS1`, dSFMT-params19937.h line 6. -/
def pos1 : ℕ := 117
/-- `DSFMT_SL1`, dSFMT-params19937.h line 7. -/
def sl1 : ℕ := 19
/-- `DSFMT_SR`, dSFMT-params.h line 35. -/
def sr : ℕ := 12
/-- `DSFMT_MSK1`, dSFMT-params19937.h line 8. -/
def msk1 : BitVec 64 := 0x000ffafffffffb3f#64
/-- `DSFMT_MSK2`, dSFMT-params19937.h line 9. -/
def msk2 : BitVec 64 := 0x000ffdfffc90fffd#64
/-- `DSFMT_FIX1`, dSFMT-params19937.h line 14. -/
def fix1 : BitVec 64 := 0x90014964b32f4329#64
/-- `DSFMT_FIX2`, dSFMT-params19937.h line 15. -/
def fix2 : BitVec 64 := 0x3b8d12ac548a7c7a#64
/-- `DSFMT_PCV1`, dSFMT-params19937.h line 16. -/
def pcv1 : BitVec 64 := 0x3d84e1ac0dc82880#64
/-- `DSFMT_PCV2`, dSFMT-params19937.h line 17. -/
def pcv2 : BitVec 64 := 0x0000000000000001#64
/-- `DSFMT_LOW_MASK`, dSFMT-params.h line 33. -/
def lowMask : BitVec 64 := 0x000FFFFFFFFFFFFF#64
/-- `DSFMT_HIGH_CONST`, dSFMT-params.h line 34. -/
def highConst : BitVec 64 := 0x3FF0000000000000#64

/-! ## The recursion -/

/-- `do_recursion` in standard C, dSFMT-common.h lines 101-113. Returns `*r` and the new `*lung`. -/
def recPortable (a b lung : W128) : W128 × W128 :=
  let t0 := a.u0
  let t1 := a.u1
  let L0 := lung.u0
  let L1 := lung.u1
  let l0 := (t0 <<< sl1) ^^^ (L1 >>> 32) ^^^ (L1 <<< 32) ^^^ b.u0
  let l1 := (t1 <<< sl1) ^^^ (L0 >>> 32) ^^^ (L0 <<< 32) ^^^ b.u1
  let r0 := (l0 >>> sr) ^^^ (l0 &&& msk1) ^^^ t0
  let r1 := (l1 >>> sr) ^^^ (l1 &&& msk2) ^^^ t1
  (⟨r0, r1⟩, ⟨l0, l1⟩)

/-- The 128-bit register that holds a `w128_t` (`si`, dSFMT.h lines 165-171). -/
def si (w : W128) : BitVec 128 := w.u1 ++ w.u0
/-- The `w128_t` held by a 128-bit register. -/
def ofSi (x : BitVec 128) : W128 := ⟨x.extractLsb' 0 64, x.extractLsb' 64 64⟩
/-- `_mm_slli_epi64`: shift both 64-bit lanes left. -/
def slliEpi64 (x : BitVec 128) (k : ℕ) : BitVec 128 :=
  (x.extractLsb' 64 64 <<< k) ++ (x.extractLsb' 0 64 <<< k)
/-- `_mm_srli_epi64`: shift both 64-bit lanes right. -/
def srliEpi64 (x : BitVec 128) (k : ℕ) : BitVec 128 :=
  (x.extractLsb' 64 64 >>> k) ++ (x.extractLsb' 0 64 >>> k)
/-- `_mm_shuffle_epi32`: lane `n` of the result is the lane of `x` selected by bits `2n` and `2n+1`
of `imm`. -/
def shuffleEpi32 (x : BitVec 128) (imm : ℕ) : BitVec 128 :=
  x.extractLsb' (32 * (imm / 64 % 4)) 32 ++ x.extractLsb' (32 * (imm / 16 % 4)) 32 ++
    (x.extractLsb' (32 * (imm / 4 % 4)) 32 ++ x.extractLsb' (32 * (imm % 4)) 32)
/-- `sse2_param_mask`, dSFMT-common.h line 36. -/
def sse2ParamMask : BitVec 128 := si ⟨msk1, msk2⟩

/-- `do_recursion` with SSE2 intrinsics, dSFMT-common.h lines 77-92; `SSE2_SHUFF` is 0x1b
(dSFMT-params.h line 39). -/
def recSse2 (a b u : W128) : W128 × W128 :=
  let x := si a
  let z := slliEpi64 x sl1
  let y := shuffleEpi32 (si u) 0x1b
  let z := z ^^^ si b
  let y := y ^^^ z
  let v := srliEpi64 y sr
  let w := y &&& sse2ParamMask
  let v := v ^^^ x
  let v := v ^^^ w
  (ofSi v, ofSi y)

/-- The two builds: `HAVE_SSE2` is defined except on arm64 (dSFMT.h lines 46-49). -/
inductive Build where
  | sse2
  | portable

/-- `do_recursion`. -/
def doRecursion : Build → W128 → W128 → W128 → W128 × W128
  | .sse2 => recSse2
  | .portable => recPortable

/-! ## One number at a time -/

/-- `do_recursion(&st[i], &st[i], &st[j], &lung)`. -/
def recInto (b : Build) (i j : ℕ) (s : List W128 × W128) : Res (List W128 × W128) := do
  let x ← rd s.1 i
  let y ← rd s.1 j
  let r := doRecursion b x y s.2
  let st ← wr s.1 i r.1
  .ok (st, r.2)

/-- `dsfmt_gen_rand_all`, dSFMT.cpp lines 410-426. -/
def genRandAll (b : Build) (d : Dsfmt) : Res Dsfmt := do
  let lung ← rd d.status nW
  let s ← recInto b 0 pos1 (d.status, lung)
  let s ← forRange 1 (nW - pos1) (fun i s => recInto b i (i + pos1) s) s
  let s ← forRange (nW - pos1) nW (fun i s => recInto b i (i + pos1 - nW) s) s
  let st ← wr s.1 nW s.2
  .ok { d with status := st }

/-- Read of entry `i` of the state as an array of 64-bit words. -/
def rd64 (st : List W128) (i : ℕ) : Res (BitVec 64) := do
  let w ← rd st (i / 2)
  .ok (if i % 2 = 0 then w.u0 else w.u1)

/-- Write of entry `i` of the state as an array of 64-bit words. -/
def wr64 (st : List W128) (i : ℕ) (x : BitVec 64) : Res (List W128) := do
  let w ← rd st (i / 2)
  wr st (i / 2) (if i % 2 = 0 then ⟨x, w.u1⟩ else ⟨w.u0, x⟩)

/-- The common part of the `genrand` functions, dSFMT.h lines 260-264, 281-285, 372-376: renew the
state if it is used up, take the next word. -/
def nextWord (b : Build) (d : Dsfmt) : Res (BitVec 64 × Dsfmt) := do
  let d ← if n64 ≤ d.idx then (genRandAll b d).bind fun d => .ok { d with idx := 0 } else .ok d
  let w ← rd64 d.status d.idx
  .ok (w, { d with idx := d.idx + 1 })

/-- The number a 64-bit pattern stands for as an IEEE double. -/
noncomputable def f64Val (w : BitVec 64) : Res ℝ :=
  let e := (w.extractLsb' 52 11).toNat
  let m : ℝ := (w.extractLsb' 0 52).toNat
  let sgn : ℝ := if w.getLsbD 63 then -1 else 1
  if e = 2047 then .nonfinite "inf or NaN in generator state"
  else if e = 0 then .ok (sgn * 2 ^ (-1022 : ℤ) * (m / 2 ^ 52))
  else .ok (sgn * 2 ^ ((e : ℤ) - 1023) * (1 + m / 2 ^ 52))

/-- `dsfmt_genrand_uint32`, dSFMT.h lines 256-266. -/
def genrandUint32 (b : Build) (d : Dsfmt) : Res (BitVec 32 × Dsfmt) := do
  let (w, d) ← nextWord b d
  .ok ((w &&& 0xffffffff#64).setWidth 32, d)

/-- `dsfmt_genrand_close1_open2`, dSFMT.h lines 277-287. -/
noncomputable def genrandClose1Open2 (b : Build) (d : Dsfmt) : Res (ℝ × Dsfmt) := do
  let (w, d) ← nextWord b d
  let x ← f64Val w
  .ok (x, d)

/-- `dsfmt_genrand_close_open`, dSFMT.h lines 319-321. -/
noncomputable def genrandCloseOpen (b : Build) (d : Dsfmt) : Res (ℝ × Dsfmt) := do
  let (x, d) ← genrandClose1Open2 b d
  .ok (x - 1.0, d)

/-- `dsfmt_genrand_open_close`, dSFMT.h lines 342-344. -/
noncomputable def genrandOpenClose (b : Build) (d : Dsfmt) : Res (ℝ × Dsfmt) := do
  let (x, d) ← genrandClose1Open2 b d
  .ok (2.0 - x, d)

/-- `dsfmt_genrand_open_open`, dSFMT.h lines 365-379. -/
noncomputable def genrandOpenOpen (b : Build) (d : Dsfmt) : Res (ℝ × Dsfmt) := do
  let (w, d) ← nextWord b d
  let x ← f64Val (w ||| 1#64)
  .ok (x - 1.0, d)

/-! ## Blocks of numbers -/

/-- An entry of the array of the caller: bits, or a pair of doubles after conversion.
Simplification: converted entries are never looked at as bits again; a model that did so would
end in undefined behaviour. -/
inductive Cell where
  | bits (w : W128)
  | dbl (x y : ℝ)

/-- Read of the array entry as bits. -/
def Cell.raw : Cell → Res W128
  | .bits w => .ok w
  | .dbl _ _ => .ub "converted entry read as bits (not modelled)"

/-- `convert_c0o1`, dSFMT.cpp lines 76-78, 107-110. -/
noncomputable def convertC0o1 (c : Cell) : Res Cell := do
  let w ← c.raw
  let x ← f64Val w.u0
  let y ← f64Val w.u1
  .ok (.dbl (x - 1.0) (y - 1.0))

/-- `convert_o0c1`, dSFMT.cpp lines 86-88, 118-121. -/
noncomputable def convertO0c1 (c : Cell) : Res Cell := do
  let w ← c.raw
  let x ← f64Val w.u0
  let y ← f64Val w.u1
  .ok (.dbl (2.0 - x) (2.0 - y))

/-- `convert_o0o1`, dSFMT.cpp lines 96-99, 129-134. -/
noncomputable def convertO0o1 (c : Cell) : Res Cell := do
  let w ← c.raw
  let x ← f64Val (w.u0 ||| 1#64)
  let y ← f64Val (w.u1 ||| 1#64)
  .ok (.dbl (x - 1.0) (y - 1.0))

/-- The locals of the block functions: the array, the state and `lung`. -/
structure Block where
  arr : List Cell
  st : List W128
  lung : W128

/-- `do_recursion(&array[i], &status[j], &status[k], &lung)`. -/
def recSS (b : Build) (i j k : ℕ) (s : Block) : Res Block := do
  let x ← rd s.st j
  let y ← rd s.st k
  let r := doRecursion b x y s.lung
  let arr ← wr s.arr i (.bits r.1)
  .ok { s with arr := arr, lung := r.2 }

/-- `do_recursion(&array[i], &status[j], &array[k], &lung)`. -/
def recSA (b : Build) (i j k : ℕ) (s : Block) : Res Block := do
  let x ← rd s.st j
  let c ← rd s.arr k
  let y ← c.raw
  let r := doRecursion b x y s.lung
  let arr ← wr s.arr i (.bits r.1)
  .ok { s with arr := arr, lung := r.2 }

/-- `do_recursion(&array[i], &array[j], &array[k], &lung)`. -/
def recAA (b : Build) (i j k : ℕ) (s : Block) : Res Block := do
  let c ← rd s.arr j
  let x ← c.raw
  let c ← rd s.arr k
  let y ← c.raw
  let r := doRecursion b x y s.lung
  let arr ← wr s.arr i (.bits r.1)
  .ok { s with arr := arr, lung := r.2 }

/-- `status[j] = array[i]`. -/
def copyBack (j i : ℕ) (s : Block) : Res Block := do
  let c ← rd s.arr i
  let x ← c.raw
  let st ← wr s.st j x
  .ok { s with st := st }

/-- `convert(&array[i])`. -/
def convertAt (convert : Cell → Res Cell) (i : ℕ) (s : Block) : Res Block := do
  let c ← rd s.arr i
  let c ← convert c
  let arr ← wr s.arr i c
  .ok { s with arr := arr }

/-- `gen_rand_array_c1o2`, dSFMT.cpp lines 144-173. `size` counts 128-bit entries. The loop variable
`i` of the last loop starts at `max DSFMT_N (size - DSFMT_N)`, and `j` at
`max 0 (2 * DSFMT_N - size)`; `size - DSFMT_N` is not negative because of the assertion in the
callers. -/
def genRandArrayC1o2 (b : Build) (d : Dsfmt) (arr : List Cell) (size : ℕ) :
    Res (List Cell × Dsfmt) := do
  let lung ← rd d.status nW
  let s ← recSS b 0 0 pos1 ⟨arr, d.status, lung⟩
  let s ← forRange 1 (nW - pos1) (fun i s => recSS b i i (i + pos1) s) s
  let s ← forRange (nW - pos1) nW (fun i s => recSA b i i (i + pos1 - nW) s) s
  let s ← forRange nW (size - nW) (fun i s => recAA b i (i - nW) (i + pos1 - nW) s) s
  let s ← forRange 0 (2 * nW - size) (fun j s => copyBack j (j + size - nW) s) s
  let i0 := max nW (size - nW)
  let s ← forRange i0 size (fun i s => do
    let s ← recAA b i (i - nW) (i + pos1 - nW) s
    copyBack (2 * nW - size + (i - i0)) i s) s
  let st ← wr s.st nW s.lung
  .ok (s.arr, { d with status := st })

/-- `gen_rand_array_c0o1`, `gen_rand_array_o0o1`, `gen_rand_array_o0c1`, dSFMT.cpp lines 182-216,
225-259, 268-302, which differ only in the conversion. -/
def genRandArrayConv (convert : Cell → Res Cell) (b : Build) (d : Dsfmt) (arr : List Cell)
    (size : ℕ) : Res (List Cell × Dsfmt) := do
  let lung ← rd d.status nW
  let s ← recSS b 0 0 pos1 ⟨arr, d.status, lung⟩
  let s ← forRange 1 (nW - pos1) (fun i s => recSS b i i (i + pos1) s) s
  let s ← forRange (nW - pos1) nW (fun i s => recSA b i i (i + pos1 - nW) s) s
  let s ← forRange nW (size - nW) (fun i s => do
    let s ← recAA b i (i - nW) (i + pos1 - nW) s
    convertAt convert (i - nW) s) s
  let s ← forRange 0 (2 * nW - size) (fun j s => copyBack j (j + size - nW) s) s
  let i0 := max nW (size - nW)
  let s ← forRange i0 size (fun i s => do
    let s ← recAA b i (i - nW) (i + pos1 - nW) s
    let s ← copyBack (2 * nW - size + (i - i0)) i s
    convertAt convert (i - nW) s) s
  let s ← forRange (size - nW) size (fun i s => convertAt convert i s) s
  let st ← wr s.st nW s.lung
  .ok (s.arr, { d with status := st })

/-- The assertions of the `fill_array` functions: an even number of doubles, at least
`DSFMT_N64`. `arr` has one entry per two doubles. -/
def fillArray (gen : List Cell → ℕ → Res (List Cell × Dsfmt)) (arr : List Cell) (size : ℕ) :
    Res (List Cell × Dsfmt) :=
  if size % 2 = 0 ∧ n64 ≤ size then gen arr (size / 2) else .ub "assertion failed"

/-- `dsfmt_fill_array_close1_open2`, dSFMT.cpp lines 456-460. -/
def fillArrayClose1Open2 (b : Build) (d : Dsfmt) (arr : List Cell) (size : ℕ) :
    Res (List Cell × Dsfmt) :=
  fillArray (genRandArrayC1o2 b d) arr size

/-- `dsfmt_fill_array_open_close`, dSFMT.cpp lines 474-478. -/
noncomputable def fillArrayOpenClose (b : Build) (d : Dsfmt) (arr : List Cell) (size : ℕ) :
    Res (List Cell × Dsfmt) :=
  fillArray (genRandArrayConv convertO0c1 b d) arr size

/-- `dsfmt_fill_array_close_open`, dSFMT.cpp lines 492-496. -/
noncomputable def fillArrayCloseOpen (b : Build) (d : Dsfmt) (arr : List Cell) (size : ℕ) :
    Res (List Cell × Dsfmt) :=
  fillArray (genRandArrayConv convertC0o1 b d) arr size

/-- `dsfmt_fill_array_open_open`, dSFMT.cpp lines 510-514. -/
noncomputable def fillArrayOpenOpen (b : Build) (d : Dsfmt) (arr : List Cell) (size : ℕ) :
    Res (List Cell × Dsfmt) :=
  fillArray (genRandArrayConv convertO0o1 b d) arr size

/-! ## Seeding -/

/-- Read of entry `i` of the state as an array of 32-bit words. -/
def rd32 (st : List W128) (i : ℕ) : Res (BitVec 32) := do
  let w ← rd64 st (i / 2)
  .ok (if i % 2 = 0 then w.extractLsb' 0 32 else w.extractLsb' 32 32)

/-- Write of entry `i` of the state as an array of 32-bit words. -/
def wr32 (st : List W128) (i : ℕ) (x : BitVec 32) : Res (List W128) := do
  let w ← rd64 st (i / 2)
  wr64 st (i / 2) (if i % 2 = 0 then w.extractLsb' 32 32 ++ x else x ++ w.extractLsb' 0 32)

/-- `initial_mask`, dSFMT.cpp lines 329-337. -/
def initialMask (st : List W128) : Res (List W128) :=
  forRange 0 (nW * 2) (fun i st => do
    let x ← rd64 st i
    wr64 st i ((x &&& lowMask) ||| highConst)) st

/-- dSFMT.cpp lines 356-361: the parity of the certified bits, folded down to bit 0. The loop
`for (i = 32; i > 0; i >>= 1)` is written out. -/
def certInner (tmp0 tmp1 : BitVec 64) : BitVec 64 :=
  let inner := tmp0 &&& pcv1
  let inner := inner ^^^ (tmp1 &&& pcv2)
  let inner := inner ^^^ (inner >>> 32)
  let inner := inner ^^^ (inner >>> 16)
  let inner := inner ^^^ (inner >>> 8)
  let inner := inner ^^^ (inner >>> 4)
  let inner := inner ^^^ (inner >>> 2)
  let inner := inner ^^^ (inner >>> 1)
  inner &&& 1#64

/-- `period_certification`, dSFMT.cpp lines 343-382. `DSFMT_PCV2 & 1` is 1, so line 368 is the
branch that is compiled. -/
def periodCertification (st : List W128) : Res (List W128) := do
  let w ← rd st nW
  if certInner (w.u0 ^^^ fix1) (w.u1 ^^^ fix2) = 1#64 then .ok st
  else wr st nW ⟨w.u0, w.u1 ^^^ 1#64⟩

/-- `dsfmt_chk_init_gen_rand`, dSFMT.cpp lines 526-544, with the caller's exponent equal to the
library's (the check of lines 531-534 compares two copies of one macro). The product in lines
538-539 is computed in `unsigned long` and stored in 32 bits; arithmetic modulo 2^32 gives the same
result. -/
def initGenRand (seed : BitVec 32) (d : Dsfmt) : Res Dsfmt := do
  let st ← wr32 d.status 0 seed
  let st ← forRange 1 ((nW + 1) * 4) (fun i st => do
    let p ← rd32 st (i - 1)
    wr32 st i (1812433253#32 * (p ^^^ (p >>> 30)) + BitVec.ofNat 32 i)) st
  let st ← initialMask st
  let st ← periodCertification st
  .ok { status := st, idx := n64 }

/-- `ini_func1`, dSFMT.cpp lines 310-312. -/
def iniFunc1 (x : BitVec 32) : BitVec 32 := (x ^^^ (x >>> 27)) * 1664525#32

/-- `ini_func2`, dSFMT.cpp lines 320-322. -/
def iniFunc2 (x : BitVec 32) : BitVec 32 := (x ^^^ (x >>> 27)) * 1566083941#32

/-- `psfmt32[i] = f(psfmt32[i])`. -/
def upd32 (st : List W128) (i : ℕ) (f : BitVec 32 → BitVec 32) : Res (List W128) := do
  let x ← rd32 st i
  wr32 st i (f x)

/-- The body of the loops in dSFMT.cpp lines 593-602 and 603-612; `k` is `init_key[j]` or 0. -/
def arrayRound1 (size mid lag : ℕ) (k : BitVec 32) (s : List W128 × ℕ) : Res (List W128 × ℕ) := do
  let i := s.2
  let x ← rd32 s.1 i
  let y ← rd32 s.1 ((i + mid) % size)
  let z ← rd32 s.1 ((i + size - 1) % size)
  let r := iniFunc1 (x ^^^ y ^^^ z)
  let st ← upd32 s.1 ((i + mid) % size) (· + r)
  let r := r + (k + BitVec.ofNat 32 i)
  let st ← upd32 st ((i + mid + lag) % size) (· + r)
  let st ← wr32 st i r
  .ok (st, (i + 1) % size)

/-- The body of the loop in dSFMT.cpp lines 613-622. -/
def arrayRound2 (size mid lag : ℕ) (s : List W128 × ℕ) : Res (List W128 × ℕ) := do
  let i := s.2
  let x ← rd32 s.1 i
  let y ← rd32 s.1 ((i + mid) % size)
  let z ← rd32 s.1 ((i + size - 1) % size)
  let r := iniFunc2 (x + y + z)
  let st ← upd32 s.1 ((i + mid) % size) (· ^^^ r)
  let r := r - BitVec.ofNat 32 i
  let st ← upd32 st ((i + mid + lag) % size) (· ^^^ r)
  let st ← wr32 st i r
  .ok (st, (i + 1) % size)

/-- `dsfmt_chk_init_by_array`, dSFMT.cpp lines 554-626. `size = 768 >= 623`, so `lag = 11`. The
`memset` of line 580 gives every byte of the state the value 0x8b. `key_length` is the length of
`key`, which must be an `int` (`key_length + 1` in line 581 must not overflow). -/
def initByArray (key : List (BitVec 32)) (d : Dsfmt) : Res Dsfmt := do
  let size := (nW + 1) * 4
  let lag := 11
  let mid := (size - lag) / 2
  let len := key.length
  if 2 ^ 31 - 1 ≤ len then .ub "key_length + 1 overflows" else
  let st := List.replicate d.status.length
    (⟨0x8b8b8b8b8b8b8b8b#64, 0x8b8b8b8b8b8b8b8b#64⟩ : W128)
  let count := if size < len + 1 then len + 1 else size
  let x ← rd32 st 0
  let y ← rd32 st (mid % size)
  let z ← rd32 st ((size - 1) % size)
  let r := iniFunc1 (x ^^^ y ^^^ z)
  let st ← upd32 st (mid % size) (· + r)
  let r := r + BitVec.ofNat 32 len
  let st ← upd32 st ((mid + lag) % size) (· + r)
  let st ← wr32 st 0 r
  let count := count - 1
  let s ← forRange 0 (min count len) (fun j s => do
    let k ← rd key j
    arrayRound1 size mid lag k s) (st, 1)
  let s ← forRange (min count len) count (fun _ s => arrayRound1 size mid lag 0#32 s) s
  let s ← forRange 0 size (fun _ s => arrayRound2 size mid lag s) s
  let st ← initialMask s.1
  let st ← periodCertification st
  .ok { status := st, idx := n64 }

end Dsfmt

end Verif
