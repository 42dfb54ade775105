import Verif.Model.FileIO
import Verif.Spec.FileIO
import Verif.Lemmas.Outcome
import Verif.Lemmas.Loop
import Mathlib.Tactic.Ring
import Mathlib.Tactic.IntervalCases

/-!
# Lemmas on binary numbers in files
-/

namespace Verif.FileIO

theorem bytesOf_length {w : ℕ} (k : ℕ) (x : BitVec w) : (bytesOf k x).length = k := by
  induction k generalizing x with
  | zero => rfl
  | succ k ih => simp [bytesOf, ih]

theorem bytesOf_get {w : ℕ} (k : ℕ) (x : BitVec w) (j : ℕ) (hj : j < k) :
    (bytesOf k x)[j]? = some (x.extractLsb' (8 * j) 8) := by
  induction k generalizing x j with
  | zero => omega
  | succ k ih =>
    cases j with
    | zero =>
      simp only [bytesOf, List.getElem?_cons_zero, Option.some.injEq]
      apply BitVec.eq_of_getLsbD_eq
      intro i hi
      simp [hi]
    | succ j =>
      simp only [bytesOf, List.getElem?_cons_succ]
      rw [ih _ _ (by omega)]
      congr 1
      apply BitVec.eq_of_getLsbD_eq
      intro i hi
      simp only [BitVec.getLsbD_extractLsb', BitVec.getLsbD_ushiftRight]
      congr 2
      omega

theorem ofBytes_getLsbD (w : ℕ) (l : List Byte) (i : ℕ) :
    (ofBytes w l).getLsbD i = (decide (i < w) && (l[i / 8]?.getD 0).getLsbD (i % 8)) := by
  induction l generalizing i with
  | nil => simp [ofBytes]
  | cons b l ih =>
    simp only [ofBytes, BitVec.getLsbD_or, BitVec.getLsbD_shiftLeft, BitVec.getLsbD_setWidth, ih]
    by_cases h : i < 8
    · have h1 : i / 8 = 0 := by omega
      have h2 : i % 8 = i := by omega
      simp [h, h1, h2]
    · have h1 : i / 8 = (i - 8) / 8 + 1 := by omega
      have h2 : i % 8 = (i - 8) % 8 := by omega
      rw [h1, h2]
      simp only [h, List.getElem?_cons_succ]
      have h3 : b.getLsbD i = false := BitVec.getLsbD_of_ge _ _ (by omega)
      by_cases hw : i < w
      · have : i - 8 < w := by omega
        simp [hw, this, h3]
      · simp [hw]

theorem ofBytes_bytesOf {w : ℕ} (k : ℕ) (h : w ≤ 8 * k) (x : BitVec w) :
    ofBytes w (bytesOf k x) = x := by
  apply BitVec.eq_of_getLsbD_eq
  intro i hi
  rw [ofBytes_getLsbD, bytesOf_get _ _ _ (by omega)]
  simp only [hi, Option.getD_some, BitVec.getLsbD_extractLsb', decide_true, Bool.true_and]
  have : 8 * (i / 8) + i % 8 = i := by omega
  rw [this]
  simp [Nat.mod_lt]

theorem bytesOf_ofBytes {w : ℕ} (l : List Byte) (h : 8 * l.length ≤ w) :
    bytesOf l.length (ofBytes w l) = l := by
  apply List.ext_getElem?
  intro j
  by_cases hj : j < l.length
  · rw [bytesOf_get _ _ _ hj]
    obtain ⟨b, hb⟩ : ∃ b, l[j]? = some b := ⟨l[j], by simp [hj]⟩
    rw [hb]
    congr 1
    apply BitVec.eq_of_getLsbD_eq
    intro i hi
    simp only [BitVec.getLsbD_extractLsb', ofBytes_getLsbD, hi, decide_true, Bool.true_and]
    have h1 : (8 * j + i) / 8 = j := by omega
    have h2 : (8 * j + i) % 8 = i := by omega
    have h3 : 8 * j + i < w := by omega
    simp [h1, h2, h3, hb]
  · rw [List.getElem?_eq_none (by rw [bytesOf_length]; omega), List.getElem?_eq_none (by omega)]

theorem bytesOf_ofBytes' {w k : ℕ} (l : List Byte) (hl : l.length = k) (h : 8 * k ≤ w) :
    bytesOf k (ofBytes w l) = l := by
  subst hl
  exact bytesOf_ofBytes l h

theorem littleEndian_cons (b : Byte) (l : List Byte) :
    Spec.littleEndian (b :: l) = 256 * Spec.littleEndian l + b.toNat := by
  simp [Spec.littleEndian, Spec.bigEndian, List.foldl_append]

theorem littleEndian_bytesOf {w : ℕ} (k : ℕ) (x : BitVec w) :
    Spec.littleEndian (bytesOf k x) = x.toNat % 256 ^ k := by
  induction k generalizing x with
  | zero => simp [bytesOf, Spec.littleEndian, Spec.bigEndian, Nat.mod_one]
  | succ k ih =>
    rw [bytesOf, littleEndian_cons, ih, BitVec.toNat_ushiftRight, Nat.shiftRight_eq_div_pow,
      BitVec.toNat_setWidth, pow_succ 256 k, Nat.mul_comm (256 ^ k) 256, Nat.mod_mul]
    norm_num
    omega

theorem bigEndian_reverse (l : List Byte) : Spec.bigEndian l.reverse = Spec.littleEndian l := rfl

/-! ### The writers -/

theorem writeUInt16LE_eq (x : BitVec 16) : writeUInt16LE x = bytesOf 2 x := by
  simp only [writeUInt16LE, bytesOf, List.cons.injEq, and_true]
  refine ⟨?_, ?_⟩ <;>
  · apply BitVec.eq_of_getLsbD_eq
    intro i hi
    interval_cases i <;> simp

theorem writeUInt16BE_eq (x : BitVec 16) : writeUInt16BE x = (bytesOf 2 x).reverse := by
  rw [← writeUInt16LE_eq]
  rfl

theorem writeUInt32LE_eq (x : BitVec 32) : writeUInt32LE x = bytesOf 4 x := by
  simp only [writeUInt32LE, bytesOf, List.cons.injEq, and_true]
  refine ⟨?_, ?_, ?_, ?_⟩ <;>
  · apply BitVec.eq_of_getLsbD_eq
    intro i hi
    interval_cases i <;> simp

theorem writeUInt32BE_eq (x : BitVec 32) : writeUInt32BE x = (bytesOf 4 x).reverse := by
  rw [← writeUInt32LE_eq]
  rfl

theorem writeDoubleLE_eq (x : BitVec 64) : writeDoubleLE x = bytesOf 8 x := by
  simp only [writeDoubleLE, bytesOf, List.cons.injEq, and_true]
  refine ⟨?_, ?_, ?_, ?_, ?_, ?_, ?_, ?_⟩ <;>
  · apply BitVec.eq_of_getLsbD_eq
    intro i hi
    interval_cases i <;> simp

theorem writeDoubleBE_eq (x : BitVec 64) : writeDoubleBE x = (bytesOf 8 x).reverse := by
  rw [← writeDoubleLE_eq]
  rfl

/-! ### The parsers -/

theorem length2 {l : List Byte} (h : l.length = 2) : ∃ a b, l = [a, b] := by
  match l, h with
  | [a, b], _ => exact ⟨a, b, rfl⟩

theorem length4 {l : List Byte} (h : l.length = 4) : ∃ a b c d, l = [a, b, c, d] := by
  match l, h with
  | [a, b, c, d], _ => exact ⟨a, b, c, d, rfl⟩

theorem length8 {l : List Byte} (h : l.length = 8) :
    ∃ a b c d e f g i, l = [a, b, c, d, e, f, g, i] := by
  match l, h with
  | [a, b, c, d, e, f, g, i], _ => exact ⟨a, b, c, d, e, f, g, i, rfl⟩

theorem parseUInt16LE_eq {l : List Byte} (h : l.length = 2) :
    parseUInt16LE l = .ok (ofBytes 16 l) := by
  obtain ⟨a, b, rfl⟩ := length2 h
  simp [parseUInt16LE, ofBytes, rd, Res.monad_bind_eq, Res.bind]

theorem parseUInt16BE_eq {l : List Byte} (h : l.length = 2) :
    parseUInt16BE l = .ok (ofBytes 16 l.reverse) := by
  obtain ⟨a, b, rfl⟩ := length2 h
  simp [parseUInt16BE, ofBytes, rd, Res.monad_bind_eq, Res.bind]

theorem parseUInt32LE_eq {l : List Byte} (h : l.length = 4) :
    parseUInt32LE l = .ok (ofBytes 32 l) := by
  obtain ⟨a, b, c, d, rfl⟩ := length4 h
  simp [parseUInt32LE, ofBytes, rd, Res.monad_bind_eq, Res.bind, forRange, forN]

theorem parseUInt32BE_eq {l : List Byte} (h : l.length = 4) :
    parseUInt32BE l = .ok (ofBytes 32 l.reverse) := by
  obtain ⟨a, b, c, d, rfl⟩ := length4 h
  simp [parseUInt32BE, ofBytes, rd, Res.monad_bind_eq, Res.bind, forRange, forN]

theorem parseDoubleLE_eq {l : List Byte} (h : l.length = 8) :
    parseDoubleLE l = .ok (ofBytes 64 l) := by
  obtain ⟨a, b, c, d, e, f, g, i, rfl⟩ := length8 h
  simp [parseDoubleLE, ofBytes, rd, Res.monad_bind_eq, Res.bind, forRange, forN]

theorem parseDoubleBE_eq {l : List Byte} (h : l.length = 8) :
    parseDoubleBE l = .ok (ofBytes 64 l.reverse) := by
  obtain ⟨a, b, c, d, e, f, g, i, rfl⟩ := length8 h
  simp [parseDoubleBE, ofBytes, rd, Res.monad_bind_eq, Res.bind, forRange, forN]

/-! ### Bytes of a number in a given order -/

/-- The bytes of a number of `k` bytes in a file. -/
def encode {w : ℕ} (e : Endian) (k : ℕ) (x : BitVec w) : List Byte :=
  match e with
  | .little => bytesOf k x
  | .big => (bytesOf k x).reverse

/-- The number with these bytes. -/
def decode (e : Endian) (w : ℕ) (l : List Byte) : BitVec w :=
  match e with
  | .little => ofBytes w l
  | .big => ofBytes w l.reverse

theorem encode_length {w : ℕ} (e : Endian) (k : ℕ) (x : BitVec w) : (encode e k x).length = k := by
  cases e <;> simp [encode, bytesOf_length]

theorem decode_encode {w : ℕ} (e : Endian) (k : ℕ) (h : w ≤ 8 * k) (x : BitVec w) :
    decode e w (encode e k x) = x := by
  cases e <;> simp [encode, decode, ofBytes_bytesOf k h]

theorem toMem_eq {w : ℕ} (native : Endian) (k : ℕ) (x : BitVec w) :
    toMem native k x = encode native k x := by
  cases native <;> rfl

theorem ofMem_eq (native : Endian) (w : ℕ) (l : List Byte) : ofMem native w l = decode native w l := by
  cases native <;> rfl

theorem toMem_toOrder {w : ℕ} (native e : Endian) (k : ℕ) (h : 8 * k ≤ w) (x : BitVec w) :
    toMem native k (toOrder native e k x) = encode e k x := by
  have hr : (bytesOf k x).reverse.length = k := by simp [bytesOf_length]
  cases native <;> cases e <;>
    simp [toMem, toOrder, encode, bytesOf_ofBytes' (w := w) _ hr h]

theorem toOrder_ofMem {w : ℕ} (native e : Endian) (k : ℕ) (h : 8 * k ≤ w) {l : List Byte}
    (hl : l.length = k) : toOrder native e k (ofMem native w l) = decode e w l := by
  have hr : l.reverse.length = k := by simp [hl]
  cases native <;> cases e <;>
    simp [ofMem, toOrder, decode, bytesOf_ofBytes' (w := w) _ hr h, bytesOf_ofBytes' (w := w) _ hl h]

theorem writeBinaryShort_eq (s : List Byte) (x : BitVec 16) (e : Endian) :
    writeBinaryShort s x e = s ++ encode e 2 x := by
  cases e <;> simp [writeBinaryShort, encode, writeUInt16BE_eq, writeUInt16LE_eq]

theorem writeBinaryInt_eq (s : List Byte) (x : BitVec 32) (e : Endian) :
    writeBinaryInt s x e = s ++ encode e 4 x := by
  cases e <;> simp [writeBinaryInt, encode, writeUInt32BE_eq, writeUInt32LE_eq]

theorem writeBinaryDouble_eq (s : List Byte) (x : BitVec 64) (e : Endian) :
    writeBinaryDouble s x e = s ++ encode e 8 x := by
  cases e <;> simp [writeBinaryDouble, encode, writeDoubleBE_eq, writeDoubleLE_eq]

theorem readBinaryShort_eq (s : List Byte) (e : Endian) : readBinaryShort s e =
    if 2 ≤ s.length then .ok (decode e 16 (s.take 2), s.drop 2) else .throws "EndOfFile" := by
  unfold readBinaryShort readBytes
  split_ifs with h
  · have hl : (s.take 2).length = 2 := by simp [h]
    cases e <;> simp [Res.monad_bind_eq, parseUInt16BE_eq hl, parseUInt16LE_eq hl, decode, Res.bind]
  · rfl

theorem readBinaryInt_eq (s : List Byte) (e : Endian) : readBinaryInt s e =
    if 4 ≤ s.length then .ok (decode e 32 (s.take 4), s.drop 4) else .throws "EndOfFile" := by
  unfold readBinaryInt readBytes
  split_ifs with h
  · have hl : (s.take 4).length = 4 := by simp [h]
    cases e <;> simp [Res.monad_bind_eq, parseUInt32BE_eq hl, parseUInt32LE_eq hl, decode, Res.bind]
  · rfl

theorem readBinaryDouble_eq (s : List Byte) (e : Endian) : readBinaryDouble s e =
    if 8 ≤ s.length then .ok (decode e 64 (s.take 8), s.drop 8) else .throws "EndOfFile" := by
  unfold readBinaryDouble readBytes
  split_ifs with h
  · have hl : (s.take 8).length = 8 := by simp [h]
    cases e <;> simp [Res.monad_bind_eq, parseDoubleBE_eq hl, parseDoubleLE_eq hl, decode, Res.bind]
  · rfl

/-! ### Arrays -/

theorem forN_inPlace {w : ℕ} (f : BitVec w → Res (BitVec w)) (g : BitVec w → BitVec w)
    (hf : ∀ x, f x = .ok (g x)) (post pre : List (BitVec w)) :
    forN post.length pre.length (fun i buffer => do
      let x ← rd buffer i
      let y ← f x
      wr buffer i y) (pre ++ post) = .ok (pre ++ post.map g) := by
  induction post generalizing pre with
  | nil => simp [forN]
  | cons x post ih =>
    have h1 : rd (pre ++ x :: post) pre.length = .ok x := by simp [rd]
    have h2 : wr (pre ++ x :: post) pre.length (g x) = .ok ((pre ++ [g x]) ++ post) := by
      simp [wr]
    have := ih (pre ++ [g x])
    rw [List.length_append, List.length_singleton] at this
    simp only [forN, List.length_cons, Res.monad_bind_eq, h1, hf, Res.bind_ok, h2] at this ⊢
    rw [this]
    simp

theorem inPlaceM_eq (f : BitVec 32 → Res (BitVec 32)) (g : BitVec 32 → BitVec 32)
    (hf : ∀ x, f x = .ok (g x)) (l : List (BitVec 32)) : inPlaceM f l = .ok (l.map g) := by
  have := forN_inPlace f g hf l []
  simpa [inPlaceM, forRange] using this

theorem inPlaceSize_eq {w : ℕ} (g : BitVec w → BitVec w) (l : List (BitVec w)) :
    inPlaceSize g l = .ok (l.map g) := by
  have := forN_inPlace (fun x => .ok (g x)) g (fun _ => rfl) l []
  simpa [inPlaceSize, forRange, Res.monad_bind_eq] using this

theorem inPlace_eq {w : ℕ} (g : BitVec w → BitVec w) (l : List (BitVec w)) (h : l.length < 2 ^ 31) :
    inPlace g l = .ok (l.map g) := by
  unfold inPlace
  rw [if_neg (by omega)]
  exact inPlaceSize_eq g l

theorem memArray_map {w : ℕ} (native e : Endian) (k n : ℕ) (h : 8 * k ≤ w) (l : List Byte)
    (hl : l.length = k * n) :
    (memArray native w k n l).map (toOrder native e k)
      = (List.range n).map fun i => decode e w ((l.drop (k * i)).take k) := by
  induction n generalizing l with
  | zero => simp [memArray]
  | succ n ih =>
    have hk : k * (n + 1) = k * n + k := by ring
    have h1 : (l.take k).length = k := by simp; omega
    rw [memArray, List.map_cons, ih (l.drop k) (by simp; omega), List.range_succ_eq_map,
      List.map_cons, toOrder_ofMem _ _ _ h h1]
    simp only [Nat.mul_zero, List.drop_zero, List.map_map, List.cons.injEq, true_and]
    refine List.map_congr_left fun i _ => ?_
    simp only [Function.comp_apply, List.drop_drop, Nat.succ_eq_add_one]
    rw [show k * (i + 1) = k + k * i by ring]

theorem writeArray_eq {w : ℕ} (native : Endian) (k : ℕ) (hk : 8 * k ≤ w) (s : List Byte)
    (l : List (BitVec w)) (e : Endian) (h0 : l ≠ []) (h1 : l.length < 2 ^ 31) :
    writeArray native k s l e = .ok (s ++ l.flatMap (encode e k)) := by
  unfold writeArray
  have : l.length ≠ 0 := by simpa using h0
  rw [if_neg this, inPlace_eq _ _ h1]
  simp only [Res.monad_bind_eq, Res.bind_ok, List.flatMap_map]
  congr 3
  funext x
  exact toMem_toOrder native e k hk x

theorem readArray_eq {w : ℕ} (native : Endian) (k : ℕ) (hk : 8 * k ≤ w) (s : List Byte) (n : ℕ)
    (e : Endian) (h0 : n ≠ 0) (h1 : k * n ≤ s.length) :
    readArray native k s n e = .ok
      ((List.range n).map fun i => decode e w ((s.drop (k * i)).take k), s.drop (k * n)) := by
  unfold readArray
  rw [if_neg h0, if_pos h1, inPlaceSize_eq]
  simp only [Res.monad_bind_eq, Res.bind_ok]
  rw [memArray_map native e k n hk _ (by simp [h1])]
  congr 2
  refine List.map_congr_left fun i hi => ?_
  rw [List.mem_range] at hi
  have : k * i + k ≤ k * n := by
    calc k * i + k = k * (i + 1) := by ring
      _ ≤ k * n := Nat.mul_le_mul_left k hi
  rw [List.drop_take, List.take_take, min_eq_left (by omega)]

/-- The `i`-th element of a concatenation of blocks of length `k`. -/
theorem flatMap_block {α β : Type} (f : α → List β) (k : ℕ) (hf : ∀ x, (f x).length = k) (l : List α)
    (rest : List β) (i : ℕ) (x : α) (hx : l[i]? = some x) :
    ((l.flatMap f ++ rest).drop (k * i)).take k = f x := by
  induction l generalizing i with
  | nil => simp at hx
  | cons a l ih =>
    cases i with
    | zero =>
      simp only [List.getElem?_cons_zero, Option.some.injEq] at hx
      subst hx
      simp [← hf a]
    | succ i =>
      simp only [List.getElem?_cons_succ] at hx
      rw [← ih i hx, List.flatMap_cons, List.append_assoc, show k * (i + 1) = k + k * i by ring,
        List.drop_append, hf, List.drop_of_length_le (by rw [hf]; omega), List.nil_append,
        Nat.add_sub_cancel_left]

theorem flatMap_length {α β : Type} (f : α → List β) (k : ℕ) (hf : ∀ x, (f x).length = k)
    (l : List α) : (l.flatMap f).length = k * l.length := by
  induction l with
  | nil => simp
  | cons a l ih => rw [List.flatMap_cons, List.length_append, ih, hf, List.length_cons]; ring

theorem decode_blocks {w : ℕ} (e : Endian) (k : ℕ) (hk : w ≤ 8 * k) (l : List (BitVec w))
    (rest : List Byte) :
    (List.range l.length).map (fun i => decode e w
      (((l.flatMap (encode e k) ++ rest).drop (k * i)).take k)) = l := by
  apply List.ext_getElem?
  intro i
  by_cases hi : i < l.length
  · have hx : l[i]? = some l[i] := by simp [hi]
    rw [List.getElem?_map, List.getElem?_range hi, Option.map_some,
      flatMap_block (encode e k) k (encode_length e k) l rest i _ hx, decode_encode e k hk, hx]
  · rw [List.getElem?_eq_none (by simp; omega), List.getElem?_eq_none (by omega)]

/-! ### Bytes as numbers -/

theorem littleEndian_encode {w : ℕ} (k : ℕ) (h : w ≤ 8 * k) (x : BitVec w) :
    Spec.littleEndian (encode .little k x) = x.toNat := by
  rw [encode, littleEndian_bytesOf, Nat.mod_eq_of_lt]
  calc x.toNat < 2 ^ w := x.isLt
    _ ≤ 2 ^ (8 * k) := Nat.pow_le_pow_right (by norm_num) h
    _ = 256 ^ k := by rw [pow_mul]; norm_num

theorem bigEndian_encode {w : ℕ} (k : ℕ) (h : w ≤ 8 * k) (x : BitVec w) :
    Spec.bigEndian (encode .big k x) = x.toNat :=
  littleEndian_encode k h x

theorem decode_little {w k : ℕ} (h : w = 8 * k) {l : List Byte} (hl : l.length = k) :
    (decode .little w l).toNat = Spec.littleEndian l := by
  have := littleEndian_encode k (le_of_eq h) (decode .little w l)
  rw [← this]
  simp only [encode, decode]
  rw [bytesOf_ofBytes' l hl (le_of_eq h.symm)]

theorem decode_big {w k : ℕ} (h : w = 8 * k) {l : List Byte} (hl : l.length = k) :
    (decode .big w l).toNat = Spec.bigEndian l := by
  have := decode_little h (l := l.reverse) (by simpa using hl)
  simpa [decode, Spec.littleEndian] using this

end Verif.FileIO
