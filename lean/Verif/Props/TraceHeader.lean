import Verif.Model.TraceHeader
import Verif.Lemmas.FileIO
import Verif.Lemmas.Outcome
import Mathlib.Data.Real.Archimedean
import Mathlib.Algebra.Order.Floor.Ring
import Mathlib.Tactic.Linarith

/-!
# C159: headers of traces
-/

namespace Verif

namespace TraceHeader

open FileIO

/-! ## Fields in a buffer -/

theorem overwrite_spec {buf l : List Byte} {p : ℕ} (h : p + l.length ≤ buf.length) :
    ∃ b, overwrite buf p l = .ok b ∧ b.length = buf.length ∧
      ∀ k, b[k]? = if p ≤ k ∧ k < p + l.length then l[k - p]? else buf[k]? := by
  refine ⟨_, if_pos h, by simp; omega, ?_⟩
  intro k
  have lt : (buf.take p).length = p := by simp; omega
  rw [List.append_assoc]
  by_cases h1 : k < p
  · rw [if_neg (by omega), List.getElem?_append_left (by omega), List.getElem?_take, if_pos h1]
  · rw [List.getElem?_append_right (by omega), lt]
    by_cases h2 : k < p + l.length
    · rw [if_pos (by omega), List.getElem?_append_left (by omega)]
    · rw [if_neg (by omega), List.getElem?_append_right (by omega), List.getElem?_drop]
      congr 1
      omega

/-- A field is in the buffer, if it has a location. -/
def Inside (n : ℕ) (f : ℤ × List Byte) : Prop := 0 < f.1 → f.1 + f.2.length ≤ n + 1

/-- Two fields with a location have no byte in common. -/
def Apart (f g : ℤ × List Byte) : Prop := 0 < f.1 → 0 < g.1 → f.1 + f.2.length ≤ g.1 ∨ g.1 + g.2.length ≤ f.1

theorem putAll_spec : ∀ (l : List (ℤ × List Byte)) (buf : List Byte), (∀ f ∈ l, Inside buf.length f) → l.Pairwise Apart →
    ∃ b, putAll l buf = .ok b ∧ b.length = buf.length ∧
      (∀ f ∈ l, 0 < f.1 → ∀ k, k < f.2.length → b[(f.1 - 1).toNat + k]? = f.2[k]?) ∧
      ∀ k : ℕ, (∀ f ∈ l, 0 < f.1 → (k : ℤ) + 1 < f.1 ∨ f.1 + f.2.length ≤ (k : ℤ) + 1) → b[k]? = buf[k]? := by
  intro l
  induction l with
  | nil => intro buf _ _; exact ⟨buf, rfl, rfl, by simp, by simp⟩
  | cons f l ih =>
    intro buf hi ha
    obtain ⟨ha1, ha2⟩ := List.pairwise_cons.1 ha
    have hin := hi f List.mem_cons_self
    have P : ∃ b, put buf f = .ok b ∧ b.length = buf.length ∧
        ∀ k : ℕ, b[k]? = if 0 < f.1 ∧ f.1 ≤ (k : ℤ) + 1 ∧ (k : ℤ) + 1 < f.1 + f.2.length then f.2[k - (f.1 - 1).toNat]? else buf[k]? := by
      unfold put
      by_cases hp : f.1 > 0
      · rw [if_pos hp]
        have := hin hp
        obtain ⟨b, e, hl, hb⟩ := overwrite_spec (buf := buf) (l := f.2) (p := (f.1 - 1).toNat) (by omega)
        refine ⟨b, e, hl, ?_⟩
        intro k
        rw [hb]
        by_cases hc : (f.1 - 1).toNat ≤ k ∧ k < (f.1 - 1).toNat + f.2.length
        · rw [if_pos hc, if_pos (by omega)]
        · rw [if_neg hc, if_neg (by omega)]
      · rw [if_neg hp]
        exact ⟨buf, rfl, rfl, fun k => by rw [if_neg (by omega)]⟩
    obtain ⟨b1, e1, l1, g1⟩ := P
    obtain ⟨b, e, hl, h1, h2⟩ := ih b1 (fun g hg => by rw [l1]; exact hi g (List.mem_cons_of_mem _ hg)) ha2
    refine ⟨b, ?_, by omega, ?_, ?_⟩
    · simp only [putAll]
      rw [Res.monad_bind_eq, e1, Res.bind_ok, e]
    · intro g hg hp k hk
      rcases List.mem_cons.1 hg with rfl | hg
      · rw [h2, g1, if_pos (by omega)]
        · congr 1; omega
        · intro f' hf' hp'
          have := ha1 f' hf' hp hp'
          omega
      · exact h1 g hg hp k hk
    · intro k hk
      rw [h2 k (fun g hg => hk g (List.mem_cons_of_mem _ hg)), g1, if_neg]
      have := hk f List.mem_cons_self
      omega

theorem drop_eq {b l : List Byte} {p : ℕ} (h : ∀ k, k < l.length → b[p + k]? = l[k]?) : ∃ r, b.drop p = l ++ r := by
  refine ⟨(b.drop p).drop l.length, ?_⟩
  conv_lhs => rw [← List.take_append_drop l.length (b.drop p)]
  congr 1
  apply List.ext_getElem?
  intro k
  rw [List.getElem?_take]
  split_ifs with hk
  · rw [List.getElem?_drop, h k hk]
  · rw [List.getElem?_eq_none (by omega)]

theorem parse16 (v : BitVec 16) (r : List Byte) : parseUInt16BE (writeUInt16BE v ++ r) = .ok v := by
  have h : parseUInt16BE (writeUInt16BE v ++ r) = parseUInt16BE (writeUInt16BE v) := by
    simp [parseUInt16BE, writeUInt16BE, rd]
  rw [h, writeUInt16BE_eq, parseUInt16BE_eq (by simp [bytesOf_length]), List.reverse_reverse, ofBytes_bytesOf 2 (by norm_num)]

theorem parse32 (v : BitVec 32) (r : List Byte) : parseUInt32BE (writeUInt32BE v ++ r) = .ok v := by
  have h : parseUInt32BE (writeUInt32BE v ++ r) = parseUInt32BE (writeUInt32BE v) := by
    simp [parseUInt32BE, writeUInt32BE, rd, forRange, forN]
  rw [h, writeUInt32BE_eq, parseUInt32BE_eq (by simp [bytesOf_length]), List.reverse_reverse, ofBytes_bytesOf 4 (by norm_num)]

/-- The fields of a format with their numbers of bytes. -/
def Format.fields (f : Format) : List (ℤ × ℕ) :=
  [(115, 2), (117, 2), (f.scalCo, 2), (f.utmx, 4), (f.utmy, 4), (f.inl, 4), (f.xl, 4), (f.startTime, 2), (f.offset, 4)]

/-- The fields of a format are in the header and have no byte in common. -/
def Format.Good (f : Format) : Prop :=
  (∀ p ∈ f.fields, 0 < p.1 → p.1 + p.2 ≤ 241) ∧
    f.fields.Pairwise (fun p q : ℤ × ℕ => 0 < p.1 → 0 < q.1 → p.1 + p.2 ≤ q.1 ∨ q.1 + q.2 ≤ p.1)

/-- A field with its bytes and with their number. -/
def Meets (f : ℤ × List Byte) (p : ℤ × ℕ) : Prop := f.1 = p.1 ∧ (0 < f.1 → f.2.length = p.2)

theorem meets_mem {L : List (ℤ × List Byte)} {F : List (ℤ × ℕ)} (h : List.Forall₂ Meets L F) {f : ℤ × List Byte} (hf : f ∈ L) :
    ∃ p ∈ F, Meets f p := by
  induction h with
  | nil => cases hf
  | cons h1 _ ih =>
    rcases List.mem_cons.1 hf with rfl | hf
    · exact ⟨_, List.mem_cons_self, h1⟩
    · obtain ⟨p, hp, hm⟩ := ih hf
      exact ⟨p, List.mem_cons_of_mem _ hp, hm⟩

theorem meets_apart {L : List (ℤ × List Byte)} {F : List (ℤ × ℕ)} (h : List.Forall₂ Meets L F)
    (hp : F.Pairwise (fun p q : ℤ × ℕ => 0 < p.1 → 0 < q.1 → p.1 + p.2 ≤ q.1 ∨ q.1 + q.2 ≤ p.1)) : L.Pairwise Apart := by
  induction h with
  | nil => exact List.Pairwise.nil
  | @cons f p L F h1 h2 ih =>
    obtain ⟨a, b⟩ := List.pairwise_cons.1 hp
    refine List.pairwise_cons.2 ⟨?_, ih b⟩
    intro g hg pf pg
    obtain ⟨q, hq, mq⟩ := meets_mem h2 hg
    have e1 := h1.2 pf
    have e2 := mq.2 pg
    have e3 := h1.1
    have e4 := mq.1
    have := a q hq (by omega) (by omega)
    omega

/-- A number fits an `int` after truncation. -/
def Fits (x : ℝ) : Prop := -2147483648 ≤ trunc x ∧ trunc x ≤ 2147483647

theorem ofInt_fits {x : ℝ} (h : Fits x) : (BitVec.ofInt 32 (trunc x)).toInt = trunc x := by
  obtain ⟨h1, h2⟩ := h
  rw [BitVec.toInt_ofInt]
  apply Int.bmod_eq_of_le <;> norm_num <;> omega

/-- What is written is read back, with the coordinates truncated, into any header of the same format: in a format with fields apart. -/
theorem segy_header_round_trip (h h' : Header) (hb : h.buffer.length = 240) (hf : h.fmt.Good) (hs : h'.fmt = h.fmt)
    (fx : 0 < h.fmt.utmx → Fits h.utmx) (fy : 0 < h.fmt.utmy → Fits h.utmy)
    (fo : 0 < h.fmt.offset → ∃ o, h.offset = some o ∧ Fits o) :
    ∃ buf r, h.write = .ok buf ∧ h'.read buf = .ok r ∧ buf.length = 240 ∧ r.ns = h.ns ∧ r.dt = h.dt ∧
      (0 < h.fmt.scalCo → r.scalco = h.scalco ∧ r.scale = scaleOf h.scalco h'.scale) ∧ (¬ 0 < h.fmt.scalCo → r.scale = h'.scale) ∧
      (0 < h.fmt.utmx → r.utmx = trunc h.utmx) ∧ (0 < h.fmt.utmy → r.utmy = trunc h.utmy) ∧
      (0 < h.fmt.inl → r.inl = h.inl) ∧ (0 < h.fmt.xl → r.xl = h.xl) ∧ (0 < h.fmt.startTime → r.start = h.start) ∧
      ∀ k : ℕ, (∀ p ∈ h.fmt.fields, 0 < p.1 → (k : ℤ) + 1 < p.1 ∨ p.1 + p.2 ≤ (k : ℤ) + 1) → buf[k]? = h.buffer[k]? := by
  have C : ∀ (loc : ℤ) (x : ℝ), (0 < loc → Fits x) → ∃ l, coordBytes loc x = .ok l ∧
      (0 < loc → l = writeUInt32BE (BitVec.ofInt 32 (trunc x))) := by
    intro loc x hx
    unfold coordBytes
    by_cases hl : loc > 0
    · rw [if_pos hl]
      unfold toInt32
      rw [if_pos (show _ ∧ _ from hx hl)]
      exact ⟨_, rfl, fun _ => rfl⟩
    · rw [if_neg hl]
      exact ⟨[], rfl, fun h => absurd h hl⟩
  obtain ⟨x, ex, hx⟩ := C h.fmt.utmx h.utmx fx
  obtain ⟨y, ey, hy⟩ := C h.fmt.utmy h.utmy fy
  have O : ∃ l, offsetBytes h.fmt.offset h.offset = .ok l ∧ (0 < h.fmt.offset → l.length = 4) := by
    unfold offsetBytes
    by_cases hl : h.fmt.offset > 0
    · rw [if_pos hl]
      obtain ⟨o, eo, ho⟩ := fo hl
      rw [eo]
      obtain ⟨l, e, hl'⟩ := C h.fmt.offset o (fun _ => ho)
      exact ⟨l, e, fun h => by rw [hl' h]; rfl⟩
    · rw [if_neg hl]
      exact ⟨[], rfl, fun h => absurd h hl⟩
  obtain ⟨o, eo, ho⟩ := O
  have lx : 0 < h.fmt.utmx → x.length = 4 := fun p => by rw [hx p]; rfl
  have ly : 0 < h.fmt.utmy → y.length = 4 := fun p => by rw [hy p]; rfl
  have l16 : ∀ v, (writeUInt16BE v).length = 2 := fun _ => rfl
  have l32 : ∀ v, (writeUInt32BE v).length = 4 := fun _ => rfl
  have M : List.Forall₂ Meets [(115, writeUInt16BE h.ns), (117, writeUInt16BE h.dt),
      (h.fmt.scalCo, writeUInt16BE h.scalco), (h.fmt.utmx, x), (h.fmt.utmy, y), (h.fmt.inl, writeUInt32BE h.inl),
      (h.fmt.xl, writeUInt32BE h.xl), (h.fmt.startTime, writeUInt16BE h.start), (h.fmt.offset, o)] h.fmt.fields :=
    .cons ⟨rfl, fun _ => rfl⟩ (.cons ⟨rfl, fun _ => rfl⟩ (.cons ⟨rfl, fun _ => rfl⟩ (.cons ⟨rfl, lx⟩ (.cons ⟨rfl, ly⟩
      (.cons ⟨rfl, fun _ => rfl⟩ (.cons ⟨rfl, fun _ => rfl⟩ (.cons ⟨rfl, fun _ => rfl⟩ (.cons ⟨rfl, ho⟩ .nil))))))))
  obtain ⟨b, e, hl, hin, hout⟩ := putAll_spec _ h.buffer
    (by
      intro f hf' hp
      obtain ⟨p, hp', m1, m2⟩ := meets_mem M hf'
      have a1 := hf.1 p hp' (by omega)
      have a2 := m2 hp
      rw [hb]
      omega)
    (meets_apart M hf.2)
  simp only [List.forall_mem_cons, List.not_mem_nil, IsEmpty.forall_iff, implies_true, and_true] at hin
  obtain ⟨i1, i2, i3, i4, i5, i6, i7, i8, -⟩ := hin
  have G16 : ∀ (loc : ℤ) (v old : BitVec 16),
      (0 < loc → ∀ k, k < (writeUInt16BE v).length → b[(loc - 1).toNat + k]? = (writeUInt16BE v)[k]?) →
      get16 b loc old = .ok (if 0 < loc then v else old) := by
    intro loc v old hv
    unfold get16
    by_cases hl : loc > 0
    · obtain ⟨r, er⟩ := drop_eq (hv hl)
      rw [if_pos hl, if_pos hl, er, parse16]
    · rw [if_neg hl, if_neg hl]
  have G32 : ∀ (loc : ℤ) (v old : BitVec 32),
      (0 < loc → ∀ k, k < (writeUInt32BE v).length → b[(loc - 1).toNat + k]? = (writeUInt32BE v)[k]?) →
      get32 b loc old = .ok (if 0 < loc then v else old) := by
    intro loc v old hv
    unfold get32
    by_cases hl : loc > 0
    · obtain ⟨r, er⟩ := drop_eq (hv hl)
      rw [if_pos hl, if_pos hl, er, parse32]
    · rw [if_neg hl, if_neg hl]
  have GC : ∀ (loc : ℤ) (z old : ℝ) (l : List Byte), (0 < loc → Fits z) → (0 < loc → l = writeUInt32BE (BitVec.ofInt 32 (trunc z))) →
      (0 < loc → ∀ k, k < l.length → b[(loc - 1).toNat + k]? = l[k]?) →
      getCoord b loc old = .ok (if 0 < loc then (trunc z : ℝ) else old) := by
    intro loc z old l hz hl' hv
    unfold getCoord
    by_cases hl : loc > 0
    · obtain ⟨r, er⟩ := drop_eq (hv hl)
      rw [if_pos hl, if_pos hl, er, hl' hl, Res.monad_bind_eq, parse32, Res.bind_ok, ofInt_fits (hz hl)]
    · rw [if_neg hl, if_neg hl]
  refine ⟨b, { h' with
    buffer := b
    scale := if h.fmt.scalCo > 0 then scaleOf (if 0 < h.fmt.scalCo then h.scalco else h'.scalco) h'.scale else h'.scale
    scalco := if 0 < h.fmt.scalCo then h.scalco else h'.scalco
    utmx := if 0 < h.fmt.utmx then (trunc h.utmx : ℝ) else h'.utmx
    utmy := if 0 < h.fmt.utmy then (trunc h.utmy : ℝ) else h'.utmy
    inl := if 0 < h.fmt.inl then h.inl else h'.inl
    xl := if 0 < h.fmt.xl then h.xl else h'.xl
    start := if 0 < h.fmt.startTime then h.start else h'.start
    ns := if (0 : ℤ) < 115 then h.ns else h'.ns
    dt := if (0 : ℤ) < 117 then h.dt else h'.dt }, ?_, ?_, by omega, ?_⟩
  · unfold Header.write
    rw [Res.monad_bind_eq, ex, Res.bind_ok, Res.monad_bind_eq, ey, Res.bind_ok, Res.monad_bind_eq, eo, Res.bind_ok, e]
  · unfold Header.read
    rw [hs]
    simp only [Res.monad_bind_eq]
    rw [G16 115 h.ns _ i1, Res.bind_ok, G16 117 h.dt _ i2, Res.bind_ok, GC _ _ _ x fx hx i4, Res.bind_ok, GC _ _ _ y fy hy i5,
      Res.bind_ok, G32 _ _ _ i6, Res.bind_ok, G16 _ _ _ i8, Res.bind_ok, G32 _ _ _ i7, Res.bind_ok, G16 _ _ _ i3, Res.bind_ok]
  · refine ⟨by simp, by simp, ?_, ?_, ?_, ?_, ?_, ?_, ?_, ?_⟩
    · intro hp; simp [hp]
    · intro hp; simp [hp]
    · intro hp; simp [hp]
    · intro hp; simp [hp]
    · intro hp; simp [hp]
    · intro hp; simp [hp]
    · intro hp; simp [hp]
    · intro k hk
      apply hout
      intro f hf' hp
      obtain ⟨p, hp', m1, m2⟩ := meets_mem M hf'
      have a1 := hk p hp' (by omega)
      have a2 := m2 hp
      omega

instance (f : Format) : Decidable f.Good := by unfold Format.Good; infer_instance

/-- The formats with a name have their fields apart. -/
theorem segy_header_formats (n : ℕ) : (∃ m, Format.init n = .throws m) ∧ 6 ≤ n ∨
    n < 6 ∧ ∃ f, Format.init n = .ok f ∧ f.Good ∧ f.check = true := by
  rcases n with _ | _ | _ | _ | _ | _ | n
  · exact Or.inr ⟨by omega, _, rfl, by decide, by decide⟩
  · exact Or.inr ⟨by omega, _, rfl, by decide, by decide⟩
  · exact Or.inr ⟨by omega, _, rfl, by decide, by decide⟩
  · exact Or.inr ⟨by omega, _, rfl, by decide, by decide⟩
  · exact Or.inr ⟨by omega, _, rfl, by decide, by decide⟩
  · exact Or.inr ⟨by omega, _, rfl, by decide, by decide⟩
  · exact Or.inl ⟨⟨_, rfl⟩, by omega⟩

/-- They have the coefficient and the start where the standard of the files has them, and all fields except the offset; all but the
third have the coordinates where it has those of the source. Only the third has an offset, at the place of the standard. -/
theorem segy_header_standard (n : ℕ) (f : Format) (h : Format.init n = .ok f) :
    f.scalCo = 71 ∧ f.startTime = 109 ∧ 0 < f.utmx ∧ f.utmy = f.utmx + 4 ∧ (n ≠ 2 → f.utmx = 73) ∧ 0 < f.inl ∧ 0 < f.xl ∧
      (f.offset = if n = 2 then 37 else -99999) := by
  rcases n with _ | _ | _ | _ | _ | _ | n <;> simp only [Format.init, Res.ok.injEq, reduceCtorEq] at h <;> subst h <;> norm_num

/-- The check of a format finds two of the five first fields at the same location. -/
theorem segy_header_check (f : Format) : f.check = true ↔
    [f.scalCo, f.utmx, f.utmy, f.inl, f.xl].Pairwise (fun a b => 0 < a → a ≠ b) := by
  simp [Format.check, List.pairwise_cons]
  constructor
  · rintro ⟨⟨⟨h1, h2⟩, h3⟩, h4⟩
    refine ⟨⟨?_, ?_, ?_, ?_⟩, ⟨?_, ?_, ?_⟩, ⟨?_, ?_⟩, ?_⟩ <;> omega
  · rintro ⟨⟨h1, h2, h3, h4⟩, ⟨h5, h6, h7⟩, ⟨h8, h9⟩, h10⟩
    refine ⟨⟨⟨?_, ?_⟩, ?_⟩, ?_⟩ <;> omega

/-- Whether writing two numbers one after the other and reading the first gives a third one. -/
def readsAs (l1 l2 : ℤ) (v1 v2 w : BitVec 32) : Bool :=
  match putAll [(l1, writeUInt32BE v1), (l2, writeUInt32BE v2)] (List.replicate 240 0#8) with
  | .ok buf => match get32 buf l1 0#32 with
    | .ok v => v == w
    | _ => false
  | _ => false

/-- It does not find fields that share bytes: with the cross-line two bytes after the in-line, and cross-line 70000, the in-line 7 is
read as 1. -/
theorem segy_header_check_violation : ∃ f : Format, f.check = true ∧ ¬ f.Good ∧ readsAs f.inl f.xl 7#32 70000#32 1#32 = true := by
  refine ⟨⟨71, 73, 77, 9, 11, 109, -99999⟩, by decide, by decide, by decide +kernel⟩

theorem scaleOf_pos {s : BitVec 16} {o : ℝ} (ho : 0 < o) : 0 < scaleOf s o := by
  unfold scaleOf
  split_ifs with h1 h2 h3 h4 h5
  all_goals first
    | norm_num; done
    | exact ho
    | (rcases h5 with h | h | h | h <;> rw [h] <;> norm_num)

/-- A coefficient with a scale of its own. -/
def Known (s : BitVec 16) : Prop := s.toInt ∈ [-10000, -1000, -100, -10, 10, 100, 1000, 10000]

/-- The scale is the coefficient, or one divided by it without its sign. -/
theorem segy_header_scale {s : BitVec 16} (hs : Known s) (old : ℝ) :
    scaleOf s old = if 0 < s.toInt then (s.toInt : ℝ) else 1 / (-(s.toInt : ℝ)) := by
  simp only [Known, List.mem_cons, List.not_mem_nil, or_false] at hs
  unfold scaleOf
  rcases hs with h | h | h | h | h | h | h | h <;> rw [h] <;> norm_num

theorem trunc_near (x : ℝ) : |(trunc x : ℝ)| ≤ |x| ∧ |x - trunc x| < 1 := by
  unfold trunc
  split_ifs with h
  · have h1 := Int.floor_le x
    have h2 := Int.lt_floor_add_one x
    have h3 : (0 : ℝ) ≤ ⌊x⌋ := by exact_mod_cast Int.floor_nonneg.2 h
    rw [abs_of_nonneg h3, abs_of_nonneg h, abs_of_nonneg (by linarith)]
    exact ⟨h1, by linarith⟩
  · push Not at h
    have h1 := Int.le_ceil x
    have h2 := Int.ceil_lt_add_one x
    have h3 : (⌈x⌉ : ℝ) ≤ 0 := by exact_mod_cast Int.ceil_le.2 (by simpa using h.le)
    rw [abs_of_nonpos h3, abs_of_neg h, abs_of_nonpos (by linarith)]
    exact ⟨by linarith, by linarith⟩

/-- A coordinate set with a known coefficient, written, and read into another header of the format, is off by less than the scale, and
towards zero. -/
theorem segy_header_coordinate (h h' : Header) (hb : h.buffer.length = 240) (hf : h.fmt.Good) (hs : h'.fmt = h.fmt)
    {s : BitVec 16} (ks : Known s) (px : 0 < h.fmt.utmx) (pc : 0 < h.fmt.scalCo) (x : ℝ) (fx : Fits (x / scaleOf s 1))
    (fy : 0 < h.fmt.utmy → Fits h.utmy) (fo : 0 < h.fmt.offset → ∃ o, h.offset = some o ∧ Fits o) :
    ∃ buf r, ((h.setScalCo s).setUtmx x).write = .ok buf ∧ h'.read buf = .ok r ∧ r.getUtmx = scaleOf s 1 * trunc (x / scaleOf s 1) ∧
      |r.getUtmx| ≤ |x| ∧ |x - r.getUtmx| < scaleOf s 1 := by
  have hold : ∀ o, scaleOf s o = scaleOf s 1 := fun o => by rw [segy_header_scale ks, segy_header_scale ks]
  have e : (h.setScalCo s).setUtmx x = { h with scalco := s, scale := scaleOf s h.scale, utmx := x / scaleOf s 1 } := by
    simp [Header.setScalCo, Header.setUtmx, px, hold h.scale]
  have hpos := scaleOf_pos (s := s) (o := 1) one_pos
  obtain ⟨buf, r, h1, h2, -, -, -, h3, -, h4, -⟩ := segy_header_round_trip
    { h with scalco := s, scale := scaleOf s h.scale, utmx := x / scaleOf s 1 } h' hb hf hs (fun _ => fx) fy fo
  have hr : r.getUtmx = scaleOf s 1 * trunc (x / scaleOf s 1) := by
    have hfm : r.fmt = h'.fmt := by
      unfold Header.read at h2
      simp only [Res.monad_bind_eq, Res.bind_eq_ok] at h2
      obtain ⟨_, _, _, _, _, _, _, _, _, _, _, _, _, _, _, _, h2⟩ := h2
      cases h2
      rfl
    unfold Header.getUtmx
    rw [hfm, hs, if_neg (by omega), (h3 pc).2, h4 px]
    simp only
    rw [hold]
  obtain ⟨t1, t2⟩ := trunc_near (x / scaleOf s 1)
  refine ⟨buf, r, by rw [e]; exact h1, h2, hr, ?_, ?_⟩
  · rw [hr, abs_mul, abs_of_pos hpos]
    rw [abs_div, abs_of_pos hpos, le_div_iff₀ hpos] at t1
    linarith
  · have : x - r.getUtmx = scaleOf s 1 * (x / scaleOf s 1 - trunc (x / scaleOf s 1)) := by
      rw [hr, mul_sub, mul_div_cancel₀ _ hpos.ne']
    rw [this, abs_mul, abs_of_pos hpos]
    nlinarith

/-- The same for the other coordinate: set with a known coefficient, written, and read into another header of the format, it is off by less than the scale, and
towards zero. -/
theorem segy_header_coordinate_y (h h' : Header) (hb : h.buffer.length = 240) (hf : h.fmt.Good) (hs : h'.fmt = h.fmt)
    {s : BitVec 16} (ks : Known s) (px : 0 < h.fmt.utmy) (pc : 0 < h.fmt.scalCo) (x : ℝ) (fx : Fits (x / scaleOf s 1))
    (fy : 0 < h.fmt.utmx → Fits h.utmx) (fo : 0 < h.fmt.offset → ∃ o, h.offset = some o ∧ Fits o) :
    ∃ buf r, ((h.setScalCo s).setUtmy x).write = .ok buf ∧ h'.read buf = .ok r ∧ r.getUtmy = scaleOf s 1 * trunc (x / scaleOf s 1) ∧
      |r.getUtmy| ≤ |x| ∧ |x - r.getUtmy| < scaleOf s 1 := by
  have hold : ∀ o, scaleOf s o = scaleOf s 1 := fun o => by rw [segy_header_scale ks, segy_header_scale ks]
  have e : (h.setScalCo s).setUtmy x = { h with scalco := s, scale := scaleOf s h.scale, utmy := x / scaleOf s 1 } := by
    simp [Header.setScalCo, Header.setUtmy, px, hold h.scale]
  have hpos := scaleOf_pos (s := s) (o := 1) one_pos
  obtain ⟨buf, r, h1, h2, -, -, -, h3, -, -, h4, -⟩ := segy_header_round_trip
    { h with scalco := s, scale := scaleOf s h.scale, utmy := x / scaleOf s 1 } h' hb hf hs fy (fun _ => fx) fo
  have hr : r.getUtmy = scaleOf s 1 * trunc (x / scaleOf s 1) := by
    have hfm : r.fmt = h'.fmt := by
      unfold Header.read at h2
      simp only [Res.monad_bind_eq, Res.bind_eq_ok] at h2
      obtain ⟨_, _, _, _, _, _, _, _, _, _, _, _, _, _, _, _, h2⟩ := h2
      cases h2
      rfl
    unfold Header.getUtmy
    rw [hfm, hs, if_neg (by omega), (h3 pc).2, h4 px]
    simp only
    rw [hold]
  obtain ⟨t1, t2⟩ := trunc_near (x / scaleOf s 1)
  refine ⟨buf, r, by rw [e]; exact h1, h2, hr, ?_, ?_⟩
  · rw [hr, abs_mul, abs_of_pos hpos]
    rw [abs_div, abs_of_pos hpos, le_div_iff₀ hpos] at t1
    linarith
  · have : x - r.getUtmy = scaleOf s 1 * (x / scaleOf s 1 - trunc (x / scaleOf s 1)) := by
      rw [hr, mul_sub, mul_div_cancel₀ _ hpos.ne']
    rw [this, abs_mul, abs_of_pos hpos]
    nlinarith

/-- The coordinate is not the nearest one in the file: 0.019 is written as 0.01, not 0.02. -/
theorem segy_header_coordinate_violation : scaleOf (-100#16) 1 * trunc (19 / 1000 / scaleOf (-100#16) 1) = 1 / 100 ∧
    |(19 : ℝ) / 1000 - 2 / 100| < |(19 : ℝ) / 1000 - 1 / 100| := by
  have e : scaleOf (-100#16) 1 = 1 / 100 := by
    unfold scaleOf
    rw [show (-100#16 : BitVec 16).toInt = -100 from by decide]
    norm_num
  refine ⟨?_, by norm_num [abs_of_neg, abs_of_pos]⟩
  rw [e]
  have : trunc (19 / 1000 / (1 / 100)) = 1 := by
    unfold trunc
    rw [if_pos (by norm_num), Int.floor_eq_iff]
    norm_num
  rw [this]
  norm_num

/-- A coefficient without a scale of its own, such as 1, leaves the scale of the coefficient before: the coordinate `x` is written a
hundred times too great. -/
theorem segy_header_stale_scale_violation (h : Header) (px : 0 < h.fmt.utmx) (x : ℝ) :
    (((h.setScalCo (-100#16)).setScalCo 1#16).setUtmx x).scalco = 1#16 ∧
      (((h.setScalCo (-100#16)).setScalCo 1#16).setUtmx x).utmx = 100 * x := by
  have e : scaleOf 1#16 (scaleOf (-100#16) h.scale) = 1 / 100 := by
    unfold scaleOf
    rw [show (-100#16 : BitVec 16).toInt = -100 from by decide, show (1#16 : BitVec 16).toInt = 1 from by decide]
    norm_num
  simp only [Header.setUtmx, Header.setScalCo, px, if_true, e]
  exact ⟨trivial, by ring⟩

/-- In a format with an offset, a header of which the offset was not set is written with an uninitialised value, as is done when all
traces are written. -/
theorem segy_header_offset_violation (h : Header) (hf : Format.init 2 = .ok h.fmt) (ho : h.offset = none)
    (fx : Fits h.utmx) (fy : Fits h.utmy) : h.write = .ub "uninitialised value" := by
  simp only [Format.init, Res.ok.injEq] at hf
  unfold Header.write
  rw [← hf, ho]
  simp only [Res.monad_bind_eq]
  unfold coordBytes offsetBytes toInt32
  rw [if_pos (by norm_num), if_pos (show _ ∧ _ from fx), if_pos (by norm_num), if_pos (show _ ∧ _ from fy), if_pos (by norm_num)]
  rfl

/-- A case: a header of the format SeisWorks. -/
theorem segy_header_example : ∃ h : Header, Format.init 0 = .ok h.fmt ∧ h.fmt.Good ∧ h.buffer.length = 240 ∧ Fits h.utmx ∧ h.inl = 1200#32 ∧
    ∃ buf r, h.write = .ok buf ∧ h.read buf = .ok r ∧ r.inl = 1200#32 := by
  have F : Fits (-1.5) := by
    have := trunc_near (-1.5)
    have h1 := (abs_le.1 this.1)
    norm_num [abs_of_neg] at h1
    have a : (-2 : ℝ) ≤ ((trunc (-1.5) : ℤ) : ℝ) := by linarith [h1.1]
    have b : ((trunc (-1.5) : ℤ) : ℝ) ≤ 2 := by linarith [h1.2]
    have a' : (-2 : ℤ) ≤ trunc (-1.5) := by exact_mod_cast a
    have b' : trunc (-1.5) ≤ (2 : ℤ) := by exact_mod_cast b
    exact ⟨by omega, by omega⟩
  refine ⟨⟨List.replicate 240 0#8, ⟨71, 73, 77, 9, 21, 109, -99999⟩, 1, 1#16, -1.5, -1.5, 1200#32, 34#32, 0#16, 500#16, 4000#16, none⟩,
    rfl, by decide, List.length_replicate, F, rfl, ?_⟩
  obtain ⟨buf, r, h1, h2, -, -, -, -, -, -, -, h3, -⟩ := segy_header_round_trip
    ⟨List.replicate 240 0#8, ⟨71, 73, 77, 9, 21, 109, -99999⟩, 1, 1#16, -1.5, -1.5, 1200#32, 34#32, 0#16, 500#16, 4000#16, none⟩
    ⟨List.replicate 240 0#8, ⟨71, 73, 77, 9, 21, 109, -99999⟩, 1, 1#16, -1.5, -1.5, 1200#32, 34#32, 0#16, 500#16, 4000#16, none⟩
    List.length_replicate (by decide) rfl (fun _ => F) (fun _ => F) (fun h => by norm_num at h)
  exact ⟨buf, r, h1, h2, h3 (by norm_num)⟩

end TraceHeader

end Verif
