import Verif.Model.CommonHeaders
import Verif.Props.TraceHeader

/-!
# C160: the headers of SegY files
-/

namespace Verif

namespace CommonHeaders

open FileIO TraceHeader

/-- The code of a character: the number in the table, and zero for a character that is not in it. -/
def code (c : Byte) : Byte := transtab[c.toNat]?.getD 0

theorem ascii2ebcdic_ok {c : Byte} (h : c ≠ 0x80) : ascii2ebcdic c = .ok (code c) := by
  have hl : transtab.length = 128 := rfl
  have hc : c.toNat ≠ 128 := fun e => h (BitVec.eq_of_toNat_eq e)
  unfold ascii2ebcdic code
  split_ifs with h1
  · rw [List.getElem?_eq_none (by omega)]; rfl
  · rw [rd_ok (by omega), List.getElem?_eq_getElem (by omega)]; rfl

/-- Characters with a code have different codes; space, digits and letters have those of EBCDIC. -/
theorem segy_text_codes : (∀ c d : Byte, code c ≠ 0 → code c = code d → c = d) ∧ code 0x20 = 0x40 ∧
    (∀ n < 10, code (BitVec.ofNat 8 (0x30 + n)) = BitVec.ofNat 8 (0xF0 + n)) ∧
    (∀ n < 26, code (BitVec.ofNat 8 (0x41 + n)) =
      BitVec.ofNat 8 (if n < 9 then 0xC1 + n else if n < 18 then 0xD1 + (n - 9) else 0xE2 + (n - 18))) ∧
    (∀ n < 26, code (BitVec.ofNat 8 (0x61 + n)) =
      BitVec.ofNat 8 (if n < 9 then 0x81 + n else if n < 18 then 0x91 + (n - 9) else 0xA2 + (n - 18))) := by
  refine ⟨?_, by decide +kernel, by decide +kernel, by decide +kernel, by decide +kernel⟩
  have T : ∀ i < 128, ∀ j < 128, transtab[i]?.getD 0 ≠ 0 → transtab[i]?.getD 0 = transtab[j]?.getD 0 → i = j := by decide +kernel
  have hl : transtab.length = 128 := rfl
  have P : ∀ c : Byte, code c ≠ 0 → c.toNat < 128 := by
    intro c hc
    by_contra hn
    apply hc
    unfold code
    rw [List.getElem?_eq_none (by omega)]
    rfl
  intro c d hc he
  exact BitVec.eq_of_toNat_eq (T _ (P c hc) _ (P d (he ▸ hc)) hc he)

theorem fill_line {body : ℕ → List Byte → Res (List Byte)} {g : ℕ → Byte} {lo hi pos : ℕ} (hle : lo ≤ hi)
    (hbody : ∀ i b, lo ≤ i → i < hi → body i b = wr b (pos + i) (g i)) {buf : List Byte} (hb : pos + hi ≤ buf.length) :
    ∃ b, forRange lo hi body buf = .ok b ∧ b.length = buf.length ∧
      ∀ k, b[k]? = if pos + lo ≤ k ∧ k < pos + hi then some (g (k - pos)) else buf[k]? := by
  have h := forRange_sat (fun i (b : List Byte) => b.length = buf.length ∧
    ∀ k, b[k]? = if pos + lo ≤ k ∧ k < pos + i then some (g (k - pos)) else buf[k]?) hle (body := body) (s := buf)
    ⟨rfl, fun k => by rw [if_neg (by omega)]⟩ (by
      rintro i b h1 h2 ⟨hl, hk⟩
      rw [hbody i b h1 h2, wr_ok (by omega), Res.sat_ok]
      refine ⟨by simpa using hl, fun k => ?_⟩
      rw [List.getElem?_set]
      by_cases e : pos + i = k
      · rw [if_pos e, if_pos (by omega), if_pos (by omega)]
        congr 2
        omega
      · rw [if_neg e, hk]
        by_cases h : pos + lo ≤ k ∧ k < pos + i
        · rw [if_pos h, if_pos (by omega)]
        · rw [if_neg h, if_neg (by omega)])
  exact h

/-- Setting a line writes the codes of the text, cut at 75 characters, and spaces after it in the columns 6 to 80, and changes nothing
else. It returns whether the text was cut. -/
theorem segy_text_line {buf text : List Byte} {n : ℤ} (h0 : 0 ≤ n) (h1 : n ≤ 39) (hb : 3200 ≤ buf.length)
    (ht : ∀ c ∈ text.take 75, c ≠ 0x80) :
    ∃ b, setLine buf n text = .ok (if 75 < text.length then 1 else 0, b) ∧ b.length = buf.length ∧
      ∀ k : ℕ, b[k]? = if 80 * n + 5 ≤ k ∧ (k : ℤ) < 80 * n + 80
        then some ((text[k - (80 * n + 5).toNat]?.map code).getD 0x40) else buf[k]? := by
  unfold setLine
  rw [if_neg (by omega)]
  simp only [gt_iff_lt]
  obtain ⟨len, hlen⟩ : ∃ len, len = if 75 < text.length then 75 else text.length := ⟨_, rfl⟩
  have l1 : len ≤ 75 := by rw [hlen]; split_ifs <;> omega
  have l2 : len ≤ text.length := by rw [hlen]; split_ifs <;> omega
  have l3 : len = 75 ∨ len = text.length := by rw [hlen]; split_ifs <;> simp
  rw [← hlen]
  have hp : (n * 80 + 5).toNat = (80 * n + 5).toNat := by congr 1; ring
  rw [hp]
  obtain ⟨pos, hpos⟩ : ∃ pos, pos = (80 * n + 5).toNat := ⟨_, rfl⟩
  rw [← hpos]
  obtain ⟨b1, e1, s1, g1⟩ := fill_line (body := setChar text pos) (g := fun i => (text[i]?.map code).getD 0x40) (lo := 0) (hi := len)
    (pos := pos) (Nat.zero_le _) (by
      intro i b _ hi
      unfold setChar
      rw [Res.monad_bind_eq, rd_ok (show i < text.length by omega), Res.bind_ok, Res.monad_bind_eq, ascii2ebcdic_ok, Res.bind_ok,
        List.getElem?_eq_getElem (by omega)]
      · rfl
      · apply ht
        exact List.mem_take_iff_getElem.2 ⟨i, by omega, rfl⟩) (buf := buf) (by omega)
  obtain ⟨b2, e2, s2, g2⟩ := fill_line (body := setSpace pos) (g := fun _ => 0x40) (lo := len) (hi := 75)
    (pos := pos) l1 (fun i b _ _ => rfl) (buf := b1) (by omega)
  rw [Res.monad_bind_eq, e1, Res.bind_ok, Res.monad_bind_eq, e2, Res.bind_ok]
  refine ⟨b2, rfl, by omega, ?_⟩
  intro k
  rw [g2, g1]
  by_cases a : pos + len ≤ k ∧ k < pos + 75
  · rw [if_pos a, if_pos (by omega), List.getElem?_eq_none (by omega)]
    rfl
  · rw [if_neg a]
    by_cases c : pos + 0 ≤ k ∧ k < pos + len
    · rw [if_pos c, if_pos (by omega)]
    · rw [if_neg c, if_neg (by omega)]

/-- Other lines are refused. -/
theorem segy_text_refused {n : ℤ} (h : n < 0 ∨ 39 < n) (buf text : List Byte) : setLine buf n text = .ok (-1, buf) := if_pos h

/-- The character 128 is read beyond the table: the test for the end of the table lets it through. -/
theorem segy_text_violation {n : ℤ} (h0 : 0 ≤ n) (h1 : n ≤ 39) (buf text : List Byte) :
    setLine buf n (0x80 :: text) = .ub "read out of range" := by
  unfold setLine
  rw [if_neg (by omega)]
  have h : ∀ m pos, forRange 0 (m + 1) (setChar (0x80 :: text) pos) buf = .ub "read out of range" := by
    intro m pos
    rfl
  have : ∃ m, (if (0x80 :: text).length > 75 then 75 else (0x80 :: text).length) = m + 1 := by
    split_ifs
    · exact ⟨74, rfl⟩
    · exact ⟨text.length, rfl⟩
  obtain ⟨m, e⟩ := this
  simp only
  rw [e, Res.monad_bind_eq, h]
  rfl

/-- The empty header, as it is in the repository, has none of the letters C that begin its lines, and its lines are longer than 80
bytes, so that the last lines are not written. -/
theorem segy_text_empty_violation : emptyHeader.length = 3440 ∧ code 0x43 = 0xC3 ∧ (0xC3 : Byte) ∉ emptyHeader ∧
    ∃ b, textWrite emptyHeader = .ok b ∧ b.length = 3200 ∧ b[0]? = some 0xEF := by
  have hl : emptyHeader.length = 3440 := by decide +kernel
  refine ⟨hl, by decide +kernel, by decide +kernel, emptyHeader.take 3200, ?_, ?_, ?_⟩
  · unfold textWrite
    rw [if_pos (by omega)]
  · rw [List.length_take]; omega
  · rw [List.getElem?_take, if_pos (by norm_num)]
    decide +kernel

/-- A line of a header. -/
theorem segy_text_example : ∃ b, setLine emptyHeader 2 [0x48, 0x69] = .ok (0, b) ∧ b[165]? = some 0xC8 ∧ b[166]? = some 0x89 ∧
    b[167]? = some 0x40 := by
  obtain ⟨b, e, -, h⟩ := segy_text_line (buf := emptyHeader) (text := [0x48, 0x69]) (n := 2) (by norm_num) (by norm_num)
    (by rw [segy_text_empty_violation.1]; norm_num) (by decide)
  refine ⟨b, e, ?_, ?_, ?_⟩ <;> rw [h, if_pos (by norm_num)] <;> decide +kernel

/-- The fields of the binary header with their numbers of bytes. -/
def binaryFields : List (ℤ × ℕ) :=
  [(1, 4), (5, 4), (9, 4), (13, 2), (15, 2), (17, 2), (21, 2), (25, 2), (27, 2), (29, 2), (55, 2), (303, 2)]

/-- The binary header has 400 bytes. What is read of it is the format with numbers of four bytes, line one, the number of samples
modulo 2 ^ 16, and the step in thousandths, truncated. -/
theorem segy_binary_round_trip {dz : ℝ} (h1 : -32768 ≤ trunc (1000 * dz)) (h2 : trunc (1000 * dz) ≤ 32767) (nz : ℕ) (nSam : BitVec 16)
    (rest : List Byte) :
    ∃ b r, binaryWrite dz nz nSam = .ok b ∧ b.length = 400 ∧ binaryUpdate (b ++ rest) = .ok r ∧ r.format.toInt = 5 ∧ r.lino.toInt = 1 ∧
      r.hdt.toInt = trunc (1000 * dz) ∧ r.hns.toNat = nz % 2 ^ 16 ∧ (nz < 2 ^ 15 → r.hns.toInt = nz) ∧
      ∀ v : ℕ, v = 12 ∨ v = 14 ∨ v = 26 → parseUInt16BE (b.drop v) = .ok nSam := by
  obtain ⟨dt, hdt⟩ : ∃ dt : BitVec 16, dt = BitVec.ofInt 16 (trunc (1000 * dz)) := ⟨_, rfl⟩
  have M : List.Forall₂ Meets [(1, writeUInt32BE 9999#32), (5, writeUInt32BE 1#32), (9, writeUInt32BE 1#32), (13, writeUInt16BE nSam),
      (15, writeUInt16BE nSam), (17, writeUInt16BE dt), (21, writeUInt16BE (BitVec.ofNat 16 nz)), (25, writeUInt16BE 5#16),
      (27, writeUInt16BE nSam), (29, writeUInt16BE 4#16), (55, writeUInt16BE 1#16), (303, writeUInt16BE 1#16)] binaryFields :=
    .cons ⟨rfl, fun _ => rfl⟩ (.cons ⟨rfl, fun _ => rfl⟩ (.cons ⟨rfl, fun _ => rfl⟩ (.cons ⟨rfl, fun _ => rfl⟩ (.cons ⟨rfl, fun _ => rfl⟩
      (.cons ⟨rfl, fun _ => rfl⟩ (.cons ⟨rfl, fun _ => rfl⟩ (.cons ⟨rfl, fun _ => rfl⟩ (.cons ⟨rfl, fun _ => rfl⟩ (.cons ⟨rfl, fun _ => rfl⟩
        (.cons ⟨rfl, fun _ => rfl⟩ (.cons ⟨rfl, fun _ => rfl⟩ .nil)))))))))))
  have G : ∀ p ∈ binaryFields, p.1 + p.2 ≤ 401 := by decide
  obtain ⟨b, e, hl, hin, -⟩ := putAll_spec _ (List.replicate 400 0#8)
    (by
      intro f hf' hp
      obtain ⟨p, hp', m1, m2⟩ := meets_mem M hf'
      have a1 := G p hp'
      have a2 := m2 hp
      rw [List.length_replicate]
      omega)
    (meets_apart M (by decide))
  rw [List.length_replicate] at hl
  simp only [List.forall_mem_cons, List.not_mem_nil, IsEmpty.forall_iff, implies_true, and_true] at hin
  obtain ⟨-, i2, -, i4, i5, i6, i7, i8, i9, -, -, -⟩ := hin
  have R16 : ∀ (p : ℕ) (v : BitVec 16), (∀ k, k < (writeUInt16BE v).length → b[p + k]? = (writeUInt16BE v)[k]?) →
      p + 2 ≤ 26 → parseUInt16BE ((((b ++ rest).take 26)).drop p) = .ok v := by
    intro p v h hp
    have lv : (writeUInt16BE v).length = 2 := rfl
    obtain ⟨r, er⟩ := drop_eq (b := (b ++ rest).take 26) (l := writeUInt16BE v) (p := p) (by
      intro k hk
      rw [List.getElem?_take, if_pos (by omega), List.getElem?_append_left (by omega), h k hk])
    rw [er, parse16]
  have R32 : ∀ (p : ℕ) (v : BitVec 32), (∀ k, k < (writeUInt32BE v).length → b[p + k]? = (writeUInt32BE v)[k]?) →
      p + 4 ≤ 26 → parseUInt32BE ((((b ++ rest).take 26)).drop p) = .ok v := by
    intro p v h hp
    have lv : (writeUInt32BE v).length = 4 := rfl
    obtain ⟨r, er⟩ := drop_eq (b := (b ++ rest).take 26) (l := writeUInt32BE v) (p := p) (by
      intro k hk
      rw [List.getElem?_take, if_pos (by omega), List.getElem?_append_left (by omega), h k hk])
    rw [er, parse32]
  refine ⟨b, ⟨5#16, 1#32, BitVec.ofNat 16 nz, dt⟩, ?_, hl, ?_, rfl, rfl, ?_, ?_, ?_, ?_⟩
  · unfold binaryWrite toInt16
    rw [if_pos ⟨h1, h2⟩, Res.monad_bind_eq, Res.bind_ok, ← hdt, e]
  · unfold binaryUpdate
    simp only [Res.monad_bind_eq]
    rw [R32 4 _ (i2 (by norm_num)) (by norm_num), Res.bind_ok, R16 16 _ (i6 (by norm_num)) (by norm_num), Res.bind_ok,
      R16 20 _ (i7 (by norm_num)) (by norm_num), Res.bind_ok, R16 24 _ (i8 (by norm_num)) (by norm_num), Res.bind_ok]
  · show dt.toInt = _
    rw [hdt, BitVec.toInt_ofInt]
    apply Int.bmod_eq_of_le <;> norm_num <;> omega
  · exact BitVec.toNat_ofNat nz 16
  · intro hn
    show (BitVec.ofNat 16 nz).toInt = nz
    rw [BitVec.toInt_eq_toNat_of_lt (by rw [BitVec.toNat_ofNat]; omega), BitVec.toNat_ofNat, Nat.mod_eq_of_lt (by omega)]
  · rintro v (rfl | rfl | rfl)
    · obtain ⟨r, er⟩ := drop_eq (p := 12) (i4 (by norm_num))
      rw [er, parse16]
    · obtain ⟨r, er⟩ := drop_eq (p := 14) (i5 (by norm_num))
      rw [er, parse16]
    · obtain ⟨r, er⟩ := drop_eq (p := 26) (i9 (by norm_num))
      rw [er, parse16]

/-- Traces of 32768 samples or more are read with another number of samples: a negative one, or none at all for 65536. A step of
32.768 or more is undefined behaviour. -/
theorem segy_binary_violation : (BitVec.ofNat 16 32768).toInt = -32768 ∧
    (∃ b r, binaryWrite 4 65536 1#16 = .ok b ∧ binaryUpdate b = .ok r ∧ r.hns.toInt = 0) ∧
    ∀ dz : ℝ, 32768 / 1000 ≤ dz → ∀ nz nSam, binaryWrite dz nz nSam = .ub "conversion to short" := by
  refine ⟨by decide, ?_, ?_⟩
  · have t : trunc (1000 * 4) = 4000 := by
      unfold trunc
      rw [if_pos (by norm_num), Int.floor_eq_iff]
      norm_num
    obtain ⟨b, r, h1, -, h2, -, -, -, h3, -⟩ := segy_binary_round_trip (dz := 4) (by rw [t]; norm_num) (by rw [t]; norm_num) 65536 1#16 []
    rw [List.append_nil] at h2
    have e : r.hns = 0#16 := BitVec.eq_of_toNat_eq (by rw [h3]; rfl)
    exact ⟨b, r, h1, h2, by rw [e]; rfl⟩
  · intro dz hd nz nSam
    have h : (32768 : ℝ) ≤ 1000 * dz := by
      have := mul_le_mul_of_nonneg_left hd (show (0 : ℝ) ≤ 1000 by norm_num)
      norm_num at this
      exact this
    have t : (32768 : ℤ) ≤ trunc (1000 * dz) := by
      unfold trunc
      rw [if_pos (by linarith)]
      exact Int.le_floor.2 (by exact_mod_cast h)
    unfold binaryWrite toInt16
    rw [if_neg (by omega)]
    rfl

/-- A case: 500 samples with step 4. -/
theorem segy_binary_example : ∃ b r, binaryWrite 4 500 1#16 = .ok b ∧ binaryUpdate b = .ok r ∧ r.hns.toInt = 500 ∧ r.hdt.toInt = 4000 := by
  have t : trunc (1000 * 4) = 4000 := by
    unfold trunc
    rw [if_pos (by norm_num), Int.floor_eq_iff]
    norm_num
  obtain ⟨b, r, h1, -, h2, -, -, h3, -, h4, -⟩ := segy_binary_round_trip (dz := 4) (by rw [t]; norm_num) (by rw [t]; norm_num) 500 1#16 []
  rw [List.append_nil] at h2
  exact ⟨b, r, h1, h2, by rw [h4 (by norm_num)]; rfl, by rw [h3, t]⟩

end CommonHeaders

end Verif
