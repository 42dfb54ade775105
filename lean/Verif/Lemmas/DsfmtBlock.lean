import Verif.Lemmas.DsfmtSeq

/-! Helper lemmas: the block functions walk along the published sequence. -/

namespace Verif.Dsfmt

open Spec.Mt

variable {X L : ℕ → W128}

/-- The state of the block functions: `i` entries have been generated, of which the first `c` have
been converted, and `t` words of the state have been replaced. -/
structure Blk (X L : ℕ → W128) (C : ℕ → Cell) (st0 : List W128) (arr0 : List Cell)
    (k m c i t : ℕ) (s : Block) : Prop where
  alen : s.arr.length = arr0.length
  conv : ∀ j < c, s.arr[j]? = some (C (k + 191 + j))
  bits : ∀ j, c ≤ j → j < i → s.arr[j]? = some (.bits (X (k + 191 + j)))
  rest : ∀ j, i ≤ j → s.arr[j]? = arr0[j]?
  slen : s.st.length = 192
  old : t = 0 → s.st = st0
  new : ∀ j < t, s.st[j]? = some (X (k + m + j))
  lung : s.lung = L (k + i)

variable {C : ℕ → Cell} {st0 : List W128} {arr0 : List Cell} {k m c i t : ℕ} {s : Block}

theorem Blk.write (h : Blk X L C st0 arr0 k m c i t s) (hc : c ≤ i) (hi : i < arr0.length)
    (r : W128 × W128) (hr : r = (X (k + i + 191), L (k + i + 1))) :
    ((wr s.arr i (.bits r.1)).bind fun arr =>
      .ok { s with arr := arr, lung := r.2 }).Sat (Blk X L C st0 arr0 k m c (i + 1) t) := by
  subst hr
  rw [wr_ok (by rw [h.alen]; exact hi), Res.bind_ok, Res.sat_ok]
  refine ⟨by simp [h.alen], ?_, ?_, ?_, h.slen, h.old, h.new, rfl⟩
  · intro j hj
    show (s.arr.set i _)[j]? = _
    rw [List.getElem?_set_ne (by omega)]
    exact h.conv j hj
  · intro j h1 h2
    show (s.arr.set i _)[j]? = _
    rcases Nat.lt_succ_iff_lt_or_eq.1 h2 with hlt | rfl
    · rw [List.getElem?_set_ne (by omega)]
      exact h.bits j h1 hlt
    · rw [List.getElem?_set_self (by rw [h.alen]; exact hi), show k + j + 191 = k + 191 + j by omega]
  · intro j hj
    show (s.arr.set i _)[j]? = _
    rw [List.getElem?_set_ne (by omega)]
    exact h.rest j (by omega)

theorem recSS_blk (hX : DsfmtSeq X L) (b : Build) (hw : Win X L k st0)
    (h : Blk X L C st0 arr0 k m 0 i 0 s) (hi : i < 74) (ha : i < arr0.length) :
    (recSS b i i (i + 117) s).Sat (Blk X L C st0 arr0 k m 0 (i + 1) 0) := by
  have e1 : rd s.st i = .ok (X (k + i)) := by
    rw [rd_eq_ok, h.old rfl, hw.el i (by omega)]
  have e2 : rd s.st (i + 117) = .ok (X (k + i + 117)) := by
    rw [rd_eq_ok, h.old rfl, hw.el (i + 117) (by omega), Nat.add_assoc]
  unfold recSS
  simp only [Res.monad_bind_eq, e1, e2, Res.bind_ok]
  exact h.write (Nat.zero_le _) ha _ (by rw [doRecursion_eq, h.lung, ← hX.lung, ← hX.out])

theorem rd_bits (h : Blk X L C st0 arr0 k m c i t s) {j : ℕ} (h1 : c ≤ j) (h2 : j < i) :
    rd s.arr j = .ok (.bits (X (k + 191 + j))) := rd_eq_ok.2 (h.bits j h1 h2)

theorem recSA_blk (hX : DsfmtSeq X L) (b : Build) (hw : Win X L k st0)
    (h : Blk X L C st0 arr0 k m 0 i 0 s) (hi : 74 ≤ i) (hi' : i < 191) (ha : i < arr0.length) :
    (recSA b i i (i + 117 - 191) s).Sat (Blk X L C st0 arr0 k m 0 (i + 1) 0) := by
  have e1 : rd s.st i = .ok (X (k + i)) := by
    rw [rd_eq_ok, h.old rfl, hw.el i (by omega)]
  have e2 : rd s.arr (i + 117 - 191) = .ok (.bits (X (k + i + 117))) := by
    rw [rd_bits h (Nat.zero_le _) (by omega),
      show k + 191 + (i + 117 - 191) = k + i + 117 by omega]
  unfold recSA
  simp only [Res.monad_bind_eq, e1, e2, Res.bind_ok, Cell.raw]
  exact h.write (Nat.zero_le _) ha _ (by rw [doRecursion_eq, h.lung, ← hX.lung, ← hX.out])

theorem recAA_blk (hX : DsfmtSeq X L) (b : Build)
    (h : Blk X L C st0 arr0 k m c i t s) (hi : 191 ≤ i) (hc : c ≤ i - 191) (ha : i < arr0.length) :
    (recAA b i (i - 191) (i + 117 - 191) s).Sat (Blk X L C st0 arr0 k m c (i + 1) t) := by
  have e1 : rd s.arr (i - 191) = .ok (.bits (X (k + i))) := by
    rw [rd_bits h hc (by omega), show k + 191 + (i - 191) = k + i by omega]
  have e2 : rd s.arr (i + 117 - 191) = .ok (.bits (X (k + i + 117))) := by
    rw [rd_bits h (by omega) (by omega), show k + 191 + (i + 117 - 191) = k + i + 117 by omega]
  unfold recAA
  simp only [Res.monad_bind_eq, e1, e2, Res.bind_ok, Cell.raw]
  exact h.write (by omega) ha _ (by rw [doRecursion_eq, h.lung, ← hX.lung, ← hX.out])

theorem copyBack_blk {j : ℕ} (h : Blk X L C st0 arr0 k m c i t s) (ht : t < 192) (hc : c ≤ j)
    (hj : j < i) (hjt : 191 + j = m + t) :
    (copyBack t j s).Sat (Blk X L C st0 arr0 k m c i (t + 1)) := by
  unfold copyBack
  simp only [Res.monad_bind_eq, rd_bits h hc hj, Res.bind_ok, Cell.raw]
  rw [wr_ok (by rw [h.slen]; exact ht), Res.bind_ok, Res.sat_ok]
  refine ⟨h.alen, h.conv, h.bits, h.rest, by simp [h.slen], fun h => absurd h (by omega), ?_, h.lung⟩
  intro q hq
  show (s.st.set t _)[q]? = _
  rcases Nat.lt_succ_iff_lt_or_eq.1 hq with hlt | rfl
  · rw [List.getElem?_set_ne (by omega)]
    exact h.new q hlt
  · rw [List.getElem?_set_self (by rw [h.slen]; exact ht), show k + 191 + j = k + m + q by omega]

theorem convertAt_blk {convert : Cell → Res Cell}
    (hconv : ∀ n, k + 191 ≤ n → convert (.bits (X n)) = .ok (C n))
    (h : Blk X L C st0 arr0 k m c i t s) (hc : c < i) (hi : i ≤ arr0.length) :
    (convertAt convert c s).Sat (Blk X L C st0 arr0 k m (c + 1) i t) := by
  unfold convertAt
  simp only [Res.monad_bind_eq, rd_bits h le_rfl hc, Res.bind_ok, hconv (k + 191 + c) (by omega)]
  rw [wr_ok (by rw [h.alen]; omega), Res.bind_ok, Res.sat_ok]
  refine ⟨by simp [h.alen], ?_, ?_, ?_, h.slen, h.old, h.new, h.lung⟩
  · intro j hj
    show (s.arr.set c _)[j]? = _
    rcases Nat.lt_succ_iff_lt_or_eq.1 hj with hlt | rfl
    · rw [List.getElem?_set_ne (by omega)]
      exact h.conv j hlt
    · rw [List.getElem?_set_self (by rw [h.alen]; omega)]
  · intro j h1 h2
    show (s.arr.set c _)[j]? = _
    rw [List.getElem?_set_ne (by omega)]
    exact h.bits j (by omega) h2
  · intro j hj
    show (s.arr.set c _)[j]? = _
    rw [List.getElem?_set_ne (by omega)]
    exact h.rest j hj

/-- The first 191 entries. -/
theorem block_head (hX : DsfmtSeq X L) (b : Build) (hw : Win X L k st0) (hm : 191 ≤ m)
    (ha : m ≤ arr0.length) {β : Type} {f : Block → Res β} {Q : β → Prop}
    (hf : ∀ s, Blk X L C st0 arr0 k m 0 191 0 s → (f s).Sat Q) :
    ((rd st0 nW).bind fun lung => (recSS b 0 0 pos1 ⟨arr0, st0, lung⟩).bind fun s =>
      (forRange 1 (nW - pos1) (fun i s => recSS b i i (i + pos1) s) s).bind fun s =>
        (forRange (nW - pos1) nW (fun i s => recSA b i i (i + pos1 - nW) s) s).bind f).Sat Q := by
  rw [show rd st0 nW = .ok (L k) from rd_eq_ok.2 hw.lung, Res.bind_ok]
  have h0 : Blk X L C st0 arr0 k m 0 0 0 ⟨arr0, st0, L k⟩ :=
    ⟨rfl, fun j hj => absurd hj (by omega), fun j _ hj => absurd hj (by omega), fun j _ => rfl,
      hw.len, fun _ => rfl, fun j hj => absurd hj (by omega), rfl⟩
  refine Res.Sat.bind (recSS_blk hX b hw h0 (by omega) (by omega)) fun s hs => ?_
  refine Res.Sat.bind (P := Blk X L C st0 arr0 k m 0 74 0)
    (forRange_sat (fun i s => Blk X L C st0 arr0 k m 0 i 0 s) (by decide) hs
      fun i s h1 h2 hI => ?_) fun s hs => ?_
  · change i < 74 at h2
    exact recSS_blk hX b hw hI h2 (by omega)
  refine Res.Sat.bind (P := Blk X L C st0 arr0 k m 0 191 0)
    (forRange_sat (fun i s => Blk X L C st0 arr0 k m 0 i 0 s) (by decide) hs
      fun i s h1 h2 hI => ?_) hf
  change i < 191 at h2
  change 74 ≤ i at h1
  exact recSA_blk hX b hw hI h1 h2 (by omega)

/-- What the block functions leave behind. -/
structure Filled (X L : ℕ → W128) (C : ℕ → Cell) (arr0 : List Cell) (k m : ℕ) (d : Dsfmt)
    (r : List Cell × Dsfmt) : Prop where
  alen : r.1.length = arr0.length
  el : ∀ j < m, r.1[j]? = some (C (k + 191 + j))
  rest : ∀ j, m ≤ j → r.1[j]? = arr0[j]?
  win : Win X L (k + m) r.2.status
  idx : r.2.idx = d.idx

theorem blk_end {d : Dsfmt} (h : Blk X L C d.status arr0 k m m m 191 s) :
    ((wr s.st nW s.lung).bind fun st => .ok (s.arr, { d with status := st })).Sat
      (Filled X L C arr0 k m d) := by
  rw [wr_ok (by rw [h.slen]; decide), Res.bind_ok, Res.sat_ok]
  refine ⟨h.alen, h.conv, h.rest, ⟨by simp [h.slen], fun j hj => ?_, ?_⟩, rfl⟩
  · show (s.st.set 191 s.lung)[j]? = _
    rw [List.getElem?_set_ne (by omega)]
    exact h.new j hj
  · show (s.st.set 191 s.lung)[191]? = _
    rw [List.getElem?_set_self (by rw [h.slen]; omega), h.lung]

theorem genRandArrayC1o2_filled (hX : DsfmtSeq X L) (b : Build) {d : Dsfmt}
    (hw : Win X L k d.status) (hm : 191 ≤ m) (ha : m ≤ arr0.length) :
    (genRandArrayC1o2 b d arr0 m).Sat (Filled X L (fun n => .bits (X n)) arr0 k m d) := by
  unfold genRandArrayC1o2
  simp only [Res.monad_bind_eq]
  refine block_head (C := fun n => .bits (X n)) hX b hw hm ha fun s hs => ?_
  refine Res.Sat.bind (P := Blk X L (fun n => .bits (X n)) d.status arr0 k m 0
    (max 191 (m - 191)) 0) ?_ fun s hs => ?_
  · by_cases h : 191 ≤ m - 191
    · rw [max_eq_right h]
      refine forRange_sat (fun i s => Blk X L (fun n => .bits (X n)) d.status arr0 k m 0 i 0 s)
        h hs fun i s h1 h2 hI => ?_
      change 191 ≤ i at h1
      change i < m - 191 at h2
      exact recAA_blk hX b hI h1 (Nat.zero_le _) (by omega)
    · rw [forRange_empty (show m - nW ≤ nW from (not_le.1 h).le), max_eq_left (by omega),
        Res.sat_ok]
      exact hs
  refine Res.Sat.bind (P := Blk X L (fun n => .bits (X n)) d.status arr0 k m 0
    (max 191 (m - 191)) (382 - m)) ?_ fun s hs => ?_
  · refine forRange_sat (fun t s => Blk X L (fun n => .bits (X n)) d.status arr0 k m 0
      (max 191 (m - 191)) t s) (Nat.zero_le _) hs fun t s h1 h2 hI => ?_
    change t < 382 - m at h2
    exact copyBack_blk (j := t + m - 191) hI (by omega) (Nat.zero_le _)
      (lt_of_lt_of_le (by omega) (le_max_left _ _)) (by omega)
  refine Res.Sat.bind (P := Blk X L (fun n => .bits (X n)) d.status arr0 k m 0 m 191) ?_
    fun s hs => ?_
  · have e0 : Blk X L (fun n => .bits (X n)) d.status arr0 k m 0 (max 191 (m - 191))
        (max 191 (m - 191) + 191 - m) s := by
      have : max 191 (m - 191) + 191 - m = 382 - m := by omega
      rw [this]; exact hs
    have := forRange_sat (lo := max nW (m - nW)) (hi := m) (s := s)
      (body := fun i s => (recAA b i (i - nW) (i + pos1 - nW) s).bind fun s =>
        copyBack (2 * nW - m + (i - max nW (m - nW))) i s)
      (fun i s => Blk X L (fun n => .bits (X n)) d.status arr0 k m 0 i (i + 191 - m) s)
      (show max 191 (m - 191) ≤ m by omega) e0 fun i s h1 h2 hI => ?_
    · have e : m + 191 - m = 191 := by omega
      rw [e] at this
      exact this
    · change max 191 (m - 191) ≤ i at h1
      refine Res.Sat.bind (recAA_blk hX b hI (by omega) (Nat.zero_le _) (by omega)) fun s hs => ?_
      have e : 2 * nW - m + (i - max nW (m - nW)) = i + 191 - m := by
        show 382 - m + (i - max 191 (m - 191)) = _
        omega
      rw [e, show i + 1 + 191 - m = i + 191 - m + 1 by omega]
      exact copyBack_blk hs (by omega) (Nat.zero_le _) (by omega) (by omega)
  refine blk_end (C := fun n => .bits (X n)) (k := k) ?_
  exact ⟨hs.alen, fun j hj => hs.bits j (Nat.zero_le _) hj, fun j h1 h2 => hs.bits j (Nat.zero_le _) h2,
    hs.rest, hs.slen, hs.old, hs.new, hs.lung⟩

theorem genRandArrayConv_filled (hX : DsfmtSeq X L) (b : Build) {d : Dsfmt}
    {convert : Cell → Res Cell}
    (hconv : ∀ n, k + 191 ≤ n → convert (.bits (X n)) = .ok (C n))
    (hw : Win X L k d.status) (hm : 191 ≤ m) (ha : m ≤ arr0.length) :
    (genRandArrayConv convert b d arr0 m).Sat (Filled X L C arr0 k m d) := by
  unfold genRandArrayConv
  simp only [Res.monad_bind_eq]
  refine block_head (C := C) hX b hw hm ha fun s hs => ?_
  refine Res.Sat.bind (P := Blk X L C d.status arr0 k m (max 191 (m - 191) - 191)
    (max 191 (m - 191)) 0) ?_ fun s hs => ?_
  · by_cases h : 191 ≤ m - 191
    · rw [max_eq_right h]
      refine forRange_sat (fun i s => Blk X L C d.status arr0 k m (i - 191) i 0 s)
        h hs fun i s h1 h2 hI => ?_
      change 191 ≤ i at h1
      change i < m - 191 at h2
      refine Res.Sat.bind (recAA_blk hX b hI h1 le_rfl (by omega)) fun s hs => ?_
      rw [show i + 1 - 191 = i - 191 + 1 by omega]
      exact convertAt_blk hconv hs (by omega) (by omega)
    · rw [forRange_empty (show m - nW ≤ nW from (not_le.1 h).le), max_eq_left (by omega),
        Res.sat_ok]
      exact hs
  refine Res.Sat.bind (P := Blk X L C d.status arr0 k m (max 191 (m - 191) - 191)
    (max 191 (m - 191)) (382 - m)) ?_ fun s hs => ?_
  · refine forRange_sat (fun t s => Blk X L C d.status arr0 k m (max 191 (m - 191) - 191)
      (max 191 (m - 191)) t s) (Nat.zero_le _) hs fun t s h1 h2 hI => ?_
    change t < 382 - m at h2
    exact copyBack_blk (j := t + m - 191) hI (by omega) (by omega)
      (lt_of_lt_of_le (by omega) (le_max_left _ _)) (by omega)
  refine Res.Sat.bind (P := Blk X L C d.status arr0 k m (m - 191) m 191) ?_
    fun s hs => ?_
  · have e0 : Blk X L C d.status arr0 k m (max 191 (m - 191) - 191) (max 191 (m - 191))
        (max 191 (m - 191) + 191 - m) s := by
      have : max 191 (m - 191) + 191 - m = 382 - m := by omega
      rw [this]; exact hs
    have := forRange_sat (lo := max nW (m - nW)) (hi := m) (s := s)
      (body := fun i s => (recAA b i (i - nW) (i + pos1 - nW) s).bind fun s =>
        (copyBack (2 * nW - m + (i - max nW (m - nW))) i s).bind fun s =>
          convertAt convert (i - nW) s)
      (fun i s => Blk X L C d.status arr0 k m (i - 191) i (i + 191 - m) s)
      (show max 191 (m - 191) ≤ m by omega) e0 fun i s h1 h2 hI => ?_
    · have e : m + 191 - m = 191 := by omega
      rw [e] at this
      exact this
    · change max 191 (m - 191) ≤ i at h1
      refine Res.Sat.bind (recAA_blk hX b hI (by omega) le_rfl (by omega)) fun s hs => ?_
      have e : 2 * nW - m + (i - max nW (m - nW)) = i + 191 - m := by
        show 382 - m + (i - max 191 (m - 191)) = _
        omega
      rw [e, show i + 1 + 191 - m = i + 191 - m + 1 by omega]
      refine Res.Sat.bind (copyBack_blk hs (by omega) (by omega) (by omega) (by omega))
        fun s hs => ?_
      rw [show i + 1 - 191 = i - 191 + 1 by omega]
      exact convertAt_blk hconv hs (by omega) (by omega)
  refine Res.Sat.bind (P := Blk X L C d.status arr0 k m m m 191) ?_ fun s hs => ?_
  · refine forRange_sat (fun c s => Blk X L C d.status arr0 k m c m 191 s)
      (show m - 191 ≤ m by omega) hs fun c s h1 h2 hI => ?_
    exact convertAt_blk hconv hI h2 ha
  exact blk_end hs

end Verif.Dsfmt
