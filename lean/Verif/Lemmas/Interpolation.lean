import Verif.Model.Interpolation
import Verif.Lemmas.Kriging
import Verif.Lemmas.Surface
import Mathlib.Tactic.FieldSimp
import Mathlib.Tactic.Linarith

/-! Lemmas on interpolation in one dimension. -/

namespace Verif.Interp

theorem nearestLoop_none {x : ℝ} {l : List ℝ} (hs : l.Pairwise (· < ·)) (h : ∀ a ∈ l, x ≤ a) (i : ℕ) (dist : ℝ)
    (idx : Option ℕ) : nearestLoop x i dist idx l = idx := by
  induction l generalizing i dist with
  | nil => rfl
  | cons a as ih =>
    have h1 : x ≤ a := h a (by simp)
    unfold nearestLoop
    rw [if_neg (by norm_num; intro h; linarith)]
    split
    · rfl
    · exact ih hs.of_cons (fun b hb => h b (by simp [hb])) _ _

theorem nearestLoop_some {x : ℝ} {l : List ℝ} (hs : l.Pairwise (· < ·)) (i : ℕ) (dist : ℝ) (idx : Option ℕ) (k : ℕ)
    (hk : k < l.length) (h1 : l[k] < x) (h2 : ∀ m (hm : m < l.length), k < m → x ≤ l[m]) (hd : x - l[k] < dist) :
    nearestLoop x i dist idx l = some (i + k) := by
  induction l generalizing i dist idx k with
  | nil => simp at hk
  | cons a as ih =>
    have ha : a < x := by
      rcases Nat.eq_zero_or_pos k with rfl | h
      · simpa using h1
      · have := List.pairwise_iff_getElem.1 hs 0 k (by simp) hk h
        simp only [List.getElem_cons_zero] at this
        linarith
    unfold nearestLoop
    rcases k with _ | k
    · simp only [List.getElem_cons_zero] at h1 hd
      rw [if_pos ⟨by norm_num; linarith, hd⟩]
      rw [nearestLoop_none hs.of_cons]
      · simp
      · intro b hb
        obtain ⟨m, hm, rfl⟩ := List.getElem_of_mem hb
        have := h2 (m + 1) (by simpa using hm) (by omega)
        simpa using this
    · have hlt := List.pairwise_iff_getElem.1 hs 0 (k + 1) (by simp) hk (by omega)
      simp only [List.getElem_cons_zero, List.getElem_cons_succ, List.length_cons] at h1 hd hlt hk
      have h3 : ∀ m (hm : m < as.length), k < m → x ≤ as[m] := by
        intro m hm hkm
        have := h2 (m + 1) (by simpa using hm) (by omega)
        simpa using this
      rw [show i + (k + 1) = i + 1 + k by omega]
      split
      · exact ih hs.of_cons _ _ _ k (by omega) h1 h3 (by linarith)
      · rw [if_neg (by norm_num; linarith)]
        exact ih hs.of_cons _ _ _ k (by omega) h1 h3 hd

theorem nearestLoop_far {x : ℝ} {l : List ℝ} (hs : l.Pairwise (· < ·)) (i : ℕ) (dist : ℝ) (idx : Option ℕ)
    (h : ∀ a ∈ l, a < x → a + dist ≤ x) : nearestLoop x i dist idx l = idx := by
  induction l generalizing i with
  | nil => rfl
  | cons a as ih =>
    unfold nearestLoop
    rw [if_neg (by norm_num; intro h0; have := h a (by simp) h0; linarith)]
    split
    · rfl
    · exact ih hs.of_cons _ fun b hb => h b (by simp [hb])

/-- The number of the segment used for `x`: the last point below `x`, or the first one. -/
theorem findNearest_cases {x : ℝ} {l : List ℝ} (hs : l.Pairwise (· < ·)) (h0 : 0 < l.length)
    (hnear : x ≤ l[0] ∨ ∃ a ∈ l, a < x ∧ x < a + 1e10) :
    (findNearest x l = none ∧ x ≤ l[0]) ∨ ∃ j, ∃ hj : j < l.length, findNearest x l = some j ∧ l[j] < x ∧
      ∀ m (hm : m < l.length), j < m → x ≤ l[m] := by
  have hmono := List.pairwise_iff_getElem.1 hs
  by_cases hx : x ≤ l[0]
  · left
    refine ⟨nearestLoop_none hs ?_ _ _ _, hx⟩
    intro a ha
    obtain ⟨m, hm, rfl⟩ := List.getElem_of_mem ha
    rcases Nat.eq_zero_or_pos m with rfl | h
    · exact hx
    · exact le_trans hx (hmono 0 m h0 hm h).le
  · right
    rcases hnear with h | ⟨a, ha, hax, hxa⟩
    · exact absurd h hx
    obtain ⟨i, hi, rfl⟩ := List.getElem_of_mem ha
    classical
    let P : ℕ → Prop := fun k => ∃ h : k < l.length, l[k] < x
    let j := Nat.findGreatest P (l.length - 1)
    have hij : i ≤ j := Nat.le_findGreatest (by omega) ⟨hi, hax⟩
    have hPj : P j := Nat.findGreatest_spec (P := P) (m := i) (by omega) ⟨hi, hax⟩
    obtain ⟨hj, hjx⟩ := hPj
    have hlast : ∀ m (hm : m < l.length), j < m → x ≤ l[m] := by
      intro m hm hjm
      by_contra hc
      have := Nat.le_findGreatest (P := P) (show m ≤ l.length - 1 by omega) ⟨hm, by linarith⟩
      omega
    have hle : l[i] ≤ l[j] := by
      rcases Nat.lt_or_ge i j with h | h
      · exact (hmono i j hi hj h).le
      · have : i = j := by omega
        subst this; rfl
    refine ⟨j, hj, ?_, hjx, hlast⟩
    have := nearestLoop_some hs 0 1e10 none j hj hjx hlast (by linarith)
    simpa [findNearest] using this

theorem findNearest_far {x : ℝ} {l : List ℝ} (hs : l.Pairwise (· < ·)) (h : ∀ a ∈ l, a < x → a + 1e10 ≤ x) :
    findNearest x l = none := nearestLoop_far hs _ _ _ h

theorem subSize_eq {n k : ℕ} (h : k ≤ n) (hn : n < 2 ^ 64) : subSize n k = n - k := by
  unfold subSize
  rw [show n + 2 ^ 64 - k = (n - k) + 2 ^ 64 by omega, Nat.add_mod_right, Nat.mod_eq_of_lt (by omega)]

/-- The state of `segStep` before turn `i`, for strictly increasing places. -/
structure SegInv (x_in y_in : List ℝ) (i : ℕ) (s : Segments) : Prop where
  ldx : s.dx.length = x_in.length
  ldy : s.dy.length = x_in.length
  lsl : s.slope.length = x_in.length
  lic : s.intercept.length = x_in.length
  val : ∀ k, k < i → ∀ (h : k + 1 < x_in.length) (h' : k + 1 < y_in.length),
    s.slope[k]? = some (some ((y_in[k + 1] - y_in[k]) / (x_in[k + 1] - x_in[k]))) ∧
    s.intercept[k]? = some (some (y_in[k] - x_in[k] * ((y_in[k + 1] - y_in[k]) / (x_in[k + 1] - x_in[k]))))

theorem segStep_sat {x_in y_in : List ℝ} (hl : x_in.length = y_in.length) (hs : x_in.Pairwise (· < ·)) {i : ℕ}
    (hi : i + 1 < x_in.length) {s : Segments} (h : SegInv x_in y_in i s) :
    (segStep x_in y_in i s).Sat (SegInv x_in y_in (i + 1)) := by
  have hlt := List.pairwise_iff_getElem.1 hs i (i + 1) (by omega) hi (by omega)
  unfold segStep
  simp only [Res.monad_bind_eq]
  rw [rd_ok hi, Res.bind_ok, rd_ok (show i < x_in.length by omega), Res.bind_ok,
    rd_ok (show i + 1 < y_in.length by omega), Res.bind_ok, rd_ok (show i < y_in.length by omega), Res.bind_ok,
    if_neg (by rintro ⟨h, -⟩; linarith), Res.bind_ok, wr_ok (by rw [h.ldx]; omega), Res.bind_ok,
    wr_ok (by rw [h.ldy]; omega), Res.bind_ok, wr_ok (by rw [h.lsl]; omega), Res.bind_ok,
    wr_ok (by rw [h.lic]; omega), Res.bind_ok, Res.sat_ok]
  have hq : quot (y_in[i + 1] - y_in[i]) (x_in[i + 1] - x_in[i])
      = some ((y_in[i + 1] - y_in[i]) / (x_in[i + 1] - x_in[i])) := by
    rw [quot, if_neg (by linarith)]
  refine ⟨by simp [h.ldx], by simp [h.ldy], by simp [h.lsl], by simp [h.lic], ?_⟩
  intro k hk hk1 hk2
  by_cases hki : k = i
  · subst hki
    simp only [hq, Option.map_some]
    rw [List.getElem?_set_self (by rw [h.lsl]; omega), List.getElem?_set_self (by rw [h.lic]; omega)]
    exact ⟨rfl, rfl⟩
  · have := h.val k (by omega) hk1 hk2
    simp only [List.getElem?_set_ne (show i ≠ k by omega)]
    exact this

/-- The segments after the loop and the copies. -/
structure SegDone (x_in y_in : List ℝ) (s : Segments) : Prop where
  val : ∀ k, k < x_in.length → ∀ (h : min k (x_in.length - 2) + 1 < x_in.length)
    (h' : min k (x_in.length - 2) + 1 < y_in.length),
    s.slope[k]? = some (some ((y_in[min k (x_in.length - 2) + 1] - y_in[min k (x_in.length - 2)]) /
      (x_in[min k (x_in.length - 2) + 1] - x_in[min k (x_in.length - 2)]))) ∧
    s.intercept[k]? = some (some (y_in[min k (x_in.length - 2)] - x_in[min k (x_in.length - 2)] *
      ((y_in[min k (x_in.length - 2) + 1] - y_in[min k (x_in.length - 2)]) /
      (x_in[min k (x_in.length - 2) + 1] - x_in[min k (x_in.length - 2)]))))

theorem copyLast_ok {α : Type} {n : ℕ} (h2 : 2 ≤ n) (hn : n < 2 ^ 64) {v : List α} (hv : v.length = n) :
    copyLast n v = .ok (v.set (n - 1) (v[n - 2]'(by omega))) := by
  unfold copyLast
  simp only [Res.monad_bind_eq]
  rw [subSize_eq h2 hn, subSize_eq (by omega) hn, rd_ok (show n - 2 < v.length by omega), Res.bind_ok,
    wr_ok (by omega)]

theorem copyLast_get {α : Type} {n : ℕ} (h2 : 2 ≤ n) {v : List α} (hv : v.length = n) {k : ℕ} (hk : k < n) :
    (v.set (n - 1) (v[n - 2]'(by omega)))[k]? = v[min k (n - 2)]? := by
  by_cases h : k = n - 1
  · subst h
    rw [List.getElem?_set_self (by omega), show min (n - 1) (n - 2) = n - 2 by omega, List.getElem?_eq_getElem]
  · rw [List.getElem?_set_ne (by omega), show min k (n - 2) = k by omega]

theorem linear1D_segments {x_in y_in : List ℝ} (hl : x_in.length = y_in.length) (h2 : 2 ≤ x_in.length)
    (hn : x_in.length < 2 ^ 64) (hs : x_in.Pairwise (· < ·)) (x_out : List ℝ) :
    ∃ s, SegDone x_in y_in s ∧ linear1D x_in y_in x_out = fillVec x_out.length fun i =>
      (rd x_out i).bind fun x => lineAt x_in s x := by
  unfold linear1D
  simp only [Res.monad_bind_eq]
  rw [if_neg (by simpa using hl), subSize_eq (by omega) hn]
  have key := forRange_sat (lo := 0) (hi := x_in.length - 1) (body := segStep x_in y_in)
    (s := ⟨List.replicate x_in.length 0, List.replicate x_in.length 0, List.replicate x_in.length (some 0),
      List.replicate x_in.length (some 0)⟩) (SegInv x_in y_in) (by omega)
    ⟨by simp, by simp, by simp, by simp, by intro k hk; omega⟩
    (fun i s _ hi h => segStep_sat hl hs (by omega) h)
  obtain ⟨s, hs1, hI⟩ := key
  rw [hs1, Res.bind_ok, copyLast_ok h2 hn hI.ldx, Res.bind_ok, copyLast_ok h2 hn hI.ldy, Res.bind_ok,
    copyLast_ok h2 hn hI.lsl, Res.bind_ok, copyLast_ok h2 hn hI.lic, Res.bind_ok]
  refine ⟨_, ⟨?_⟩, rfl⟩
  intro k hk h h'
  simp only
  rw [copyLast_get h2 hI.lsl hk, copyLast_get h2 hI.lic hk]
  exact hI.val _ (by omega) h h'

/-- The value on the line through two points. -/
noncomputable def lineThrough (x0 y0 x1 y1 x : ℝ) : ℝ := y0 + (x - x0) / (x1 - x0) * (y1 - y0)

theorem lineAt_ok {x_in y_in : List ℝ} (hl : x_in.length = y_in.length) (h2 : 2 ≤ x_in.length)
    {s : Segments} (hs : SegDone x_in y_in s) {x : ℝ} {j : ℕ} (hj : j < x_in.length)
    (hf : (findNearest x x_in).getD 0 = j) :
    lineAt x_in s x = .ok (lineThrough (x_in[min j (x_in.length - 2)]) (y_in[min j (x_in.length - 2)])
      (x_in[min j (x_in.length - 2) + 1]'(by omega)) (y_in[min j (x_in.length - 2) + 1]'(by omega)) x) := by
  unfold lineAt
  simp only [Res.monad_bind_eq]
  obtain ⟨h1, h3⟩ := hs.val j hj (by omega) (by omega)
  rw [hf, rd_eq_ok.2 h1, Res.bind_ok, rd_eq_ok.2 h3, Res.bind_ok]
  simp only [Res.ok.injEq, lineThrough]
  ring

end Verif.Interp
