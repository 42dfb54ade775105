import Verif.Lemmas.Interpolation

/-! Lemmas on the cubic spline of interpolation.cpp. -/

namespace Verif.Interp

section math
variable (X Y : ℕ → ℝ)

/-- The length of interval `i`. -/
def gapF (i : ℕ) : ℝ := X (i + 1) - X i

/-- Six times the slope in interval `i`. -/
noncomputable def jumpF (i : ℕ) : ℝ := 6 * (Y (i + 1) - Y i) / gapF X i

/-- The diagonal after elimination, in row `k+1`. -/
noncomputable def elimU : ℕ → ℝ
  | 0 => 2 * (gapF X 0 + gapF X 1)
  | k + 1 => 2 * (gapF X (k + 2) + gapF X (k + 1)) - gapF X (k + 1) * gapF X (k + 1) / elimU k

/-- The right hand side after elimination, in row `k+1`. -/
noncomputable def elimV : ℕ → ℝ
  | 0 => jumpF X Y 1 - jumpF X Y 0
  | k + 1 => jumpF X Y (k + 2) - jumpF X Y (k + 1) - gapF X (k + 1) * elimV k / elimU X k

/-- The solution at `n-1-j`. -/
noncomputable def backZ (n : ℕ) : ℕ → ℝ
  | 0 => 0
  | j + 1 => (elimV X Y (n - 3 - j) - gapF X (n - 2 - j) * backZ n j) / elimU X (n - 3 - j)

/-- The second derivative at point `i`. -/
noncomputable def curv (n i : ℕ) : ℝ := if i = 0 then 0 else backZ X Y n (n - 1 - i)

noncomputable def cA (n i : ℕ) : ℝ := 1 / (6 * gapF X i) * (curv X Y n (i + 1) - curv X Y n i)
noncomputable def cB (n i : ℕ) : ℝ := curv X Y n i * (1 / 2)
noncomputable def cC (n i : ℕ) : ℝ :=
  -gapF X i / 6 * curv X Y n (i + 1) - gapF X i / 3 * curv X Y n i + 1 / gapF X i * (Y (i + 1) - Y i)

/-- The polynomial of interval `i`. -/
noncomputable def piece (n i : ℕ) (x : ℝ) : ℝ :=
  Y i + (x - X i) * (cC X Y n i + (x - X i) * (cB X Y n i + (x - X i) * cA X Y n i))

variable {X Y} {n : ℕ} (hX : ∀ i, i + 1 < n → 0 < gapF X i)
include hX

theorem elimU_gt {k : ℕ} (hk : k + 2 < n) : gapF X (k + 1) < elimU X k := by
  induction k with
  | zero =>
    have h0 := hX 0 (by omega)
    have h1 := hX 1 (by omega)
    simp only [elimU]
    linarith
  | succ k ih =>
    have h1 := hX (k + 1) (by omega)
    have h2 := hX (k + 2) (by omega)
    have ih := ih (by omega)
    have hq : gapF X (k + 1) * gapF X (k + 1) / elimU X k < gapF X (k + 1) := by
      rw [div_lt_iff₀ (by linarith)]
      exact mul_lt_mul_of_pos_left ih h1
    simp only [elimU]
    linarith

theorem elimU_pos {k : ℕ} (hk : k + 2 < n) : 0 < elimU X k :=
  (hX (k + 1) (by omega)).trans (elimU_gt hX hk)

omit hX in
theorem curv_zero : curv X Y n 0 = 0 := by simp [curv]

omit hX in
theorem curv_last (hn : 1 < n) : curv X Y n (n - 1) = 0 := by
  rw [curv, if_neg (by omega), Nat.sub_self]; rfl

theorem curv_row {k : ℕ} (hk : k + 2 < n) :
    elimU X k * curv X Y n (k + 1) + gapF X (k + 1) * curv X Y n (k + 2) = elimV X Y k := by
  have h := elimU_pos hX hk
  have e : curv X Y n (k + 1) = (elimV X Y k - gapF X (k + 1) * curv X Y n (k + 2)) / elimU X k := by
    rw [curv, if_neg (by omega), show n - 1 - (k + 1) = (n - 3 - k) + 1 by omega, backZ, curv, if_neg (by omega),
      show n - 3 - (n - 3 - k) = k by omega, show n - 2 - (n - 3 - k) = k + 1 by omega,
      show n - 1 - (k + 2) = n - 3 - k by omega]
  rw [e]
  field_simp
  ring

/-- The equations of the second derivatives. -/
theorem curv_tridiag {k : ℕ} (hk : k + 2 < n) :
    gapF X k * curv X Y n k + 2 * (gapF X k + gapF X (k + 1)) * curv X Y n (k + 1)
      + gapF X (k + 1) * curv X Y n (k + 2) = jumpF X Y (k + 1) - jumpF X Y k := by
  have h1 := curv_row (Y := Y) hX hk
  rcases k with _ | k
  · rw [curv_zero]
    simp only [elimU, elimV] at h1
    simp only [Nat.zero_add] at h1 ⊢
    linarith
  · have h2 := curv_row (Y := Y) hX (k := k) (by omega)
    have hu := elimU_pos hX (k := k) (by omega)
    simp only [elimU, elimV] at h1
    have h3 : gapF X (k + 1) * elimV X Y k / elimU X k
        = gapF X (k + 1) * curv X Y n (k + 1) + gapF X (k + 1) * gapF X (k + 1) / elimU X k * curv X Y n (k + 2) := by
      rw [← h2]
      field_simp
    rw [h3] at h1
    linarith

theorem piece_left (i : ℕ) : piece X Y n i (X i) = Y i := by simp [piece]

omit hX in
theorem piece_right_aux {i : ℕ} (h : gapF X i ≠ 0) :
    Y i + gapF X i * (cC X Y n i + gapF X i * (cB X Y n i + gapF X i * cA X Y n i)) = Y (i + 1) := by
  simp only [cA, cB, cC]
  field_simp
  ring

omit hX in
theorem cB_succ {i : ℕ} (h : gapF X i ≠ 0) : cB X Y n (i + 1) = cB X Y n i + 3 * gapF X i * cA X Y n i := by
  simp only [cA, cB]
  field_simp
  ring

theorem cC_succ {i : ℕ} (hi : i + 2 < n) :
    cC X Y n (i + 1) = cC X Y n i + 2 * gapF X i * cB X Y n i + 3 * gapF X i * gapF X i * cA X Y n i := by
  have ht := curv_tridiag (Y := Y) hX hi
  have h0 := (hX i (by omega)).ne'
  have h1 := (hX (i + 1) (by omega)).ne'
  have e1 : 1 / gapF X (i + 1) * (Y (i + 1 + 1) - Y (i + 1)) = jumpF X Y (i + 1) / 6 := by
    rw [jumpF]; ring
  have e0 : 1 / gapF X i * (Y (i + 1) - Y i) = jumpF X Y i / 6 := by
    rw [jumpF]; ring
  have e3 : 3 * gapF X i * gapF X i * cA X Y n i = gapF X i / 2 * (curv X Y n (i + 1) - curv X Y n i) := by
    rw [cA]; field_simp; ring
  rw [e3]
  simp only [cB, cC, e0, e1]
  rw [show i + 1 + 1 = i + 2 by omega]
  linear_combination (-1 / 6) * ht

/-- Two neighbouring pieces. -/
theorem piece_succ {i : ℕ} (hi : i + 2 < n) (x : ℝ) :
    piece X Y n (i + 1) x = piece X Y n i x + (cA X Y n (i + 1) - cA X Y n i) * (x - X (i + 1)) ^ 3 := by
  have h0 := (hX i (by omega)).ne'
  have e0 := piece_right_aux (Y := Y) (n := n) h0
  have e1 := cC_succ (Y := Y) hX hi
  have e2 := cB_succ (Y := Y) (n := n) h0
  unfold piece
  rw [e1, e2, ← e0]
  have hx : x - X i = (x - X (i + 1)) + gapF X i := by rw [gapF]; ring
  rw [hx]
  ring

end math

section code
variable {x_in y_in : List ℝ}

/-- The points as a function. -/
def fn (l : List ℝ) (i : ℕ) : ℝ := l.getD i 0

theorem rd_fn {l : List ℝ} {i : ℕ} (h : i < l.length) : rd l i = .ok (fn l i) := by
  rw [rd_ok h]; simp [fn, List.getD_eq_getElem?_getD, h]

theorem fn_map_range {m : ℕ} {g : ℕ → ℝ} {i : ℕ} (h : i < m) : fn ((List.range m).map g) i = g i := by
  simp [fn, List.getD_eq_getElem?_getD, h]

theorem fn_set_self {l : List ℝ} {i : ℕ} (h : i < l.length) (a : ℝ) : fn (l.set i a) i = a := by
  simp [fn, List.getD_eq_getElem?_getD, h]

theorem fn_set_ne {l : List ℝ} {i k : ℕ} (h : i ≠ k) (a : ℝ) : fn (l.set i a) k = fn l k := by
  simp [fn, List.getD_eq_getElem?_getD, h]

theorem gap_pos (hs : x_in.Pairwise (· < ·)) {i : ℕ} (h : i + 1 < x_in.length) : 0 < gapF (fn x_in) i := by
  have := List.pairwise_iff_getElem.1 hs i (i + 1) (by omega) h (by omega)
  have h1 : fn x_in i = x_in[i] := by simp [fn, List.getD_eq_getElem?_getD, show i < x_in.length by omega]
  have h2 : fn x_in (i + 1) = x_in[i + 1] := by simp [fn, List.getD_eq_getElem?_getD, h]
  rw [gapF, h1, h2]
  linarith

/-- The state of the elimination before turn `i`. -/
structure ElimInv (x_in y_in : List ℝ) (i : ℕ) (st : List ℝ × List ℝ) : Prop where
  lu : st.1.length = x_in.length
  lv : st.2.length = x_in.length
  val : ∀ k, k + 1 < i → fn st.1 (k + 1) = elimU (fn x_in) k ∧ fn st.2 (k + 1) = elimV (fn x_in) (fn y_in) k

theorem stepUV_sat (hs : x_in.Pairwise (· < ·)) {h b : List ℝ}
    (hh : h = (List.range (x_in.length - 1)).map (gapF (fn x_in)))
    (hb : b = (List.range (x_in.length - 1)).map (jumpF (fn x_in) (fn y_in))) {i : ℕ} (h2 : 2 ≤ i)
    (hi : i < x_in.length - 1) {st : List ℝ × List ℝ} (hI : ElimInv x_in y_in i st) :
    (stepUV h b i st).Sat (ElimInv x_in y_in (i + 1)) := by
  have hX : ∀ i, i + 1 < x_in.length → 0 < gapF (fn x_in) i := fun i h => gap_pos hs h
  have hlh : h.length = x_in.length - 1 := by simp [hh]
  have hlb : b.length = x_in.length - 1 := by simp [hb]
  obtain ⟨k, rfl⟩ : ∃ k, i = k + 2 := ⟨i - 2, by omega⟩
  have hv := hI.val k (by omega)
  have hu := elimU_pos hX (k := k) (by omega)
  have e1 : fn h (k + 2) = gapF (fn x_in) (k + 2) := by rw [hh, fn_map_range (by omega)]
  have e2 : fn h (k + 1) = gapF (fn x_in) (k + 1) := by rw [hh, fn_map_range (by omega)]
  have e3 : fn b (k + 2) = jumpF (fn x_in) (fn y_in) (k + 2) := by rw [hb, fn_map_range (by omega)]
  have e4 : fn b (k + 1) = jumpF (fn x_in) (fn y_in) (k + 1) := by rw [hb, fn_map_range (by omega)]
  unfold stepUV
  simp only [Res.monad_bind_eq, show k + 2 - 1 = k + 1 by omega]
  rw [rd_fn (show k + 2 < h.length by omega), Res.bind_ok, rd_fn (show k + 1 < h.length by omega), Res.bind_ok,
    rd_fn (show k + 1 < st.1.length by rw [hI.lu]; omega), Res.bind_ok, hv.1, RegSurf.divD_ok hu.ne', Res.bind_ok,
    wr_ok (show k + 2 < st.1.length by rw [hI.lu]; omega), Res.bind_ok, rd_fn (show k + 2 < b.length by omega),
    Res.bind_ok, rd_fn (show k + 1 < b.length by omega), Res.bind_ok,
    rd_fn (show k + 1 < st.2.length by rw [hI.lv]; omega), Res.bind_ok,
    rd_fn (by rw [List.length_set, hI.lu]; omega), Res.bind_ok, fn_set_ne (by omega), hv.1, hv.2, RegSurf.divD_ok hu.ne',
    Res.bind_ok, wr_ok (show k + 2 < st.2.length by rw [hI.lv]; omega), Res.bind_ok, Res.sat_ok]
  refine ⟨by simp [hI.lu], by simp [hI.lv], ?_⟩
  intro m hm
  by_cases hmk : m = k + 1
  · subst hmk
    rw [fn_set_self (by rw [hI.lu]; omega), fn_set_self (by rw [hI.lv]; omega), e1, e2, e3, e4]
    constructor
    · simp only [elimU]; norm_num
    · simp only [elimV]
  · rw [fn_set_ne (by omega), fn_set_ne (by omega)]
    exact hI.val m (by omega)

/-- The state of the back substitution before turn `k`. -/
structure BackInv (x_in y_in : List ℝ) (k : ℕ) (z : List ℝ) : Prop where
  len : z.length = x_in.length
  zero : fn z 0 = 0
  val : ∀ i, 0 < i → x_in.length - 1 - k ≤ i → i < x_in.length →
    fn z i = curv (fn x_in) (fn y_in) x_in.length i

theorem stepZ_sat (hs : x_in.Pairwise (· < ·)) {h u v : List ℝ}
    (hh : h = (List.range (x_in.length - 1)).map (gapF (fn x_in)))
    (hUV : ElimInv x_in y_in (x_in.length - 1) (u, v)) {k : ℕ} (hk : k < x_in.length - 2) {z : List ℝ}
    (hI : BackInv x_in y_in k z) : (stepZ x_in.length h u v k z).Sat (BackInv x_in y_in (k + 1)) := by
  have hX : ∀ i, i + 1 < x_in.length → 0 < gapF (fn x_in) i := fun i h => gap_pos hs h
  have hlh : h.length = x_in.length - 1 := by simp [hh]
  have hlu : u.length = x_in.length := hUV.lu
  have hlv : v.length = x_in.length := hUV.lv
  obtain ⟨m, hm⟩ : ∃ m, x_in.length - 2 - k = m + 1 := ⟨x_in.length - 3 - k, by omega⟩
  have hv := hUV.val m (by omega)
  simp only at hv
  have hu := elimU_pos hX (k := m) (by omega)
  have e1 : fn h (m + 1) = gapF (fn x_in) (m + 1) := by rw [hh, fn_map_range (by omega)]
  have e2 : fn z (m + 1 + 1) = curv (fn x_in) (fn y_in) x_in.length (m + 2) :=
    hI.val (m + 2) (by omega) (by omega) (by omega)
  have hrow := curv_row (Y := fn y_in) hX (k := m) (by omega)
  unfold stepZ
  simp only [Res.monad_bind_eq, hm]
  rw [rd_fn (show m + 1 < v.length by omega), Res.bind_ok, rd_fn (show m + 1 < h.length by omega), Res.bind_ok,
    rd_fn (show m + 1 + 1 < z.length by rw [hI.len]; omega), Res.bind_ok, rd_fn (show m + 1 < u.length by omega),
    Res.bind_ok, hv.1, hv.2, RegSurf.divD_ok hu.ne', Res.bind_ok, wr_ok (by rw [hI.len]; omega), Res.sat_ok]
  refine ⟨by simp [hI.len], ?_, ?_⟩
  · rw [fn_set_ne (by omega)]; exact hI.zero
  · intro i hi0 hi1 hi2
    by_cases him : i = m + 1
    · subst him
      rw [fn_set_self (by rw [hI.len]; omega), e1, e2, div_eq_iff hu.ne', ← hrow]
      ring
    · rw [fn_set_ne (by omega)]
      exact hI.val i hi0 (by omega) hi2

/-- The coefficients computed. -/
theorem spline1D_eq (hl : x_in.length = y_in.length) (h3 : 3 ≤ x_in.length) (hs : x_in.Pairwise (· < ·)) (x_out : List ℝ)
    (extrap : Option ℝ) :
    spline1D x_in y_in x_out extrap = fillVec x_out.length fun i => (rd x_out i).bind fun x =>
      splineAt x_in y_in ((List.range (x_in.length - 1)).map (cA (fn x_in) (fn y_in) x_in.length))
        ((List.range (x_in.length - 1)).map (cB (fn x_in) (fn y_in) x_in.length))
        ((List.range (x_in.length - 1)).map (cC (fn x_in) (fn y_in) x_in.length)) extrap x := by
  have hX : ∀ i, i + 1 < x_in.length → 0 < gapF (fn x_in) i := fun i h => gap_pos hs h
  unfold spline1D
  simp only [Res.monad_bind_eq]
  rw [if_neg (by simpa using hl), if_neg (by omega)]
  rw [fillVec_ok (f := stepH x_in) (g := gapF (fn x_in)), Res.bind_ok]
  swap
  · intro i hi
    unfold stepH
    simp only [Res.monad_bind_eq]
    rw [rd_fn (by omega), Res.bind_ok, rd_fn (by omega), Res.bind_ok, gapF]
  generalize hh : (List.range (x_in.length - 1)).map (gapF (fn x_in)) = h
  have hlh : h.length = x_in.length - 1 := by simp [← hh]
  have hfn : ∀ i, i < x_in.length - 1 → fn h i = gapF (fn x_in) i := by
    intro i hi; rw [← hh, fn_map_range hi]
  rw [fillVec_ok (f := stepB y_in h) (g := jumpF (fn x_in) (fn y_in)), Res.bind_ok]
  swap
  · intro i hi
    unfold stepB
    simp only [Res.monad_bind_eq]
    rw [rd_fn (by omega), Res.bind_ok, rd_fn (by omega), Res.bind_ok, rd_fn (by omega), Res.bind_ok, hfn i hi,
      RegSurf.divD_ok (hX i (by omega)).ne', jumpF]
    norm_num
  generalize hb : (List.range (x_in.length - 1)).map (jumpF (fn x_in) (fn y_in)) = b
  have hlb : b.length = x_in.length - 1 := by simp [← hb]
  rw [rd_fn (show 0 < h.length by omega), Res.bind_ok, rd_fn (show 1 < h.length by omega), Res.bind_ok,
    wr_ok (by simp; omega), Res.bind_ok, rd_fn (show 1 < b.length by omega), Res.bind_ok,
    rd_fn (show 0 < b.length by omega), Res.bind_ok, wr_ok (by simp; omega), Res.bind_ok]
  have hfb : ∀ i, i < x_in.length - 1 → fn b i = jumpF (fn x_in) (fn y_in) i := by
    intro i hi; rw [← hb, fn_map_range hi]
  obtain ⟨⟨u, v⟩, huv, hUV⟩ := forRange_sat (lo := 2) (hi := x_in.length - 1) (body := stepUV h b)
    (s := ((List.replicate x_in.length 0).set 1 (2.0 * (fn h 0 + fn h 1)),
      (List.replicate x_in.length 0).set 1 (fn b 1 - fn b 0)))
    (ElimInv x_in y_in) (by omega) (by
      refine ⟨by simp, by simp, ?_⟩
      intro k hk
      obtain rfl : k = 0 := by omega
      simp only [Nat.zero_add]
      rw [fn_set_self (by simp; omega), fn_set_self (by simp; omega), hfn 0 (by omega), hfn 1 (by omega),
        hfb 0 (by omega), hfb 1 (by omega)]
      simp only [elimU, elimV]
      norm_num)
    (fun i st h1 h2 hI => stepUV_sat hs hh.symm hb.symm h1 h2 hI)
  rw [huv, Res.bind_ok, wr_ok (by simp; omega), Res.bind_ok]
  obtain ⟨z, hz, hZ⟩ := forRange_sat (lo := 0) (hi := x_in.length - 2) (body := stepZ x_in.length h u v)
    (s := (List.replicate x_in.length (0 : ℝ)).set (x_in.length - 1) 0.0)
    (BackInv x_in y_in) (by omega) (by
      refine ⟨by simp, ?_, ?_⟩
      · rw [fn_set_ne (by omega)]; simp [fn, List.getD_eq_getElem?_getD, show 0 < x_in.length by omega]
      · intro i h0 h1 h2
        obtain rfl : i = x_in.length - 1 := by omega
        rw [fn_set_self (by simp; omega), curv_last (by omega)]
        norm_num)
    (fun k z _ hk hI => stepZ_sat hs hh.symm hUV hk hI)
  rw [hz, Res.bind_ok, wr_ok (by rw [hZ.len]; omega), Res.bind_ok]
  have hzf : ∀ i, i < x_in.length → fn (z.set 0 0.0) i = curv (fn x_in) (fn y_in) x_in.length i := by
    intro i hi
    rcases Nat.eq_zero_or_pos i with rfl | h
    · rw [fn_set_self (by rw [hZ.len]; omega), curv_zero]; norm_num
    · rw [fn_set_ne (by omega)]; exact hZ.val i h (by omega) hi
  have hlz : (z.set 0 0.0).length = x_in.length := by simp [hZ.len]
  generalize z.set 0 0.0 = z' at hzf hlz
  rw [fillVec_ok (f := coefA h z') (g := cA (fn x_in) (fn y_in) x_in.length), Res.bind_ok]
  swap
  · intro i hi
    unfold coefA
    simp only [Res.monad_bind_eq]
    rw [rd_fn (by omega), Res.bind_ok, hfn i hi, RegSurf.divD_ok (by have := hX i (by omega); positivity), Res.bind_ok,
      rd_fn (by omega), Res.bind_ok, rd_fn (by omega), Res.bind_ok, hzf _ (by omega), hzf _ (by omega), cA]
    norm_num
  rw [fillVec_ok (f := coefB z') (g := cB (fn x_in) (fn y_in) x_in.length), Res.bind_ok]
  swap
  · intro i hi
    unfold coefB
    simp only [Res.monad_bind_eq]
    rw [rd_fn (by omega), Res.bind_ok, hzf _ (by omega), cB]
    norm_num
  rw [fillVec_ok (f := coefC y_in h z') (g := cC (fn x_in) (fn y_in) x_in.length), Res.bind_ok]
  intro i hi
  unfold coefC
  simp only [Res.monad_bind_eq]
  rw [rd_fn (by omega), Res.bind_ok, rd_fn (by omega), Res.bind_ok, rd_fn (by omega), Res.bind_ok, hfn i hi,
    RegSurf.divD_ok (hX i (by omega)).ne', Res.bind_ok,
    rd_fn (by omega), Res.bind_ok, rd_fn (by omega), Res.bind_ok, hzf _ (by omega), hzf _ (by omega), cC]
  norm_num

/-- The value computed at one place. -/
noncomputable def splineVal (x_in y_in : List ℝ) (extrap : Option ℝ) (x : ℝ) : ℝ :=
  match extrap with
  | some e => if (findNearest x x_in = none ∧ x < fn x_in 0) ∨
      ((findNearest x x_in).getD 0 = x_in.length - 1 ∧ x > fn x_in (x_in.length - 1)) then e
    else piece (fn x_in) (fn y_in) x_in.length (min ((findNearest x x_in).getD 0) (x_in.length - 2)) x
  | none => piece (fn x_in) (fn y_in) x_in.length (min ((findNearest x x_in).getD 0) (x_in.length - 2)) x

theorem splineAt_eq (hl : x_in.length = y_in.length) (h3 : 3 ≤ x_in.length) (extrap : Option ℝ) (x : ℝ)
    (hj : (findNearest x x_in).getD 0 < x_in.length) :
    splineAt x_in y_in ((List.range (x_in.length - 1)).map (cA (fn x_in) (fn y_in) x_in.length))
        ((List.range (x_in.length - 1)).map (cB (fn x_in) (fn y_in) x_in.length))
        ((List.range (x_in.length - 1)).map (cC (fn x_in) (fn y_in) x_in.length)) extrap x
      = .ok (splineVal x_in y_in extrap x) := by
  have hidx : (if (findNearest x x_in).getD 0 = x_in.length - 1 then x_in.length - 2 else (findNearest x x_in).getD 0)
      = min ((findNearest x x_in).getD 0) (x_in.length - 2) := by
    split <;> omega
  unfold splineAt
  simp only [Res.monad_bind_eq]
  rw [rd_fn (show 0 < x_in.length by omega), Res.bind_ok, rd_fn (show x_in.length - 1 < x_in.length by omega),
    Res.bind_ok, hidx]
  generalize hp : min ((findNearest x x_in).getD 0) (x_in.length - 2) = p
  have hp1 : p < x_in.length - 1 := by omega
  rw [rd_fn (show p < y_in.length by omega), Res.bind_ok, rd_fn (show p < x_in.length by omega), Res.bind_ok,
    rd_fn (by simpa using hp1), Res.bind_ok, rd_fn (by simpa using hp1), Res.bind_ok, rd_fn (by simpa using hp1),
    Res.bind_ok, fn_map_range hp1, fn_map_range hp1, fn_map_range hp1]
  cases extrap with
  | none => simp only [splineVal, piece, hp]
  | some e =>
    simp only [splineVal, piece, hp]
    split <;> rfl

end code

end Verif.Interp
