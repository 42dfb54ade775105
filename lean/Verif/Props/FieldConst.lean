import Verif.Props.Field

/-! # C07: the constant variogram gives a constant field -/

namespace Verif

open Finset Spec Variogram

/-! ## Helper lemmas -/

namespace Pairing
variable {G : Type} [AddCommGroup G] (P : Pairing G)

theorem spec_const (κ : ℝ) {k : G} (hk : k ∈ P.box) [Decidable (k = 0)] :
    P.spec (fun _ => κ) k = if k = 0 then κ * P.N else 0 := by
  have h : P.spec (fun _ => κ) k = κ * (∑ x ∈ P.box, P.e k x).re := by
    rw [spec_eq, Complex.re_sum, Finset.mul_sum]
  rw [h, P.ortho]
  split_ifs with h1 h2 h2
  · simp
  · exact absurd (P.uniq k hk 0 P.zero_mem (by simpa using h1)) h2
  · exact absurd (h2 ▸ P.per_zero) h1
  · simp

theorem ker_const {κ : ℝ} (hκ : 0 ≤ κ) (d : G) : P.ker (fun _ => κ) d = √κ / √P.N := by
  classical
  rw [ker_sum, Finset.sum_eq_single (0 : G)]
  · rw [amp, spec_const _ _ P.zero_mem, if_pos rfl, P.zero_e, Complex.one_re, mul_one,
      max_eq_left (mul_nonneg hκ (Nat.cast_nonneg _)), Real.sqrt_mul hκ]
    have h : √(P.N : ℝ) ≠ 0 := (Real.sqrt_pos.2 P.N_posR).ne'
    rw [div_eq_div_iff P.N_posR.ne' h, mul_assoc, Real.mul_self_sqrt (Nat.cast_nonneg _)]
  · intro k hk hne
    rw [amp, spec_const _ _ hk, if_neg hne]
    simp
  · exact fun h => absurd P.zero_mem h

end Pairing

theorem weight1_const {n : ℕ} (hn : 0 < n) {κ : ℝ} (hκ : 0 ≤ κ) (d : ℤ) :
    weight1 n (fun _ => κ) d = √κ / √n := by
  rw [← ker1_eq hn]; exact (cyc n hn).ker_const hκ d

theorem weight2_const {n m : ℕ} (hn : 0 < n) (hm : 0 < m) {κ : ℝ} (hκ : 0 ≤ κ) (d e : ℤ) :
    weight2 n m (fun _ _ => κ) d e = √κ / √((n * m : ℕ) : ℝ) := by
  have := ker2_eq hn hm (fun _ _ => κ) (e, d)
  rw [← this, Nat.mul_comm]
  exact (box2 m n hm hn).ker_const hκ (e, d)

theorem weight3_const {n m q : ℕ} (hn : 0 < n) (hm : 0 < m) (hq : 0 < q) {κ : ℝ} (hκ : 0 ≤ κ)
    (d e f : ℤ) : weight3 n m q (fun _ _ _ => κ) d e f = √κ / √((n * m * q : ℕ) : ℝ) := by
  have := ker3_eq hn hm hq (fun _ _ _ => κ) (f, e, d)
  have hN : (n * m * q : ℕ) = (box3 q m n hq hm hn).N := by
    rw [show (box3 q m n hq hm hn).N = q * (m * n) from rfl]; ring
  rw [← this, hN]
  exact (box3 q m n hq hm hn).ker_const hκ (f, e, d)

theorem sum_range_mul (n m : ℕ) (f : ℕ → ℝ) :
    ∑ a ∈ range n, ∑ b ∈ range m, f (a * m + b) = ∑ a ∈ range (n * m), f a := by
  induction n with
  | zero => simp
  | succ n ih =>
    rw [Finset.sum_range_succ, ih, Nat.succ_mul, Finset.sum_range_add]

section
variable {pw rx ry rz az dp sd : ℝ} {v : Variogram}
  (hv : Variogram.create .constant pw rx ry rz az dp sd = .ok v)
include hv

theorem cov_const (x y z : ℝ) : v.cov3 x y z = sd ^ 2 ∧ v.cov2 x y = sd ^ 2 ∧ v.cov1 x = sd ^ 2 := by
  have h3 := fun x y z => (corr_beyond_range hv (by simp) x y z).2.1 rfl
  obtain ⟨-, -, -, -, -, -, -, hvar⟩ := create_fields hv
  simp only [cov3, cov2, cov1, hvar, corr_arity, (corr_arity v _ 0).2.2, h3]
  refine ⟨by ring, by ring, by ring⟩

theorem gridCov_const (r : ℝ × ℝ × ℝ) (tx ty tz : ℕ) (dx dy dz : ℝ) {sx sy sz : ℝ}
    (hsx : 0.99999 ≤ sx) (hsy : 0.99999 ≤ sy) (hsz : 0.99999 ≤ sz) :
    gridCov1 v r tx dx sx = (fun _ => sd ^ 2) ∧
    gridCov2 v r tx dx ty dy sx sy = (fun _ _ => sd ^ 2) ∧
    gridCov3 v r tx dx ty dy tz dz sx sy sz = (fun _ _ _ => sd ^ 2) := by
  refine ⟨?_, ?_, ?_⟩
  · funext a; simp only [gridCov1, (cov_const hv _ 0 0).2.2, kernel_off hsx, mul_one]
  · funext a b
    simp only [gridCov2, (cov_const hv _ _ 0).2.1, kernel_off hsx, kernel_off hsy, mul_one]
  · funext a b c
    simp only [gridCov3, (cov_const hv _ _ _).1, kernel_off hsx, kernel_off hsy, kernel_off hsz,
      mul_one]

variable {F : Fftw} (hF : F.Laws) {p : Platform}
include hF

/-- **C07, one dimension.** Every cell is the sum of the draws divided by the square root of their
number (times the standard deviation of the variogram, 1 in the programming interface). -/
theorem simulate1D_constant {nx : ℕ} {dx sx : ℝ} {padx : ℤ}
    (hx : DirOk p v nx v.rangeX dx padx sx) (hs : 0.99999 ≤ sx) :
    ∃ tx, IsTotal v nx v.rangeX dx padx false tx ∧
      ∀ {σ γ : Type} (newRg : γ → Res (σ × γ)) (norm01 : σ → Res (ℝ × σ)) (rg : Option σ)
        (glob glob' : γ) (s s' : σ) (w : List ℝ), UsesGenerator newRg rg glob s glob' →
        draws norm01 tx s = .ok (w, s') →
        simulate1D F p newRg norm01 v nx dx nx rg padx sx glob
          = .ok (List.replicate nx (|sd| * (∑ a ∈ range tx, w.getD a 0) / √tx), s', glob') := by
  obtain ⟨tx, r, h1, h2, h3, h4⟩ := simulate1D_value hv hx
  refine ⟨tx, h1, fun newRg norm01 rg glob glob' s s' w hrg hw => ?_⟩
  obtain ⟨out, e, hl, ho⟩ := h4 hF newRg norm01 rg glob glob' s s' w hrg hw
  rw [e]
  have : out = List.replicate nx (|sd| * (∑ a ∈ range tx, w.getD a 0) / √tx) := by
    refine list_eq_of_get (f := fun _ => |sd| * (∑ a ∈ range tx, w.getD a 0) / √tx) hl (by simp)
      (fun i hi => ?_) (fun i hi => by simp [hi])
    rw [ho i hi]
    congr 1
    unfold field1
    have hn : 0 < tx := by have := hx.size; omega
    rw [(gridCov_const hv r tx 0 0 dx 0 0 hs hs hs).1]
    simp only [weight1_const hn (sq_nonneg sd), Real.sqrt_sq_eq_abs]
    rw [← Finset.mul_sum]
    ring
  rw [this]

/-- **C07, two dimensions.** -/
theorem simulate2D_constant {nx ny : ℕ} {dx dy sx sy : ℝ} {padx pady : ℤ} (hny : 1 < ny)
    (hx : DirOk p v nx (max v.rangeX v.rangeY) dx padx sx)
    (hy : DirOk p v ny (padRangeY v) dy pady sy) (hsx : 0.99999 ≤ sx) (hsy : 0.99999 ≤ sy) :
    ∃ tx ty, IsTotal v nx (max v.rangeX v.rangeY) dx padx true tx ∧
      IsTotal v ny (padRangeY v) dy pady false ty ∧
      ∀ {σ γ : Type} (newRg : γ → Res (σ × γ)) (norm01 : σ → Res (ℝ × σ)) (rg : Option σ)
        (glob glob' : γ) (s s' : σ) (K : ℕ) (w : List ℝ) (grid_out : List (Grid2D ℝ)),
        UsesGenerator newRg rg glob s glob' →
        draws norm01 (K * (tx * ty)) s = .ok (w, s') →
        ∃ gs, simulate2D F p newRg norm01 v nx dx ny dy K grid_out rg padx pady sx sy glob
            = .ok (grid_out ++ gs, s', glob') ∧ gs.length = K ∧
          ∀ k < K, ∃ g, gs[k]? = some g ∧ g.data.length = nx * ny ∧
            ∀ i j, i < nx → j < ny → g.data[i + nx * j]? =
              some (|sd| * (∑ a ∈ range (tx * ty), w.getD (k * (tx * ty) + a) 0)
                / √((tx * ty : ℕ) : ℝ)) := by
  obtain ⟨tx, ty, r, h1, h2, h3, h3', h3'', h4⟩ := simulate2D_value hv hny hx hy
  refine ⟨tx, ty, h1, h2, fun newRg norm01 rg glob glob' s s' K w grid_out hrg hw => ?_⟩
  obtain ⟨gs, e, hl, ho⟩ := h4 hF newRg norm01 rg glob glob' s s' K w grid_out hrg hw
  refine ⟨gs, e, hl, fun k hk => ?_⟩
  obtain ⟨g, g1, -, -, g2, g3⟩ := ho k hk
  refine ⟨g, g1, g2, fun i j hi hj => ?_⟩
  rw [g3 i j hi hj]
  congr 1
  unfold field2
  have hn : 0 < tx := by have := hx.size; omega
  have hm : 0 < ty := by have := hy.size; omega
  rw [(gridCov_const hv r tx ty 0 dx dy 0 hsx hsy hsy).2.1]
  simp only [weight2_const hn hm (sq_nonneg sd), Real.sqrt_sq_eq_abs, ← Finset.mul_sum]
  rw [sum_range_mul tx ty fun a => w.getD (k * (tx * ty) + a) 0]
  ring

/-- **C07, three dimensions.** -/
theorem simulate3D_constant {nx ny nz : ℕ} {dx dy dz sx sy sz : ℝ} {padx pady padz : ℤ}
    (hny : 1 < ny) (hnz : 1 < nz) (hx : DirOk p v nx (max v.rangeX v.rangeY) dx padx sx)
    (hy : DirOk p v ny (padRangeY v) dy pady sy) (hz : DirOk p v nz v.rangeZ dz padz sz)
    (hsx : 0.99999 ≤ sx) (hsy : 0.99999 ≤ sy) (hsz : 0.99999 ≤ sz) :
    ∃ tx ty tz, IsTotal v nx (max v.rangeX v.rangeY) dx padx true tx ∧
      IsTotal v ny (padRangeY v) dy pady false ty ∧ IsTotal v nz v.rangeZ dz padz false tz ∧
      ∀ {γ : Type} (norm01 : γ → Res (ℝ × γ)) (s s' : γ) (K : ℕ) (w : List ℝ)
        (grid_out : List (Grid3D ℝ)),
        draws norm01 (K * (tx * ty * tz)) s = .ok (w, s') →
        ∃ gs, simulate3D F p norm01 v nx dx ny dy nz dz K grid_out padx pady padz sx sy sz s
            = .ok (grid_out ++ gs, s') ∧ gs.length = K ∧
          ∀ k < K, ∃ g, gs[k]? = some g ∧ g.data.length = nx * ny * nz ∧
            ∀ i j l, i < nx → j < ny → l < nz → g.data[i + nx * (j + ny * l)]? =
              some (|sd| * (∑ a ∈ range (tx * ty * tz), w.getD (k * (tx * ty * tz) + a) 0)
                / √((tx * ty * tz : ℕ) : ℝ)) := by
  obtain ⟨tx, ty, tz, r, h1, h2, h2', h3, h3', h3'', h5, h4⟩ :=
    simulate3D_value hv hny hnz hx hy hz
  refine ⟨tx, ty, tz, h1, h2, h2', fun norm01 s s' K w grid_out hw => ?_⟩
  obtain ⟨gs, e, hl, ho⟩ := h4 hF norm01 s s' K w grid_out hw
  refine ⟨gs, e, hl, fun k hk => ?_⟩
  obtain ⟨g, g1, -, -, -, g2, g3⟩ := ho k hk
  refine ⟨g, g1, g2, fun i j l hi hj hl => ?_⟩
  rw [g3 i j l hi hj hl]
  congr 1
  unfold field3
  have hn : 0 < tx := by have := hx.size; omega
  have hm : 0 < ty := by have := hy.size; omega
  have hq : 0 < tz := by have := hz.size; omega
  rw [(gridCov_const hv r tx ty tz dx dy dz hsx hsy hsz).2.2]
  simp only [weight3_const hn hm hq (sq_nonneg sd), Real.sqrt_sq_eq_abs, ← Finset.mul_sum]
  rw [← sum_range_mul (tx * ty) tz fun a => w.getD (k * (tx * ty * tz) + a) 0,
    ← sum_range_mul tx ty fun a => ∑ b ∈ range tz, w.getD (k * (tx * ty * tz) + (a * tz + b)) 0]
  ring

end

end Verif
