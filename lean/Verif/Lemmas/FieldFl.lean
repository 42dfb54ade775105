import Verif.Model.FieldFl
import Verif.Lemmas.FieldErr2
import Verif.Lemmas.FftNear
import Verif.Lemmas.Field
import Verif.Lemmas.DistrFl

/-! Helper lemmas: the loops of the simulation in double arithmetic. -/

namespace Verif

open Finset ComplexConjugate Fl

/-! ### Loops -/

attribute [local irreducible] rnd64

theorem mulFl_zero (x : ℝ) : x *ᶠ 0 = 0 := by unfold Fl.mul; rw [mul_zero, rnd64_zero]

theorem zero_mulFl (x : ℝ) : 0 *ᶠ x = 0 := by unfold Fl.mul; rw [zero_mul, rnd64_zero]

theorem getD_of_map {α : Type} {a b : List α} {f : ℕ → α → α} {m : ℕ} (d : α)
    (h : ∀ i : ℕ, b[i]? = if i < m then (a[i]?).map (f i) else a[i]?) {i : ℕ} (hi : i < m) (hm : m ≤ a.length) :
    b.getD i d = f i (a.getD i d) := by
  rw [List.getD_eq_getElem?_getD, h i, if_pos hi, List.getD_eq_getElem?_getD, List.getElem?_eq_getElem (by omega)]
  rfl

theorem scaleLoopFl_sat (s : ℝ) (a : List ℝ) :
    (scaleLoopFl a.length s a).Sat fun b => b.length = a.length ∧ ∀ i : ℕ, b.getD i 0 = a.getD i 0 *ᶠ s := by
  refine (forRange_map_sat (fun _ x => x *ᶠ s) a.length a le_rfl).mono ?_
  rintro b ⟨h1, h2⟩
  refine ⟨h1, fun i => ?_⟩
  by_cases hi : i < a.length
  · exact getD_of_map 0 h2 hi le_rfl
  · rw [List.getD_eq_default _ _ (by omega), List.getD_eq_default _ _ (by omega), zero_mulFl]

theorem mulLoopFl_sat (a h : List ℂ) (hl : h.length = a.length) :
    (mulLoopFl a.length a h).Sat fun b => b.length = a.length ∧
      ∀ i < a.length, b.getD i 0 = cmulFl (a.getD i 0) (h.getD i 0) := by
  have e : mulLoopFl a.length a h = forRange 0 a.length (fun i a => (rd a i).bind fun x =>
      wr a i ((fun i x => cmulFl x (h.getD i 0)) i x)) a := by
    refine forRange_congr fun i s _ hi => ?_
    rw [rd_bind_wr_congr (f := fun x y => cmulFl x y) (y := h.getD i 0)]
    rw [List.getD_eq_getElem?_getD, List.getElem?_eq_getElem (by omega)]
    rfl
  rw [e]
  refine (forRange_map_sat (fun i x => cmulFl x (h.getD i 0)) a.length a le_rfl).mono ?_
  rintro b ⟨h1, h2⟩
  exact ⟨h1, fun i hi => getD_of_map 0 h2 hi le_rfl⟩

theorem clipSqrtLoopFl_sat (a : List ℂ) :
    (clipSqrtLoopFl a.length a).Sat fun b => b.length = a.length ∧
      ∀ i < a.length, b.getD i 0 = (rnd64 √(max (a.getD i 0).re 0) : ℂ) := by
  have e : clipSqrtLoopFl a.length a = forRange 0 a.length (fun i a => (rd a i).bind fun x =>
      wr a i ((fun _ x => ((rnd64 √(max x.re 0) : ℝ) : ℂ)) i x)) a := by
    refine forRange_congr fun i s _ hi => ?_
    congr 1
    funext x
    congr 1
    apply Complex.ext
    · simp only [Complex.ofReal_re]
      rw [show (0.0 : ℝ) = 0 by norm_num]
    · simp only [Complex.ofReal_im]
      norm_num
  rw [e]
  refine (forRange_map_sat (fun _ (x : ℂ) => ((rnd64 √(max x.re 0) : ℝ) : ℂ)) a.length a le_rfl).mono ?_
  rintro b ⟨h1, h2⟩
  exact ⟨h1, fun i hi => getD_of_map 0 h2 hi le_rfl⟩

/-! ### Elementary errors -/

attribute [local irreducible] Fl.u tau

theorem rnd_rel {x : ℝ} (hx : 2⁻¹ ^ 100 ≤ |x|) : |rnd64 x - x| ≤ 0.51 * u * |x| := by
  refine (rnd64_abs_err x).trans ?_
  have h1 : (2⁻¹ : ℝ) ^ 1075 ≤ 2⁻¹ ^ 75 * |x| := by
    have e : (2⁻¹ : ℝ) ^ 1075 ≤ 2⁻¹ ^ 175 := pow_le_pow_of_le_one (by norm_num) (by norm_num) (by norm_num)
    have e2 : (2⁻¹ : ℝ) ^ 175 = 2⁻¹ ^ 75 * 2⁻¹ ^ 100 := by rw [← pow_add]
    rw [e2] at e
    exact e.trans (mul_le_mul_of_nonneg_left hx (by positivity))
  have h2 : (2⁻¹ : ℝ) ^ 75 + 2⁻¹ ^ 53 ≤ 0.51 * u := by unfold Fl.u; norm_num
  have h3 := mul_le_mul_of_nonneg_right h2 (abs_nonneg x)
  generalize (2⁻¹ : ℝ) ^ 1075 = t at *
  generalize (2⁻¹ : ℝ) ^ 75 = t' at *
  generalize (2⁻¹ : ℝ) ^ 53 = t'' at *
  linarith

theorem u_le_small : u ≤ 1e-6 := by unfold Fl.u; norm_num

theorem scale_core {v n R N' S T q : ℝ} (u0 : 0 < v) (us : v ≤ 1e-6) (R1 : 1 ≤ R) (hRR : R * R = n)
    (a1 : |N' - n| ≤ 0.51 * v * n) (hS : S = √N') (c1 : |T - S| ≤ 0.51 * v * S)
    (f1 : |q - 1 / T| ≤ 0.51 * v * (1 / T)) : |q - 1 / R| ≤ 3 * v * (1 / R) := by
  obtain ⟨a2, a3⟩ := abs_le.1 a1
  have n1 : 1 ≤ n := by nlinarith
  have b1 : S ≤ (1 + 0.51 * v) * R := by
    rw [hS, Real.sqrt_le_iff]
    refine ⟨by positivity, ?_⟩
    have : ((1 + 0.51 * v) * R) ^ 2 = (1 + 0.51 * v) ^ 2 * (R * R) := by ring
    rw [this, hRR]
    nlinarith
  have b2 : (1 - 0.51 * v) * R ≤ S := by
    rw [hS]
    apply Real.le_sqrt_of_sq_le
    have : ((1 - 0.51 * v) * R) ^ 2 = (1 - 0.51 * v) ^ 2 * (R * R) := by ring
    rw [this, hRR]
    nlinarith
  have S0 : 0.9 ≤ S := by nlinarith
  obtain ⟨c2, c3⟩ := abs_le.1 c1
  have T1 : T ≤ (1 + 1.1 * v) * R := by nlinarith
  have T2 : (1 - 1.1 * v) * R ≤ T := by nlinarith
  have R0 : 0 < R := by linarith
  have T0 : 0 < T := by nlinarith
  have d1 : 1 / T ≤ (1 + 1.2 * v) * (1 / R) := by
    rw [mul_one_div, div_le_div_iff₀ T0 R0]
    nlinarith
  have d2 : (1 - 1.2 * v) * (1 / R) ≤ 1 / T := by
    rw [mul_one_div, div_le_div_iff₀ R0 T0]
    nlinarith
  have iR0 : 0 < 1 / R := by positivity
  have f2 := abs_sub_le q (1 / T) (1 / R)
  have f3 : |1 / T - 1 / R| ≤ 1.2 * v * (1 / R) := by
    rw [abs_le]
    constructor <;> linarith
  have f5 : 0 < v * (1 / R) := by positivity
  have f4 : 0.51 * v * (1 / T) ≤ 0.6 * v * (1 / R) := by
    have : 1 / T ≤ 1.01 * (1 / R) := by nlinarith
    have := mul_le_mul_of_nonneg_left this u0.le
    linarith
  linarith

theorem scale_core_lb {v R N' n S T : ℝ} (u0 : 0 < v) (us : v ≤ 1e-6) (R1 : 1 ≤ R) (hRR : R * R = n)
    (R2 : R ≤ 2 ^ 50) (a1 : |N' - n| ≤ 0.51 * v * n) (hS : S = √N') :
    0.9 ≤ S ∧ (|T - S| ≤ 0.51 * v * S → 0 < 1 / T ∧ 2⁻¹ ^ 100 ≤ 1 / T) := by
  obtain ⟨a2, a3⟩ := abs_le.1 a1
  have n1 : 1 ≤ n := by nlinarith
  have b1 : S ≤ (1 + 0.51 * v) * R := by
    rw [hS, Real.sqrt_le_iff]
    refine ⟨by positivity, ?_⟩
    have : ((1 + 0.51 * v) * R) ^ 2 = (1 + 0.51 * v) ^ 2 * (R * R) := by ring
    rw [this, hRR]
    nlinarith
  have b2 : (1 - 0.51 * v) * R ≤ S := by
    rw [hS]
    apply Real.le_sqrt_of_sq_le
    have : ((1 - 0.51 * v) * R) ^ 2 = (1 - 0.51 * v) ^ 2 * (R * R) := by ring
    rw [this, hRR]
    nlinarith
  have S0 : 0.9 ≤ S := by nlinarith
  refine ⟨S0, fun c1 => ?_⟩
  obtain ⟨c2, c3⟩ := abs_le.1 c1
  have T0 : 0 < T := by nlinarith
  have T1 : T ≤ 2 ^ 51 := by norm_num at R2 ⊢; nlinarith
  refine ⟨by positivity, ?_⟩
  rw [le_div_iff₀ T0]
  norm_num at T1 ⊢
  linarith

theorem rnd_rel' {x : ℝ} (hx : 2⁻¹ ^ 100 ≤ x) : |rnd64 x - x| ≤ 0.51 * u * x := by
  have x0 : 0 ≤ x := le_trans (by positivity) hx
  have := rnd_rel (x := x) (by rwa [abs_of_nonneg x0])
  rwa [abs_of_nonneg x0] at this

theorem scaleFl_eq (n : ℕ) : scaleFl n = rnd64 (1 / rnd64 √(rnd64 n)) := by
  have e : (1.0 : ℝ) = 1 := by norm_num
  unfold scaleFl Fl.div Fl.mul
  rw [e, one_mul]

theorem scaleFl_err {n : ℕ} (hn : 0 < n) (hn' : (n : ℝ) ≤ 2 ^ 100) :
    |scaleFl n - 1 / √(n : ℝ)| ≤ 3 * u * (1 / √(n : ℝ)) := by
  rw [scaleFl_eq]
  have n1 : (1 : ℝ) ≤ n := by exact_mod_cast hn
  have q1 : (2⁻¹ : ℝ) ^ 100 ≤ 0.9 := by norm_num
  have q2 : (0.9 : ℝ) ≤ 1 := by norm_num
  have R1 : 1 ≤ √(n : ℝ) := Real.one_le_sqrt.2 n1
  have R2 : √(n : ℝ) ≤ 2 ^ 50 := by
    rw [Real.sqrt_le_iff]; exact ⟨by positivity, hn'.trans (by norm_num)⟩
  have hRR : √(n : ℝ) * √(n : ℝ) = n := Real.mul_self_sqrt (by linarith)
  have a1 : |rnd64 (n : ℝ) - n| ≤ 0.51 * u * n := rnd_rel' ((q1.trans q2).trans n1)
  obtain ⟨S0, hq⟩ := scale_core_lb (T := rnd64 √(rnd64 (n : ℝ))) u_pos u_le_small R1 hRR R2 a1 rfl
  have c1 := rnd_rel' (q1.trans S0)
  obtain ⟨-, T1⟩ := hq c1
  exact scale_core u_pos u_le_small R1 hRR a1 rfl c1 (rnd_rel' T1)

theorem cmulFl_real (x : ℂ) (f : ℝ) : cmulFl x (f : ℂ) = ⟨rnd64 (x.re * f), rnd64 (x.im * f)⟩ := by
  unfold cmulFl
  apply Complex.ext
  · simp only [Complex.ofReal_re, Complex.ofReal_im, mulFl_zero]
    unfold Fl.sub Fl.mul
    rw [sub_zero, rnd64_idem]
  · simp only [Complex.ofReal_re, Complex.ofReal_im, mulFl_zero]
    unfold Fl.add Fl.mul
    rw [zero_add, rnd64_idem]

theorem cmulFl_real' (x : ℂ) (f : ℝ) : cmulFl (f : ℂ) x = ⟨rnd64 (x.re * f), rnd64 (x.im * f)⟩ := by
  unfold cmulFl
  apply Complex.ext
  · simp only [Complex.ofReal_re, Complex.ofReal_im, zero_mulFl]
    unfold Fl.sub Fl.mul
    rw [sub_zero, rnd64_idem, mul_comm]
  · simp only [Complex.ofReal_re, Complex.ofReal_im, zero_mulFl]
    unfold Fl.add Fl.mul
    rw [add_zero, rnd64_idem, mul_comm]

theorem cmul_err (x : ℂ) (f : ℝ) :
    ‖(⟨rnd64 (x.re * f), rnd64 (x.im * f)⟩ : ℂ) - x * f‖ ≤ 2 * u * ‖x * f‖ + 6 * tau := by
  have u0 := u_pos
  have t0 := tau_pos
  have h := norm_le_of_parts (e := (⟨rnd64 (x.re * f), rnd64 (x.im * f)⟩ : ℂ) - x * f) (z := x * f) u0.le t0.le
    (by
      rw [Complex.sub_re, Complex.re_mul_ofReal]
      exact rnd_err _)
    (by
      rw [Complex.sub_im, Complex.im_mul_ofReal]
      exact rnd_err _)
  have := mul_nonneg u0.le (norm_nonneg (x * f))
  linarith

/-! ### One field on a flat layout -/

namespace Flat
variable {G : Type} [AddCommGroup G] {P : Pairing G} (L : Flat P)

theorem field_run {ε δ : ℝ} {r2c : List ℝ → List ℂ} {c2r : List ℂ → List ℝ × List ℂ} (T : L.Near ε r2c c2r)
    (hN : (P.N : ℝ) ≤ 2 ^ 100) {c c' : G → ℝ} {z' : G → ℂ} {f' : G → ℝ} (K : ErrFilter P L.half ε δ c c' z' f')
    (filter : List ℂ) (hl : filter.length = L.M) (hfil : ∀ k ∈ L.half, filter.getD (L.cpos k) 0 = (f' k : ℂ))
    (w : List ℝ) (hw : w.length = P.N) :
    ∃ a b X, scaleLoopFl P.N (scaleFl P.N) w = .ok a ∧ a.length = P.N ∧ mulLoopFl L.M (r2c a) filter = .ok b ∧
      b.length = L.M ∧ scaleLoopFl P.N (scaleFl P.N) (c2r b).1 = .ok X ∧ X.length = P.N ∧
      l2 P.box (fun x => ((X.getD (L.pos x) 0 : ℝ) : ℂ)
          - ((∑ y ∈ P.box, P.ker c (x - y) * w.getD (L.pos y) 0 : ℝ) : ℂ))
        ≤ errBound P L.half ε (fun k => f' k - P.amp c k) (fun x => w.getD (L.pos x) 0) := by
  have h1 := scaleLoopFl_sat (scaleFl P.N) w
  rw [hw] at h1
  obtain ⟨a, ea, la, va⟩ := h1
  have h2 := mulLoopFl_sat (r2c a) filter (by rw [hl, T.r2c_length a la])
  rw [T.r2c_length a la] at h2
  obtain ⟨b, eb, lb, vb⟩ := h2
  have h3 := scaleLoopFl_sat (scaleFl P.N) (c2r b).1
  rw [(T.c2r_length b lb).1] at h3
  obtain ⟨X, eX, lX, vX⟩ := h3
  refine ⟨a, b, X, ea, la, eb, lb, eX, lX, ?_⟩
  have R : ErrRun P L.half ε (P.amp c) (fun x => w.getD (L.pos x) 0) (scaleFl P.N) (fun x => a.getD (L.pos x) 0)
      (fun k => (r2c a).getD (L.cpos k) 0) f' (fun k => b.getD (L.cpos k) 0)
      (fun x => (c2r b).1.getD (L.pos x) 0) (fun x => X.getD (L.pos x) 0) := by
    refine ⟨L.half_sub, K.eps_u, K.eps_le, hN, fun k l h => P.amp_congr h, fun k => P.amp_neg c k, K.amp_le,
      scaleFl_err P.N_pos hN, ?_, ?_, fun k hk => K.f'_le hk, ?_, ?_, ?_⟩
    · intro x _
      rw [va]; exact rnd_err _
    · have := T.r2c_near a la
      unfold tau; exact this
    · intro k hk
      rw [vb _ (L.cpos_lt k hk), hfil k hk, cmulFl_real]
      exact cmul_err _ _
    · intro Z hper hherm
      have := T.c2r_near b Z lb hper hherm
      unfold tau; exact this
    · intro x _
      rw [vX]; exact rnd_err _
  have := R.field_err_bound
  refine le_trans (le_of_eq (l2_congr fun x _ => ?_)) this
  rw [P.idft_amp_mul c (fun x => w.getD (L.pos x) 0)]
  have n0 : (P.N : ℂ) ≠ 0 := by exact_mod_cast P.N_pos.ne'
  push_cast
  rw [mul_div_cancel_left₀ _ n0]

/-- The filter from covariances with errors. -/
theorem filter_run {ε δ : ℝ} {r2c : List ℝ → List ℂ} {c2r : List ℂ → List ℝ × List ℂ} (T : L.Near ε r2c c2r)
    (hu : u ≤ ε) (hε : ε ≤ 2⁻¹ ^ 20) (hδ : 0 ≤ δ) (hδ' : δ ≤ 2⁻¹) {c : G → ℝ} (hc : ∀ x ∈ P.box, |c x| ≤ 1)
    (d : List ℝ) (hd : d.length = P.N) (hd' : ∀ x ∈ P.box, |d.getD (L.pos x) 0 - c x| ≤ δ) :
    ∃ fl f', clipSqrtLoopFl L.M (r2c d) = .ok fl ∧ fl.length = L.M ∧
      (∀ k ∈ L.half, fl.getD (L.cpos k) 0 = ((f' k : ℝ) : ℂ)) ∧
      ErrFilter P L.half ε δ c (fun x => d.getD (L.pos x) 0) (fun k => (r2c d).getD (L.cpos k) 0) f' := by
  have h := clipSqrtLoopFl_sat (r2c d)
  rw [T.r2c_length d hd] at h
  obtain ⟨fl, e, l, v⟩ := h
  refine ⟨fl, fun k => rnd64 √(max ((r2c d).getD (L.cpos k) 0).re 0), e, l, fun k hk => v _ (L.cpos_lt k hk), ?_⟩
  refine ⟨L.half_sub, hu, hε, hδ, hδ', hc, hd', ?_, fun k _ => rfl⟩
  have := T.r2c_near d hd
  unfold tau; exact this

end Flat

end Verif
