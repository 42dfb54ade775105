import Verif.Lemmas.RootPhi
import Verif.Lemmas.Loop
import Mathlib.Analysis.Real.Pi.Bounds

/-! Helper lemmas: the functions of `Normal`, and what `PhiInverse` returns. -/

namespace Verif.NormalD

open Set Real Verif.Phi Verif.RootPhi

variable {d : NormalD} {x y : ℝ}

theorem cdf_ok (hs : 0 < d.stdDev) (x : ℝ) : d.cdf x = .ok (Phi ((x - d.mean) / d.stdDev)) := by
  unfold cdf
  rw [Res.monad_bind_eq, fdiv, if_neg hs.ne', Res.bind_ok, ← erfc_Phi]
  norm_num

theorem cdf01_ok (x : ℝ) : (NormalD.mk 0 1).cdf x = .ok (Phi x) := by
  rw [cdf_ok (by norm_num)]
  norm_num

theorem pdf_ok (hs : 0 < d.stdDev) (x : ℝ) : d.pdf x = .ok (phi ((x - d.mean) / d.stdDev) / d.stdDev) := by
  have h1 : (2.0 * (d.stdDev * d.stdDev) : ℝ) ≠ 0 := by positivity
  have h2 : ¬ (2.0 * π * (d.stdDev * d.stdDev) : ℝ) < 0 := by
    have : (0 : ℝ) < 2.0 * π * (d.stdDev * d.stdDev) := by positivity
    linarith
  have h3 : √(2.0 * π * (d.stdDev * d.stdDev)) = √(2 * π) * d.stdDev := by
    rw [Real.sqrt_mul (by positivity), Real.sqrt_mul_self hs.le]
    norm_num
  have h4 : √(2 * π) * d.stdDev ≠ 0 := by positivity
  unfold pdf
  simp only [Res.monad_bind_eq, fdiv, fsqrt, if_neg h1, if_neg h2, Res.bind_ok, h3, if_neg h4]
  unfold phi
  congr 1
  have e : -(x - d.mean) * (x - d.mean) / (2.0 * (d.stdDev * d.stdDev)) = -((x - d.mean) / d.stdDev) ^ 2 / 2 := by
    rw [show (2.0 : ℝ) = 2 by norm_num]
    field_simp
  rw [e]
  field_simp

theorem pdf01_ok (x : ℝ) : (NormalD.mk 0 1).pdf x = .ok (phi x) := by
  rw [pdf_ok (by norm_num)]
  norm_num

theorem isEqual_iff {a b : ℝ} (h0 : 0 < a) (h1 : a < 1) : IsEqual a b ↔ |a - b| ≤ 1e-6 := by
  unfold IsEqual
  rw [if_pos (by rw [abs_of_pos h0]; norm_num; exact h1)]
  norm_num

/-! ## The shape of the function -/

theorem phi_lt {a b : ℝ} (h : b ^ 2 < a ^ 2) : phi a < phi b := by
  unfold phi
  have : (0 : ℝ) < (√(2 * π))⁻¹ := by positivity
  have : exp (-a ^ 2 / 2) < exp (-b ^ 2 / 2) := Real.exp_lt_exp.2 (by linarith)
  nlinarith

theorem phi_ratio {a b : ℝ} (ha : |a| ≤ 10) (hb : |b| ≤ 10) (h : |a - b| ≤ 1 / 100) : phi a ≤ 9 / 8 * phi b := by
  have h1 : (b ^ 2 - a ^ 2) / 2 ≤ 1 / 10 := by
    have e : (b ^ 2 - a ^ 2) / 2 = (b - a) * (b + a) / 2 := by ring
    have e2 : |(b - a) * (b + a)| ≤ 1 / 100 * 20 := by
      rw [abs_mul]
      refine mul_le_mul ?_ ?_ (abs_nonneg _) (by norm_num)
      · rw [abs_sub_comm]; exact h
      · exact (abs_add_le _ _).trans (by linarith)
    rw [e]
    have := le_abs_self ((b - a) * (b + a))
    linarith
  have h2 : exp (-a ^ 2 / 2) = exp (-b ^ 2 / 2) * exp ((b ^ 2 - a ^ 2) / 2) := by
    rw [← Real.exp_add]
    congr 1
    ring
  have h3 : exp ((b ^ 2 - a ^ 2) / 2) ≤ 9 / 8 := by
    have := Real.exp_bound_div_one_sub_of_interval (x := 1 / 10) (by norm_num) (by norm_num)
    have h5 := Real.exp_le_exp.2 h1
    refine h5.trans (this.trans ?_)
    norm_num
  unfold phi
  rw [h2]
  have : 0 < (√(2 * π))⁻¹ * exp (-b ^ 2 / 2) := by positivity
  nlinarith

theorem shape {m s a b r0 : ℝ} (hs : 0 < s) (hr : Phi r0 = y) (hab : (0 ≤ a ∧ b ≤ 10 ∧ 0 < r0) ∨ (-10 ≤ a ∧ b ≤ 0 ∧ r0 < 0)) :
    Shape (fun x => Phi ((x - m) / s) - y) (fun x => phi ((x - m) / s) / s) (m + s * a) (m + s * b) (m + s * r0)
      (s / 100) := by
  have hz : ∀ x ∈ Icc (m + s * a) (m + s * b), a ≤ (x - m) / s ∧ (x - m) / s ≤ b := by
    intro x hx
    rw [le_div_iff₀ hs, div_le_iff₀ hs]
    constructor <;> nlinarith [hx.1, hx.2]
  have hr' : (m + s * r0 - m) / s = r0 := by
    field_simp
    ring
  have hd : ∀ x, HasDerivAt (fun x => Phi ((x - m) / s) - y) (phi ((x - m) / s) / s) x := by
    intro x
    have h1 : HasDerivAt (fun x : ℝ => (x - m) / s) (1 / s) x := ((hasDerivAt_id x).sub_const m).div_const s
    have h2 := ((Phi_deriv ((x - m) / s)).comp x h1).sub_const y
    refine h2.congr_deriv ?_
    ring
  have hroot : Phi ((m + s * r0 - m) / s) - y = 0 := by rw [hr', hr, sub_self]
  refine ⟨hd, fun x => div_pos (phi_pos _) hs, hroot, by positivity, ?_, ?_⟩
  · intro p hp q hq hpq
    have h1 := hz p hp
    have h2 := hz q hq
    have h3 : |(p - m) / s - (q - m) / s| ≤ 1 / 100 := by
      rw [show (p - m) / s - (q - m) / s = (p - q) / s by ring, abs_div, abs_of_pos hs, div_le_iff₀ hs]
      linarith
    have h4 : phi ((p - m) / s) ≤ 9 / 8 * phi ((q - m) / s) := by
      refine phi_ratio ?_ ?_ h3 <;> rw [abs_le] <;> rcases hab with h | h <;> constructor <;> linarith [h.1, h.2.1]
    rw [div_le_iff₀ hs]
    calc _ ≤ _ := h4
      _ = _ := by field_simp
  · -- the mean value of the derivative between p and the root
    have hmv : ∀ p, p ≠ m + s * r0 → ∃ c, (p < c ∧ c < m + s * r0 ∨ m + s * r0 < c ∧ c < p) ∧
        Phi ((p - m) / s) - y = phi ((c - m) / s) / s * (p - (m + s * r0)) := by
      intro p hp
      rcases lt_or_gt_of_ne hp with h | h
      · obtain ⟨c, hc, e⟩ := exists_hasDerivAt_eq_slope _ _ h
          (fun x _ => (hd x).continuousAt.continuousWithinAt) fun x _ => hd x
        refine ⟨c, Or.inl hc, ?_⟩
        rw [hroot, eq_div_iff (by linarith)] at e
        linarith
      · obtain ⟨c, hc, e⟩ := exists_hasDerivAt_eq_slope _ _ h
          (fun x _ => (hd x).continuousAt.continuousWithinAt) fun x _ => hd x
        refine ⟨c, Or.inr hc, ?_⟩
        rw [hroot, eq_div_iff (by linarith)] at e
        linarith
    have hnt : ∀ p c, Phi ((p - m) / s) - y = phi ((c - m) / s) / s * (p - (m + s * r0)) →
        (Phi ((p - m) / s) - y) / (phi ((p - m) / s) / s) =
          phi ((c - m) / s) / phi ((p - m) / s) * (p - (m + s * r0)) := by
      intro p c e
      rw [e]
      have := (phi_pos ((p - m) / s)).ne'
      field_simp
    rcases hab with ⟨ha, hb, hr0⟩ | ⟨ha, hb, hr0⟩
    · left
      intro p hp hne
      obtain ⟨c, hc, e⟩ := hmv p hne
      have hp0 : 0 ≤ (p - m) / s := ha.trans (hz p hp).1
      rw [hnt p c e]
      have hpp := phi_pos ((p - m) / s)
      have hpc := phi_pos ((c - m) / s)
      rcases hc with ⟨h1, h2⟩ | ⟨h1, h2⟩
      · have h3 : phi ((c - m) / s) < phi ((p - m) / s) := by
          refine phi_lt (pow_lt_pow_left₀ ?_ hp0 two_ne_zero)
          gcongr
        have h4 : phi ((c - m) / s) / phi ((p - m) / s) < 1 := (div_lt_one hpp).2 h3
        nlinarith
      · have h3 : phi ((p - m) / s) < phi ((c - m) / s) := by
          refine phi_lt (pow_lt_pow_left₀ ?_ ?_ two_ne_zero)
          · gcongr
          · have : (m + s * r0 - m) / s < (c - m) / s := by gcongr
            rw [hr'] at this
            linarith
        have h4 : 1 < phi ((c - m) / s) / phi ((p - m) / s) := (one_lt_div hpp).2 h3
        nlinarith
    · right
      intro p hp hne
      obtain ⟨c, hc, e⟩ := hmv p hne
      have hp0 : (p - m) / s ≤ 0 := (hz p hp).2.trans hb
      rw [hnt p c e]
      have hpp := phi_pos ((p - m) / s)
      have hpc := phi_pos ((c - m) / s)
      rcases hc with ⟨h1, h2⟩ | ⟨h1, h2⟩
      · have h3 : phi ((p - m) / s) < phi ((c - m) / s) := by
          have a1 : (p - m) / s < (c - m) / s := by gcongr
          have a2 : (c - m) / s < (m + s * r0 - m) / s := by gcongr
          rw [hr'] at a2
          exact phi_lt (by nlinarith)
        have h4 : 1 < phi ((c - m) / s) / phi ((p - m) / s) := (one_lt_div hpp).2 h3
        nlinarith
      · have h3 : phi ((c - m) / s) < phi ((p - m) / s) := by
          have a1 : (c - m) / s < (p - m) / s := by gcongr
          exact phi_lt (by nlinarith)
        have h4 : phi ((c - m) / s) / phi ((p - m) / s) < 1 := (div_lt_one hpp).2 h3
        nlinarith

/-! ## `RootPHI` and `PhiInverse` -/

/-- The standard deviations for which `PhiInverse` is considered. -/
def Moderate (s : ℝ) : Prop := 1e-8 ≤ s ∧ s ≤ 1e100

theorem Moderate.pos {s : ℝ} (h : Moderate s) : 0 < s := by
  have := h.1
  norm_num at this
  linarith

theorem rootPhi_sat (hs : Moderate d.stdDev) {a b r0 : ℝ} (hr : Phi r0 = y)
    (hab : (0 ≤ a ∧ b ≤ 10 ∧ 0 < r0) ∨ (-10 ≤ a ∧ b ≤ 0 ∧ r0 < 0)) (h1 : a + 1 / 100 ≤ b)
    (hfl : 1e-6 < y - Phi a) (hfh : 1e-6 < Phi b - y) :
    (d.rootPhi (d.mean + d.stdDev * a) (d.mean + d.stdDev * b) 1.0e-10 1000 y).Sat
      fun x => |x - (d.mean + d.stdDev * r0)| ≤ 1e-10 := by
  have hp := hs.pos
  have H := shape (m := d.mean) hp hr hab
  set s := d.stdDev with hsd
  set m := d.mean with hm
  have hF : ∀ x, d.cdf x = .ok ((fun x => Phi ((x - m) / s) - y) x + y) := fun x => by
    rw [cdf_ok hp]
    simp [hsd, hm]
  have hG : ∀ x, d.pdf x = .ok ((fun x => phi ((x - m) / s) / s) x) := fun x => pdf_ok hp x
  have ha' : (m + s * a - m) / s = a := by field_simp; ring
  have hb' : (m + s * b - m) / s = b := by field_simp; ring
  have hca : d.cdf (m + s * a) = .ok (Phi a) := by rw [cdf_ok hp]; simp only [← hsd, ← hm, ha']
  have hcb : d.cdf (m + s * b) = .ok (Phi b) := by rw [cdf_ok hp]; simp only [← hsd, ← hm, hb']
  have hy0 : 0 < y := by rw [← hr]; exact Phi_pos _
  have hy1 : y < 1 := by rw [← hr]; exact Phi_lt_one _
  have hz : ∀ t : ℝ, IsZero t ↔ |t| ≤ 1e-6 := by
    intro t
    have := isZero_iff (a := t) (e := 1.0e-6) (by norm_num) (by norm_num)
    unfold IsZero IsEqual at *
    rw [this]
    norm_num
  have hW : m + s * b - (m + s * a) = s * (b - a) := by ring
  have hba : b - a ≤ 10 := by rcases hab with h | h <;> linarith [h.1, h.2.1]
  have hWp : 0 < s * (b - a) := mul_pos hp (by linarith)
  unfold rootPhi
  simp only [Res.monad_bind_eq, hca, hcb, Res.bind_ok]
  rw [if_neg (by rw [hz, abs_of_nonpos (by linarith)]; linarith),
    if_neg (by rw [hz, abs_of_nonneg (by linarith)]; linarith),
    if_neg (by
      norm_num at *
      nlinarith), hF, Res.bind_ok, hG, Res.bind_ok, if_pos (by norm_num at *; linarith), add_sub_cancel_right, hW,
    abs_of_pos hWp]
  have he10 : (1.0e-10 : ℝ) = 1e-10 := by norm_num
  rw [he10]
  have hmid : 0.5 * (m + s * a + (m + s * b)) = (m + s * a + (m + s * b)) / 2 := by norm_num; ring
  rw [hmid]
  refine slow_sat H hF hG (by norm_num) (by norm_num) ?_ (W := s * (b - a)) ?_ ?_ (k := 398) ?_ 600 _ ⟨⟨le_rfl, le_rfl, ?_, ?_, ?_, ?_, rfl, rfl⟩, ?_, ?_, Or.inl ?_⟩ ?_
  · have := hs.1
    norm_num at *
    linarith
  · nlinarith
  · nlinarith
  · have h2 := hs.2
    have : (1e100 : ℝ) / 100 ≤ 1e-10 * 4 ^ 200 := by norm_num
    have h3 : (4 : ℝ) ^ 200 ≤ 4 ^ 398 := pow_le_pow_right₀ (by norm_num) (by norm_num)
    have h4 : (1e-10 : ℝ) * 4 ^ 200 ≤ 1e-10 * 4 ^ 398 := mul_le_mul_of_nonneg_left h3 (by norm_num)
    refine le_trans ?_ (this.trans h4)
    exact div_le_div_of_nonneg_right h2 (by norm_num)
  · show Phi ((m + s * a - m) / s) - y < 0
    rw [ha']
    norm_num at *
    linarith
  · show 0 ≤ Phi ((m + s * b - m) / s) - y
    rw [hb']
    norm_num at *
    linarith
  · show m + s * a ≤ (m + s * a + (m + s * b)) / 2
    linarith
  · show (m + s * a + (m + s * b)) / 2 ≤ m + s * b
    linarith
  · show m + s * b - (m + s * a) ≤ _
    rw [hW]
  · show |s * (b - a)| ≤ _
    rw [abs_of_pos hWp]
  · show m + s * b - (m + s * a) ≤ |s * (b - a)|
    rw [hW, abs_of_pos hWp]
  · unfold pot wd
    dsimp only
    rw [hW, abs_of_pos hWp]
    have h100 : s / 100 ≤ s * (b - a) := by nlinarith
    have he : (1e-10 : ℝ) ≤ s * (b - a) := by
      have := hs.1
      norm_num at *
      nlinarith
    rw [max_eq_left h100, max_eq_left he]
    have c1 : s * (b - a) / (s / 100) = 100 * (b - a) := by field_simp
    have c2 : s * (b - a) * (s * (b - a)) / (s / 100) ^ 2 = (100 * (b - a)) ^ 2 := by field_simp
    rw [c1, c2]
    have c3 : 100 * (b - a) ≤ 2 ^ 10 := by norm_num; linarith
    have c0 : 0 ≤ 100 * (b - a) := by linarith
    have c4 : s * (b - a) / 1e-10 ≤ (2 ^ 185) ^ 2 := by
      rw [div_le_iff₀ (by norm_num)]
      have h2 := hs.2
      have : s * (b - a) ≤ 1e100 * 10 := mul_le_mul h2 hba (by linarith) (by norm_num)
      refine this.trans ?_
      norm_num
    calc (100 * (b - a)) ^ 21 * (100 * (b - a)) ^ 2 * (s * (b - a) / 1e-10)
        ≤ (2 ^ 10) ^ 21 * (2 ^ 10) ^ 2 * (2 ^ 185) ^ 2 := by
          have : (0 : ℝ) < 1e-10 := by norm_num
          gcongr
      _ = 2 ^ 600 := by simp only [← pow_mul, ← pow_add]

/-- The ways in which `PhiInverse` ends. -/
def Ends (d : NormalD) (y r0 : ℝ) (a b x : ℝ) : Prop :=
  (x = d.mean + d.stdDev * b ∧ |Phi b - y| ≤ 1e-6) ∨ (x = d.mean + d.stdDev * a ∧ |Phi a - y| ≤ 1e-6) ∨
    (|x - (d.mean + d.stdDev * r0)| ≤ 1e-10 ∧ 1e-6 < |Phi a - y| ∧ 1e-6 < |Phi b - y|)

theorem phiBetween_up (hs : 0 < d.stdDev) {a b : ℝ} (h : |Phi b - y| ≤ 1e-6) :
    d.phiBetween y (d.mean + d.stdDev * a) (d.mean + d.stdDev * b) = .ok (d.mean + d.stdDev * b) := by
  have hb' : (d.mean + d.stdDev * b - d.mean) / d.stdDev = b := by field_simp; ring
  unfold phiBetween
  rw [Res.monad_bind_eq, cdf_ok hs, Res.bind_ok, hb', if_pos ((isEqual_iff (Phi_pos _) (Phi_lt_one _)).2 h)]

theorem phiBetween_low (hs : 0 < d.stdDev) {a b : ℝ} (h : |Phi a - y| ≤ 1e-6) (hb : ¬ |Phi b - y| ≤ 1e-6) :
    d.phiBetween y (d.mean + d.stdDev * a) (d.mean + d.stdDev * b) = .ok (d.mean + d.stdDev * a) := by
  have hb' : (d.mean + d.stdDev * b - d.mean) / d.stdDev = b := by field_simp; ring
  have ha' : (d.mean + d.stdDev * a - d.mean) / d.stdDev = a := by field_simp; ring
  unfold phiBetween
  rw [Res.monad_bind_eq, cdf_ok hs, Res.bind_ok, hb', if_neg (by rw [isEqual_iff (Phi_pos _) (Phi_lt_one _)]; exact hb),
    Res.monad_bind_eq, cdf_ok hs, Res.bind_ok, ha', if_pos ((isEqual_iff (Phi_pos _) (Phi_lt_one _)).2 h)]

theorem phiBetween_sat (hs : Moderate d.stdDev) {a b r0 : ℝ} (hr : Phi r0 = y)
    (hab : (0 ≤ a ∧ b ≤ 10 ∧ 0 < r0) ∨ (-10 ≤ a ∧ b ≤ 0 ∧ r0 < 0)) (h1 : a + 1 / 100 ≤ b)
    (hl : Phi a ≤ y) (hu : y ≤ Phi b) :
    (d.phiBetween y (d.mean + d.stdDev * a) (d.mean + d.stdDev * b)).Sat (Ends d y r0 a b) := by
  by_cases hb : |Phi b - y| ≤ 1e-6
  · exact ⟨_, phiBetween_up hs.pos hb, Or.inl ⟨rfl, hb⟩⟩
  by_cases ha : |Phi a - y| ≤ 1e-6
  · exact ⟨_, phiBetween_low hs.pos ha hb, Or.inr (Or.inl ⟨rfl, ha⟩)⟩
  have hb' : (d.mean + d.stdDev * b - d.mean) / d.stdDev = b := by have := hs.pos; field_simp; ring
  have ha' : (d.mean + d.stdDev * a - d.mean) / d.stdDev = a := by have := hs.pos; field_simp; ring
  push Not at ha hb
  have e : d.phiBetween y (d.mean + d.stdDev * a) (d.mean + d.stdDev * b) =
      d.rootPhi (d.mean + d.stdDev * a) (d.mean + d.stdDev * b) 1.0e-10 1000 y := by
    unfold phiBetween
    rw [Res.monad_bind_eq, cdf_ok hs.pos, Res.bind_ok, hb',
      if_neg (by rw [isEqual_iff (Phi_pos _) (Phi_lt_one _)]; exact not_le.2 hb),
      Res.monad_bind_eq, cdf_ok hs.pos, Res.bind_ok, ha',
      if_neg (by rw [isEqual_iff (Phi_pos _) (Phi_lt_one _)]; exact not_le.2 ha)]
  rw [e]
  have ha2 := ha
  have hb2 := hb
  rw [abs_of_nonpos (by linarith)] at ha2
  rw [abs_of_nonneg (by linarith)] at hb2
  obtain ⟨x, hx, hx2⟩ := rootPhi_sat hs hr hab h1 (by linarith) hb2
  exact ⟨x, hx, Or.inr (Or.inr ⟨hx2, ha, hb⟩)⟩

/-- The lower limit that goes with the upper limit `10 ^ k`. -/
noncomputable def inner (k : ℕ) : ℝ := if k = 0 then 0 else 10 ^ (k - 1)

theorem inner_succ (k : ℕ) : inner (k + 1) = 10 ^ k := by simp [inner]

theorem up_search (hs : 0 < d.stdDev) {k : ℕ} (hk : y ≤ Phi (10 ^ k)) (hlt : ∀ j < k, Phi (10 ^ j) < y) (n : ℕ) :
    ∀ j, j + n = k → untilLoop (d.upStep y) (d.stdDev * 10 ^ j, d.mean + d.stdDev * inner j, d.mean + d.stdDev * 10 ^ j) =
      .ok ((d.mean + d.stdDev * inner k, d.mean + d.stdDev * 10 ^ k),
        (d.stdDev * 10 ^ k, d.mean + d.stdDev * inner k, d.mean + d.stdDev * 10 ^ k)) := by
  have hc : ∀ t : ℝ, (d.mean + d.stdDev * t - d.mean) / d.stdDev = t := fun t => by field_simp; ring
  induction n with
  | zero =>
    intro j hj
    obtain rfl : j = k := by omega
    rw [untilLoop_unfold]
    unfold upStep
    rw [Res.monad_bind_eq, cdf_ok hs, Res.bind_ok, hc, if_neg (not_lt.2 hk), Res.bind_ok]
  | succ n ih =>
    intro j hj
    rw [untilLoop_unfold]
    have h := hlt j (by omega)
    have e : d.upStep y (d.stdDev * 10 ^ j, d.mean + d.stdDev * inner j, d.mean + d.stdDev * 10 ^ j) =
        .ok (none, (d.stdDev * 10 ^ (j + 1), d.mean + d.stdDev * inner (j + 1), d.mean + d.stdDev * 10 ^ (j + 1))) := by
      unfold upStep
      rw [Res.monad_bind_eq, cdf_ok hs, Res.bind_ok, hc, if_pos h, inner_succ]
      rw [show d.stdDev * 10 ^ j * 10.0 = d.stdDev * 10 ^ (j + 1) by rw [pow_succ]; norm_num; ring]
    rw [e, Res.bind_ok]
    exact ih (j + 1) (by omega)

theorem down_search (hs : 0 < d.stdDev) {k : ℕ} (hk : Phi (-10 ^ k) ≤ y) (hlt : ∀ j < k, y < Phi (-10 ^ j)) (n : ℕ) :
    ∀ j, j + n = k → untilLoop (d.downStep y)
        (d.stdDev * 10 ^ j, d.mean + d.stdDev * (-10 ^ j), d.mean + d.stdDev * (-inner j)) =
      .ok ((d.mean + d.stdDev * (-10 ^ k), d.mean + d.stdDev * (-inner k)),
        (d.stdDev * 10 ^ k, d.mean + d.stdDev * (-10 ^ k), d.mean + d.stdDev * (-inner k))) := by
  have hc : ∀ t : ℝ, (d.mean + d.stdDev * t - d.mean) / d.stdDev = t := fun t => by field_simp; ring
  induction n with
  | zero =>
    intro j hj
    obtain rfl : j = k := by omega
    rw [untilLoop_unfold]
    unfold downStep
    rw [Res.monad_bind_eq, cdf_ok hs, Res.bind_ok, hc, if_neg (not_lt.2 hk), Res.bind_ok]
  | succ n ih =>
    intro j hj
    rw [untilLoop_unfold]
    have h := hlt j (by omega)
    have e : d.downStep y (d.stdDev * 10 ^ j, d.mean + d.stdDev * (-10 ^ j), d.mean + d.stdDev * (-inner j)) =
        .ok (none, (d.stdDev * 10 ^ (j + 1), d.mean + d.stdDev * (-10 ^ (j + 1)),
          d.mean + d.stdDev * (-inner (j + 1)))) := by
      unfold downStep
      rw [Res.monad_bind_eq, cdf_ok hs, Res.bind_ok, hc, if_pos h, inner_succ]
      rw [show d.stdDev * 10 ^ j * 10.0 = d.stdDev * 10 ^ (j + 1) by rw [pow_succ]; norm_num; ring,
        show d.mean - d.stdDev * 10 ^ (j + 1) = d.mean + d.stdDev * (-10 ^ (j + 1)) by ring]
    rw [e, Res.bind_ok]
    exact ih (j + 1) (by omega)

theorem exists_power {y : ℝ} (h : y < 1) : ∃ k : ℕ, y ≤ Phi (10 ^ k) ∧ ∀ j < k, Phi (10 ^ j) < y := by
  have hex : ∃ k : ℕ, y ≤ Phi (10 ^ k) := by
    have h1 : Filter.Tendsto (fun k : ℕ => (10 : ℝ) ^ k) Filter.atTop Filter.atTop :=
      tendsto_pow_atTop_atTop_of_one_lt (by norm_num)
    obtain ⟨k, hk⟩ := ((Phi_top.comp h1).eventually_const_lt h).exists
    exact ⟨k, le_of_lt hk⟩
  classical
  exact ⟨Nat.find hex, Nat.find_spec hex, fun j hj => not_le.1 (Nat.find_min hex hj)⟩

/-- The tail beyond 5 is small. -/
theorem Phi_five : 1 - 4.9e-7 ≤ Phi 5 := by
  have h := mills (z := 5) (by norm_num)
  have h1 : phi 5 ≤ 2.45e-6 := by
    unfold phi
    have hp : (2.5 : ℝ) ≤ √(2 * π) := by
      rw [Real.le_sqrt' (by norm_num)]
      have := Real.pi_gt_d2
      norm_num at *
      linarith
    have h3 : (√(2 * π))⁻¹ ≤ 1 / 2.5 := by
      rw [one_div]
      gcongr
    have h4 : (1.625 : ℝ) ≤ exp (1 / 2) := by
      have := Real.quadratic_le_exp_of_nonneg (x := 1 / 2) (by norm_num)
      refine le_trans ?_ this
      norm_num
    have h2 : exp (-5 ^ 2 / 2) ≤ 1 / 1.625 ^ (25 : ℕ) := by
      have e : exp (-5 ^ 2 / 2) = 1 / exp (1 / 2) ^ (25 : ℕ) := by
        rw [← Real.exp_nat_mul, one_div, ← Real.exp_neg]
        norm_num
      rw [e]
      gcongr
    calc (√(2 * π))⁻¹ * exp (-5 ^ 2 / 2) ≤ 1 / 2.5 * (1 / 1.625 ^ (25 : ℕ)) := by gcongr
      _ ≤ 2.45e-6 := by norm_num
  norm_num at *
  linarith

theorem Phi_ten : 1 - 4.9e-7 ≤ Phi 10 := Phi_five.trans (Phi_strictMono.monotone (by norm_num))

theorem phiInverse_up_eq (hs : 0 < d.stdDev) (hy : 1 / 2 < y) (hy1 : y < 1) {k : ℕ} (hk : y ≤ Phi (10 ^ k))
    (hlt : ∀ j < k, Phi (10 ^ j) < y) :
    d.phiInverse y = d.phiBetween y (d.mean + d.stdDev * inner k) (d.mean + d.stdDev * 10 ^ k) := by
  have e := up_search hs hk hlt k 0 (by omega)
  simp only [pow_zero, mul_one, inner, if_true, mul_zero, add_zero] at e
  unfold phiInverse
  rw [if_neg (by norm_num; constructor <;> linarith), if_neg (by norm_num; linarith), if_neg (by norm_num; linarith),
    if_pos (by norm_num; linarith), Res.monad_bind_eq, e, Res.bind_ok]
  rfl

theorem phiInverse_down_eq (hs : 0 < d.stdDev) (hy : y < 1 / 2) (hy0 : 0 < y) {k : ℕ} (hk : Phi (-10 ^ k) ≤ y)
    (hlt : ∀ j < k, y < Phi (-10 ^ j)) :
    d.phiInverse y = d.phiBetween y (d.mean + d.stdDev * (-10 ^ k)) (d.mean + d.stdDev * (-inner k)) := by
  have e := down_search hs hk hlt k 0 (by omega)
  simp only [pow_zero, mul_one, inner, if_true, neg_zero, mul_zero, add_zero, mul_neg, ← sub_eq_add_neg] at e
  unfold phiInverse
  rw [if_neg (by norm_num; constructor <;> linarith), if_neg (by norm_num; linarith), if_neg (by norm_num; linarith),
    if_neg (by norm_num; linarith), if_pos (by norm_num; linarith), Res.monad_bind_eq, e, Res.bind_ok]
  simp only [mul_neg, ← sub_eq_add_neg]
  rfl

theorem phiInverse_up (hs : Moderate d.stdDev) {r0 : ℝ} (hr : Phi r0 = y) (hy : 1 / 2 < y) :
    ∃ k : ℕ, y ≤ Phi (10 ^ k) ∧ (∀ j < k, Phi (10 ^ j) < y) ∧ (d.phiInverse y).Sat (Ends d y r0 (inner k) (10 ^ k)) := by
  have hy1 : y < 1 := hr ▸ Phi_lt_one _
  obtain ⟨k, hk, hlt⟩ := exists_power hy1
  refine ⟨k, hk, hlt, ?_⟩
  rw [phiInverse_up_eq hs.pos hy hy1 hk hlt]
  have hr0 : 0 < r0 := by
    by_contra hc
    have := Phi_strictMono.monotone (not_lt.1 hc)
    rw [Phi_zero, hr] at this
    linarith
  rcases lt_or_ge k 2 with h2 | h2
  · obtain rfl | rfl : k = 0 ∨ k = 1 := by omega
    · refine phiBetween_sat hs hr (Or.inl ⟨?_, ?_, hr0⟩) ?_ ?_ hk <;> norm_num [inner]
      rw [Phi_zero]
      norm_num at hy
      linarith
    · refine phiBetween_sat hs hr (Or.inl ⟨?_, ?_, hr0⟩) ?_ ?_ hk <;> norm_num [inner]
      have := hlt 0 (by norm_num)
      norm_num at this
      exact this.le
  · have hb : |Phi (10 ^ k) - y| ≤ 1e-6 := by
      have h10 := hlt 1 (by omega)
      norm_num at h10
      have := Phi_ten
      have := Phi_lt_one (10 ^ k)
      rw [abs_of_nonneg (by linarith)]
      norm_num at *
      linarith
    exact ⟨_, phiBetween_up hs.pos hb, Or.inl ⟨rfl, hb⟩⟩

theorem phiInverse_down (hs : Moderate d.stdDev) {r0 : ℝ} (hr : Phi r0 = y) (hy : y < 1 / 2) :
    ∃ k : ℕ, Phi (-10 ^ k) ≤ y ∧ (∀ j < k, y < Phi (-10 ^ j)) ∧
      (d.phiInverse y).Sat (Ends d y r0 (-10 ^ k) (-inner k)) := by
  have hy0 : 0 < y := hr ▸ Phi_pos _
  obtain ⟨k, hk', hlt'⟩ := exists_power (y := 1 - y) (by linarith)
  have hk : Phi (-10 ^ k) ≤ y := by rw [Phi_neg]; linarith
  have hlt : ∀ j < k, y < Phi (-10 ^ j) := by
    intro j hj
    rw [Phi_neg]
    linarith [hlt' j hj]
  refine ⟨k, hk, hlt, ?_⟩
  rw [phiInverse_down_eq hs.pos hy hy0 hk hlt]
  have hr0 : r0 < 0 := by
    by_contra hc
    have := Phi_strictMono.monotone (not_lt.1 hc)
    rw [Phi_zero, hr] at this
    linarith
  rcases lt_or_ge k 2 with h2 | h2
  · obtain rfl | rfl : k = 0 ∨ k = 1 := by omega
    · refine phiBetween_sat hs hr (Or.inr ⟨?_, ?_, hr0⟩) ?_ hk ?_ <;> norm_num [inner]
      rw [Phi_zero]
      norm_num at hy
      linarith
    · refine phiBetween_sat hs hr (Or.inr ⟨?_, ?_, hr0⟩) ?_ hk ?_ <;> norm_num [inner]
      have := hlt 0 (by norm_num)
      norm_num at this
      exact this.le
  · have ha : |Phi (-10 ^ k) - y| ≤ 1e-6 := by
      have h10 := hlt 1 (by omega)
      rw [Phi_neg] at h10
      norm_num at h10
      have := Phi_ten
      have := Phi_pos (-10 ^ k)
      rw [abs_of_nonpos (by linarith)]
      norm_num at *
      linarith
    by_cases hb : |Phi (-inner k) - y| ≤ 1e-6
    · exact ⟨_, phiBetween_up hs.pos hb, Or.inl ⟨rfl, hb⟩⟩
    · exact ⟨_, phiBetween_low hs.pos ha hb, Or.inr (Or.inl ⟨rfl, ha⟩)⟩

end Verif.NormalD
