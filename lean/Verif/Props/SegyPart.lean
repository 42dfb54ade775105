import Verif.Props.SegyLines

/-!
# C142: parts of a seismic cube, and the part that covers an area
-/

namespace Verif

open Classical

/-- The step that is asked for: a negative number asks for the step of the cube, others have to be multiples of it. -/
def Spec.StepAsked (asked step sub : ℤ) : Prop :=
  (asked < 0 ∧ sub = step) ∨ (asked = sub ∧ ∃ m : ℤ, 0 < m ∧ sub = m * step)

/-- The lines from `a` to `b` that are asked for are in the cube, and there is a line between them (and, if the lines
are numbered downwards, a second one). -/
def Spec.RangeAsked (σ a b lo hi step sub : ℤ) : Prop :=
  lo ≤ a ∧ b ≤ hi ∧ ((step ∣ a - lo ∧ a + (if σ = 1 then 0 else sub) ≤ b) ∨ a + step + (if σ = 1 then 0 else sub) ≤ b)

/-- The lines from `lo'` to `hi'` in steps of `sub` are the part of the lines from `lo` to `hi` in steps of `step` that is
asked for: they are lines of the cube, and the ends are moved by less than a step, and only if there is no line. -/
def Spec.Part (a b lo hi step sub lo' hi' : ℤ) : Prop :=
  step ∣ lo' - lo ∧ step ∣ sub ∧ sub ∣ hi' - lo' ∧ lo ≤ lo' ∧ lo' ≤ hi' ∧ hi' ≤ hi ∧ |lo' - a| < step ∧ |hi' - b| < sub ∧
    (step ∣ a - lo → lo' = a) ∧ (sub ∣ b - lo' → hi' = b)

namespace SegyGeometry

theorem subStep_eq {asked step sub : ℤ} (hs : 0 < step) (h : Spec.StepAsked asked step sub) :
    subStep asked step = .ok (sub, false) ∧ 0 < sub ∧ step ∣ sub := by
  rcases h with ⟨h, rfl⟩ | ⟨rfl, m, hm, rfl⟩
  · rw [subStep, if_pos h]
    exact ⟨rfl, hs, dvd_refl _⟩
  · have h1 : step ≤ m * step := by nlinarith
    rw [subStep, if_neg (by omega), if_neg (by omega)]
    simp only [Res.monad_bind_eq, modInt]
    rw [if_neg hs.ne', Res.bind_ok, Int.mul_tmod_left]
    exact ⟨by simp, by omega, Dvd.intro_left m rfl⟩

theorem subFirst_eq {a lo hi step sub : ℤ} (hs : 0 < step) (h1 : lo ≤ a) (h2 : a ≤ hi) (hd : step ∣ hi - lo) :
    ∃ c, subFirst a lo step sub = .ok c ∧ step ∣ c - lo ∧ lo ≤ c ∧ c ≤ hi ∧ |c - a| < step ∧ (step ∣ a - lo → c = a) := by
  obtain ⟨q, hq⟩ := hd
  have t : (a - lo).tmod step = (a - lo) % step := Int.tmod_eq_emod_of_nonneg (by omega)
  have r0 := Int.emod_nonneg (a - lo) hs.ne'
  have r1 := Int.emod_lt_of_pos (a - lo) hs
  have r2 := Int.emod_add_mul_ediv (a - lo) step
  unfold subFirst
  simp only [Res.monad_bind_eq, modInt]
  rw [if_neg hs.ne', Res.bind_ok, t]
  generalize hr : (a - lo) % step = r at *
  generalize (a - lo) / step = k at *
  by_cases e : r = 0
  · rw [if_neg (by simpa using e)]
    refine ⟨a, rfl, ⟨k, by omega⟩, h1, h2, by simpa using hs, fun _ => rfl⟩
  · have nd : ¬ step ∣ a - lo := fun hh => e (by rw [← hr]; exact Int.emod_eq_zero_of_dvd hh)
    rw [if_pos e]
    split_ifs with hc
    · refine ⟨_, rfl, ⟨k + 1, by linarith⟩, by omega, ?_, ?_, fun hh => absurd hh nd⟩
      · have : k < q := by
          by_contra hcon
          have : step * q ≤ step * k := mul_le_mul_of_nonneg_left (by omega) hs.le
          omega
        have : step * (k + 1) ≤ step * q := mul_le_mul_of_nonneg_left (by omega) hs.le
        linarith
      · rw [abs_lt]; omega
    · have kk : 0 ≤ step * k := by
        have : 0 ≤ k := by
          by_contra hcon
          have : step * k ≤ step * (-1) := mul_le_mul_of_nonneg_left (by omega) hs.le
          linarith
        positivity
      refine ⟨_, rfl, ⟨k, by linarith⟩, by omega, by omega, ?_, fun hh => absurd hh nd⟩
      rw [abs_lt]; omega

theorem subLast_eq {b c hi sub : ℤ} (hs : 0 < sub) (h1 : c ≤ b) (h2 : b ≤ hi) :
    ∃ d, subLast b c hi sub = .ok d ∧ sub ∣ d - c ∧ c ≤ d ∧ d ≤ hi ∧ |d - b| < sub ∧ (sub ∣ b - c → d = b) := by
  have t : (b - c).tmod sub = (b - c) % sub := Int.tmod_eq_emod_of_nonneg (by omega)
  have r0 := Int.emod_nonneg (b - c) hs.ne'
  have r1 := Int.emod_lt_of_pos (b - c) hs
  have r2 := Int.emod_add_mul_ediv (b - c) sub
  have k0 : 0 ≤ (b - c) / sub := Int.ediv_nonneg (by omega) hs.le
  unfold subLast
  simp only [Res.monad_bind_eq, modInt]
  rw [if_neg hs.ne', Res.bind_ok, t]
  generalize hr : (b - c) % sub = r at *
  generalize (b - c) / sub = k at *
  by_cases e : r = 0
  · rw [if_neg (by simpa using e)]
    refine ⟨b, rfl, ⟨k, by omega⟩, h1, h2, by simpa using hs, fun _ => rfl⟩
  · have nd : ¬ sub ∣ b - c := fun hh => e (by rw [← hr]; exact Int.emod_eq_zero_of_dvd hh)
    have kk : 0 ≤ sub * k := by positivity
    rw [if_pos e]
    split_ifs with hc
    · refine ⟨_, rfl, ⟨k, by linarith⟩, by omega, by omega, ?_, fun hh => absurd hh nd⟩
      rw [abs_lt]; omega
    · refine ⟨_, rfl, ⟨k + 1, by linarith⟩, by omega, by omega, ?_, fun hh => absurd hh nd⟩
      rw [abs_lt]; omega

/-- One direction of a part. -/
theorem part_axis {σ L0 lo hi step a b asked sub : ℤ} {n : ℕ} (hL : Spec.LineRange σ L0 lo hi step n)
    (hA : Spec.StepAsked asked step sub) (hR : Spec.RangeAsked σ a b lo hi step sub) (h31 : hi - lo < 2 ^ 31) :
    ∃ (c d : ℤ) (n' : ℕ), subFirst a lo step sub = .ok c ∧ subLast b c hi sub = .ok d ∧ subCount c d sub = .ok n' ∧
      Spec.Part a b lo hi step sub c d ∧ d = c + (n' - 1) * sub ∧ 1 ≤ n' ∧ n' ≤ 2 ^ 31 ∧ (σ = -1 → 2 ≤ n') := by
  obtain ⟨-, hsub, hdv⟩ := subStep_eq hL.1 hA
  obtain ⟨hs, hL⟩ := hL
  obtain ⟨hR1, hR2, hR3⟩ := hR
  have e0 : 0 ≤ (if σ = 1 then 0 else sub) := by split_ifs <;> omega
  have dv : step ∣ hi - lo := by
    rcases hL with ⟨-, rfl, rfl⟩ | ⟨-, rfl, rfl, -⟩
    · exact ⟨n - 1, by ring⟩
    · exact ⟨n - 1, by ring⟩
  have hab : a ≤ b := by rcases hR3 with ⟨-, h⟩ | h <;> omega
  obtain ⟨c, hc, c1, c2, c3, c4, c5⟩ := subFirst_eq (sub := sub) hs hR1 (hab.trans hR2) dv
  have hcb : c + (if σ = 1 then 0 else sub) ≤ b := by
    rcases hR3 with ⟨h, h'⟩ | h
    · rw [c5 h]; exact h'
    · rw [abs_lt] at c4; omega
  obtain ⟨d, hd, d1, d2, d3, d4, d5⟩ := subLast_eq hsub (by omega : c ≤ b) hR2
  obtain ⟨k, hk⟩ := d1
  have k0 : 0 ≤ k := by
    by_contra hcon
    have : sub * k ≤ sub * (-1) := mul_le_mul_of_nonneg_left (by omega) hsub.le
    omega
  have kle : k ≤ d - c := by rw [hk]; nlinarith
  have dc : (d - c).tdiv sub = k := by rw [hk, Int.mul_tdiv_cancel_left _ hsub.ne']
  refine ⟨c, d, (k + 1).toNat, hc, hd, ?_, ⟨c1, hdv, ⟨k, hk⟩, c2, d2, d3, c4, d4, c5, d5⟩, ?_, by omega, by omega, ?_⟩
  · unfold subCount
    simp only [Res.monad_bind_eq, divInt]
    rw [if_neg hsub.ne', Res.bind_ok, dc, Int.emod_eq_of_lt (by omega) (by omega)]
  · rw [Int.toNat_of_nonneg (by omega)]
    linarith
  · rintro rfl
    simp only [show (-1 : ℤ) ≠ 1 by decide, if_false] at hcb
    have : d ≠ c := by
      rintro rfl
      rw [abs_lt] at d4
      rcases eq_or_lt_of_le hcb with h | h
      · have := d5 ⟨1, by omega⟩
        omega
      · omega
    have : 0 < k := by
      rcases eq_or_lt_of_le k0 with h | h
      · rw [← h] at hk; omega
      · exact h
    omega

theorem checks {σ L0 lo hi step a b sub : ℤ} {n : ℕ} (hL : Spec.LineRange σ L0 lo hi step n) (hsub : 0 < sub)
    (hR : Spec.RangeAsked σ a b lo hi step sub) : subCheck a b lo hi = .ok () := by
  obtain ⟨hR1, hR2, hR3⟩ := hR
  have e0 : 0 ≤ (if σ = 1 then 0 else sub) := by split_ifs <;> omega
  have := hL.1
  have hab : a ≤ b := by rcases hR3 with ⟨-, h⟩ | h <;> omega
  unfold subCheck
  rw [if_neg (by omega), if_neg (by omega), if_neg (by omega), if_neg (by omega)]

theorem corner {σ L0 lo hi step sub c d : ℤ} {n n' : ℕ} (hL : Spec.LineRange σ L0 lo hi step n) :
    (if L0 = lo then (c : ℝ) - 0.5 * sub else d + 0.5 * sub) =
      ((if σ = 1 then c else d : ℤ) : ℝ) - σ * sub / 2 := by
  obtain ⟨hs, ⟨rfl, rfl, rfl⟩ | ⟨rfl, rfl, rfl, hn⟩⟩ := hL
  · rw [if_pos rfl, if_pos rfl]; norm_num; ring
  · rw [if_neg, if_neg (by decide)]
    · norm_num; ring
    · have : 0 < ((n : ℤ) - 1) * step := mul_pos (by omega) hs
      omega

theorem shift_lines (g : SegyGeometry) (p : ℝ × ℝ) :
    Spec.affineLines p.1 p.2 (g.findContILXL p.1 p.2).1 (g.findContILXL p.1 p.2).2 g.ilStepX g.ilStepY g.xlStepX
      g.xlStepY = g.findContILXL := by
  funext x y
  unfold Spec.affineLines findContILXL
  refine Prod.ext ?_ ?_ <;> dsimp only <;> ring

theorem shift_point (g : SegyGeometry) (s0 t0 q r s t : ℝ) :
    Spec.gridPoint (g.at s0 t0).1 (g.at s0 t0).2 (g.dx * q) (g.dy * r) g.cosRot g.sinRot s t =
      g.at (s0 + q * s) (t0 + r * t) := by
  unfold SegyGeometry.at Spec.gridPoint
  refine Prod.ext ?_ ?_ <;> dsimp only <;> ring

/-- The grid of a part. -/
theorem part_grid {g : SegyGeometry} {σI σX : ℤ} (h : Spec.SegyGrid g σI σX)
    (hr : g.cosRot = Real.cos g.rot ∧ g.sinRot = Real.sin g.rot)
    (h1 : tiny g.ilStepX g.xlStepX → g.ilStepX = 0) (h2 : tiny g.xlStepY g.ilStepY → g.xlStepY = 0)
    {cI dI cX dX sI sX : ℤ} {nI nX : ℕ} (hs : 0 < sI ∧ 0 < sX)
    (hI : dI = cI + (nI - 1) * sI) (hX : dX = cX + (nX - 1) * sX)
    (hn : 1 ≤ nI ∧ 1 ≤ nX) (hn31 : nI < 2 ^ 31 ∧ nX < 2 ^ 31) (hσI : σI = -1 → 2 ≤ nI) (hσX : σX = -1 → 2 ≤ nX)
    (h0 : 0 ≤ cI ∧ 0 ≤ cX) (h31 : dI + sI < 2 ^ 31 ∧ dX + sX < 2 ^ 31) :
    ∃ p r, g.findXYFromContILXL (((if σI = 1 then cI else dI : ℤ) : ℝ) - σI * sI / 2)
        (((if σX = 1 then cX else dX : ℤ) : ℝ) - σX * sX / 2) = .ok p ∧
      (if g.firstAxisIL then
        ofLines p.1 p.2 (g.dx * (sI / g.ILStep)) (g.dy * (sX / g.XLStep)) nI nX
          (((if σI = 1 then cI else dI : ℤ) : ℝ) - σI * sI / 2) (((if σX = 1 then cX else dX : ℤ) : ℝ) - σX * sX / 2)
          g.ilStepX g.ilStepY g.xlStepX g.xlStepY g.rot
      else
        ofLines p.1 p.2 (g.dx * (sX / g.XLStep)) (g.dy * (sI / g.ILStep)) nX nI
          (((if σI = 1 then cI else dI : ℤ) : ℝ) - σI * sI / 2) (((if σX = 1 then cX else dX : ℤ) : ℝ) - σX * sX / 2)
          g.ilStepX g.ilStepY g.xlStepX g.xlStepY g.rot) = .ok r ∧
      Spec.SegyGrid r σI σX ∧ r.findContILXL = g.findContILXL ∧ r.firstAxisIL = g.firstAxisIL ∧
      (r.rot = g.rot ∧ r.cosRot = Real.cos g.rot ∧ r.sinRot = Real.sin g.rot) ∧
      (r.ILStep, r.minIL, r.maxIL) = (sI, cI, dI) ∧ (r.XLStep, r.minXL, r.maxXL) = (sX, cX, dX) := by
  have sgI : σI = 1 ∨ σI = -1 := by rcases h.il.2 with ⟨h, -⟩ | ⟨h, -⟩ <;> omega
  have sgX : σX = 1 ∨ σX = -1 := by rcases h.xl.2 with ⟨h, -⟩ | ⟨h, -⟩ <;> omega
  have stI : (0 : ℝ) < g.ILStep := by exact_mod_cast h.il.1
  have stX : (0 : ℝ) < g.XLStep := by exact_mod_cast h.xl.1
  have neI := sgn_ne h.il
  have neX := sgn_ne h.xl
  have nI0 : 0 ≤ ((nI : ℤ) - 1) * sI := mul_nonneg (by omega) hs.1.le
  have nX0 : 0 ≤ ((nX : ℤ) - 1) * sX := mul_nonneg (by omega) hs.2.le
  have spanI : σI = -1 → cI + sI ≤ dI := by
    intro e
    have : 1 * sI ≤ ((nI : ℤ) - 1) * sI := mul_le_mul_of_nonneg_right (by have := hσI e; omega) hs.1.le
    omega
  have spanX : σX = -1 → cX + sX ≤ dX := by
    intro e
    have : 1 * sX ≤ ((nX : ℤ) - 1) * sX := mul_le_mul_of_nonneg_right (by have := hσX e; omega) hs.2.le
    omega
  obtain ⟨LI, hLI⟩ : ∃ L : ℤ, L = if σI = 1 then cI else dI := ⟨_, rfl⟩
  obtain ⟨LX, hLX⟩ : ∃ L : ℤ, L = if σX = 1 then cX else dX := ⟨_, rfl⟩
  have rI : ∀ L ∈ [LI, LI + σI * sI], 0 ≤ L ∧ L < 2 ^ 31 := by
    intro L hL
    simp only [List.mem_cons, List.not_mem_nil, or_false] at hL
    rcases sgI with rfl | rfl
    · simp only [if_true] at hLI
      omega
    · simp only [show (-1 : ℤ) ≠ 1 by decide, if_false] at hLI
      have := spanI rfl
      omega
  have rX : ∀ L ∈ [LX, LX + σX * sX], 0 ≤ L ∧ L < 2 ^ 31 := by
    intro L hL
    simp only [List.mem_cons, List.not_mem_nil, or_false] at hL
    rcases sgX with rfl | rfl
    · simp only [if_true] at hLX
      omega
    · simp only [show (-1 : ℤ) ≠ 1 by decide, if_false] at hLX
      have := spanX rfl
      omega
  have fin : ∀ r : SegyGeometry, ∀ {n : ℕ} {L lo hi s : ℤ} {σ c d : ℤ}, Spec.LineRange σ L lo hi s n → (σ = 1 ∨ σ = -1) →
      L = (if σ = 1 then c else d) → d = c + (n - 1) * s → lo = c ∧ hi = d := by
    intro r n L lo hi s σ c d hL hσ e e'
    obtain ⟨-, ⟨rfl, e1, e2⟩ | ⟨rfl, e1, e2, -⟩⟩ := hL
    · simp only [if_true] at e
      rw [e1, e2, e, e']
      exact ⟨rfl, rfl⟩
    · simp only [show (-1 : ℤ) ≠ 1 by decide, if_false] at e
      rw [e1, e2, e]
      exact ⟨by rw [e']; ring, rfl⟩
  rw [← hLI, ← hLX]
  obtain ⟨uI, huI⟩ : ∃ u : ℝ, (g.IL0 : ℝ) + σI * g.ILStep * (u - 1 / 2) = LI - σI * sI / 2 :=
    ⟨1 / 2 + (LI - σI * sI / 2 - g.IL0) / (σI * g.ILStep), by
      rw [add_sub_cancel_left, mul_div_cancel₀ _ neI]; ring⟩
  obtain ⟨uX, huX⟩ : ∃ u : ℝ, (g.XL0 : ℝ) + σX * g.XLStep * (u - 1 / 2) = LX - σX * sX / 2 :=
    ⟨1 / 2 + (LX - σX * sX / 2 - g.XL0) / (σX * g.XLStep), by
      rw [add_sub_cancel_left, mul_div_cancel₀ _ neX]; ring⟩
  have inv := (segy_points h h1 h2).1
  have qI : ∀ s : ℝ, (g.IL0 : ℝ) + σI * g.ILStep * (uI + sI / g.ILStep * s - 1 / 2) = LI + σI * sI * (s - 1 / 2) := by
    intro s
    have : (g.ILStep : ℝ) * (sI / g.ILStep) = sI := mul_div_cancel₀ _ stI.ne'
    linear_combination huI + σI * s * this
  have qX : ∀ s : ℝ, (g.XL0 : ℝ) + σX * g.XLStep * (uX + sX / g.XLStep * s - 1 / 2) = LX + σX * sX * (s - 1 / 2) := by
    intro s
    have : (g.XLStep : ℝ) * (sX / g.XLStep) = sX := mul_div_cancel₀ _ stX.ne'
    linear_combination huX + σX * s * this
  have sIr : (0 : ℝ) < sI := by exact_mod_cast hs.1
  have sXr : (0 : ℝ) < sX := by exact_mod_cast hs.2
  cases hf : g.firstAxisIL
  · have ln := h.lines
    simp only [hf, Bool.false_eq_true, if_false] at ln ⊢
    have hp : g.findContILXL (g.at uX uI).1 (g.at uX uI).2 = ((LI : ℝ) - σI * sI / 2, (LX : ℝ) - σX * sX / 2) := by
      rw [ln, huI, huX]
    have hp' := inv (g.at uX uI).1 (g.at uX uI).2
    have sl := shift_lines g (g.at uX uI)
    rw [hp] at hp' sl
    obtain ⟨r, e, k, m, ro, l, f⟩ := segy_of_lines (x0 := (g.at uX uI).1) (y0 := (g.at uX uI).2)
      (dx := g.dx * (sX / g.XLStep)) (dy := g.dy * (sI / g.ILStep)) (rot := g.rot) (I0 := LI - σI * sI / 2)
      (X0 := LX - σX * sX / 2) (iX := g.ilStepX) (iY := g.ilStepY) (xX := g.xlStepX) (xY := g.xlStepY)
      (nx := nX) (ny := nI) (first := false) (IL0 := LI) (XL0 := LX) (σI := σI) (σX := σX) (sI := sI) (sX := sX)
      (by
        intro s t
        rw [sl, ← hr.1, ← hr.2, shift_point, ln]
        simp only [Bool.false_eq_true, if_false]
        rw [qI, qX]
        push_cast
        rfl)
      ⟨mul_pos h.dx (div_pos sXr stX), mul_pos h.dy (div_pos sIr stI)⟩ hs
      (by rcases sgI with e | e; exact Or.inl e; exact Or.inr ⟨e, by simpa using hσI e⟩)
      (by rcases sgX with e | e; exact Or.inl e; exact Or.inr ⟨e, by simpa using hσX e⟩)
      ⟨hn31.2, hn31.1⟩ rI rX
    simp only [Prod.mk.injEq] at m l ro
    have i1 := k.il
    have x1 := k.xl
    rw [l.2.2.2.2] at i1 x1
    simp only [Bool.false_eq_true, if_false] at i1 x1
    have fi := fin r i1 sgI (by rw [l.1]; exact hLI) (by rw [m.2.2.2.2.2, l.2.2.1]; exact hI)
    have fx := fin r x1 sgX (by rw [l.2.1]; exact hLX) (by rw [m.2.2.2.2.1, l.2.2.2.1]; exact hX)
    exact ⟨_, r, hp', e, k, f.trans sl, l.2.2.2.2, ro, by rw [l.2.2.1, fi.1, fi.2],
      by rw [l.2.2.2.1, fx.1, fx.2]⟩
  · have ln := h.lines
    simp only [hf, if_true] at ln ⊢
    have hp : g.findContILXL (g.at uI uX).1 (g.at uI uX).2 = ((LI : ℝ) - σI * sI / 2, (LX : ℝ) - σX * sX / 2) := by
      rw [ln, huI, huX]
    have hp' := inv (g.at uI uX).1 (g.at uI uX).2
    have sl := shift_lines g (g.at uI uX)
    rw [hp] at hp' sl
    obtain ⟨r, e, k, m, ro, l, f⟩ := segy_of_lines (x0 := (g.at uI uX).1) (y0 := (g.at uI uX).2)
      (dx := g.dx * (sI / g.ILStep)) (dy := g.dy * (sX / g.XLStep)) (rot := g.rot) (I0 := LI - σI * sI / 2)
      (X0 := LX - σX * sX / 2) (iX := g.ilStepX) (iY := g.ilStepY) (xX := g.xlStepX) (xY := g.xlStepY)
      (nx := nI) (ny := nX) (first := true) (IL0 := LI) (XL0 := LX) (σI := σI) (σX := σX) (sI := sI) (sX := sX)
      (by
        intro s t
        rw [sl, ← hr.1, ← hr.2, shift_point, ln]
        simp only [if_true]
        rw [qI, qX]
        push_cast
        rfl)
      ⟨mul_pos h.dx (div_pos sIr stI), mul_pos h.dy (div_pos sXr stX)⟩ hs
      (by rcases sgI with e | e; exact Or.inl e; exact Or.inr ⟨e, by simpa using hσI e⟩)
      (by rcases sgX with e | e; exact Or.inl e; exact Or.inr ⟨e, by simpa using hσX e⟩)
      hn31 rI rX
    simp only [Prod.mk.injEq] at m l ro
    have i1 := k.il
    have x1 := k.xl
    rw [l.2.2.2.2] at i1 x1
    simp only [if_true] at i1 x1
    have fi := fin r i1 sgI (by rw [l.1]; exact hLI) (by rw [m.2.2.2.2.1, l.2.2.1]; exact hI)
    have fx := fin r x1 sgX (by rw [l.2.1]; exact hLX) (by rw [m.2.2.2.2.2, l.2.2.2.1]; exact hX)
    exact ⟨_, r, hp', e, k, f.trans sl, l.2.2.2.2, ro, by rw [l.2.2.1, fi.1, fi.2],
      by rw [l.2.2.2.1, fx.1, fx.2]⟩

/-- **C142 (parts).** The part of a cube between given lines, in steps that are multiples of those of the cube, is a cube
whose lines are lines of the cube, where the lines asked for are there, and pass through the same points. -/
theorem segy_part {g : SegyGeometry} {σI σX : ℤ} (h : Spec.SegyGrid g σI σX)
    (hr : g.cosRot = Real.cos g.rot ∧ g.sinRot = Real.sin g.rot)
    (h1 : tiny g.ilStepX g.xlStepX → g.ilStepX = 0) (h2 : tiny g.xlStepY g.ilStepY → g.xlStepY = 0)
    {a b c d askI askX sI sX : ℤ} (aI : Spec.StepAsked askI g.ILStep sI) (aX : Spec.StepAsked askX g.XLStep sX)
    (rI : Spec.RangeAsked σI a b g.minIL g.maxIL g.ILStep sI) (rX : Spec.RangeAsked σX c d g.minXL g.maxXL g.XLStep sX)
    (h0 : 0 ≤ g.minIL ∧ 0 ≤ g.minXL) (h31 : g.maxIL + sI < 2 ^ 31 ∧ g.maxXL + sX < 2 ^ 31) :
    ∃ r, g.subGeometry (a, b) (c, d) askI askX = .ok (r, false) ∧ Spec.SegyGrid r σI σX ∧
      r.findContILXL = g.findContILXL ∧ r.firstAxisIL = g.firstAxisIL ∧
      (r.rot = g.rot ∧ r.cosRot = Real.cos g.rot ∧ r.sinRot = Real.sin g.rot) ∧ r.ILStep = sI ∧ r.XLStep = sX ∧
      Spec.Part a b g.minIL g.maxIL g.ILStep sI r.minIL r.maxIL ∧
      Spec.Part c d g.minXL g.maxXL g.XLStep sX r.minXL r.maxXL := by
  obtain ⟨eI, pI, -⟩ := subStep_eq h.il.1 aI
  obtain ⟨eX, pX, -⟩ := subStep_eq h.xl.1 aX
  obtain ⟨cI, dI, nI, i1, i2, i3, i4, i5, i6, i7, i8⟩ := part_axis h.il aI rI (by omega)
  obtain ⟨cX, dX, nX, x1, x2, x3, x4, x5, x6, x7, x8⟩ := part_axis h.xl aX rX (by omega)
  have bI : ((nI : ℤ) - 1) * 1 ≤ ((nI : ℤ) - 1) * sI := mul_le_mul_of_nonneg_left (by omega) (by omega)
  have bX : ((nX : ℤ) - 1) * 1 ≤ ((nX : ℤ) - 1) * sX := mul_le_mul_of_nonneg_left (by omega) (by omega)
  have cI0 := i4.2.2.2.1
  have cX0 := x4.2.2.2.1
  have dI1 := i4.2.2.2.2.2.1
  have dX1 := x4.2.2.2.2.2.1
  obtain ⟨p, r, e1, e2, e3, e4, e5, e6, e7, e8⟩ := part_grid h hr h1 h2 ⟨pI, pX⟩ i5 x5 ⟨i6, x6⟩ (by omega) i8 x8 (by omega)
    (by omega)
  simp only [Prod.mk.injEq] at e7 e8
  have stI : (g.ILStep : ℝ) ≠ 0 := by exact_mod_cast h.il.1.ne'
  have stX : (g.XLStep : ℝ) ≠ 0 := by exact_mod_cast h.xl.1.ne'
  refine ⟨r, ?_, e3, e4, e5, e6, e7.1, e8.1, ?_, ?_⟩
  · unfold subGeometry
    simp only [Res.monad_bind_eq]
    rw [checks h.il pI rI, Res.bind_ok, checks h.xl pX rX, Res.bind_ok, eI, Res.bind_ok, eX, Res.bind_ok]
    simp only [Bool.or_self, Bool.false_eq_true, if_false]
    rw [i1, Res.bind_ok, x1, Res.bind_ok, i2, Res.bind_ok, x2, Res.bind_ok, i3, Res.bind_ok, x3, Res.bind_ok,
      divD_eq stI, Res.bind_ok, divD_eq stX, Res.bind_ok, corner (n' := nI) h.il, corner (n' := nX) h.xl, e1, Res.bind_ok, e2,
      Res.bind_ok]
  · rw [e7.2.1, e7.2.2]; exact i4
  · rw [e8.2.1, e8.2.2]; exact x4

/-- The part of the cube of `segy_example` with the in-lines from 1000 down to 994 in steps of 6 and all cross-lines. -/
theorem segy_part_example : ∃ g r, ofLines 100 200 12.5 25 3 4 1001 498.5 0 (-0.08) 0.24 0 0 = .ok g ∧
    g.subGeometry (994, 1000) (501, 506) 6 (-1) = .ok (r, false) ∧ Spec.SegyGrid r (-1) 1 ∧ r.minIL = 994 ∧ r.maxIL = 1000 ∧
    r.maxXL = 506 := by
  obtain ⟨g, e, h, a1, a2, a3, a4, a5, a6, -⟩ := segy_example
  simp only [Prod.mk.injEq] at a4
  obtain ⟨b1, b2, b3, b4⟩ := a4
  obtain ⟨r, k1, k2, -, -, -, k6, k7, k8, k9⟩ := segy_part h a3 a5 a6 (a := 994) (b := 1000) (c := 501) (d := 506) (askI := 6)
    (askX := -1) (sI := 6) (sX := 3) (Or.inr ⟨rfl, 3, by norm_num, by rw [b3]; norm_num⟩)
    (Or.inl ⟨by norm_num, b4.symm⟩)
    ⟨by rw [a1], by rw [b1], Or.inl ⟨by rw [a1]; norm_num, by norm_num⟩⟩
    ⟨by rw [b2]; norm_num, by rw [a2], Or.inr (by rw [b4]; norm_num)⟩ (by omega) (by omega)
  refine ⟨g, r, e, k1, k2, ?_, ?_, ?_⟩
  · exact k8.2.2.2.2.2.2.2.2.1 (by rw [a1]; norm_num)
  · have := k8.2.2.2.2.2.2.2.2.1 (by rw [a1]; norm_num)
    exact k8.2.2.2.2.2.2.2.2.2 (by rw [this]; norm_num)
  · refine k9.2.2.2.2.2.2.2.2.2 ?_
    obtain ⟨m, hm⟩ := k9.1
    rw [b2, b4] at hm
    exact ⟨2 - m, by omega⟩

/-- **C142 violated (between lines).** If the first line asked for is not in the cube it may be moved up beyond the last
one, and the part has two lines that are both after those asked for. -/
theorem segy_between_violation {g : SegyGeometry} {σX : ℤ} (h : Spec.SegyGrid g 1 σX)
    (hr : g.cosRot = Real.cos g.rot ∧ g.sinRot = Real.sin g.rot)
    (h1 : tiny g.ilStepX g.xlStepX → g.ilStepX = 0) (h2 : tiny g.xlStepY g.ilStepY → g.xlStepY = 0)
    {c d : ℤ} (rX : Spec.RangeAsked σX c d g.minXL g.maxXL g.XLStep g.XLStep) (hstep : 2 ≤ g.ILStep)
    (h0 : 0 ≤ g.minIL ∧ 0 ≤ g.minXL) (h31 : g.maxIL + g.ILStep < 2 ^ 31 ∧ g.maxXL + g.XLStep < 2 ^ 31)
    (hmax : g.minIL + 2 * g.ILStep ≤ g.maxIL) :
    ∃ r, g.subGeometry (g.minIL + g.ILStep - 1, g.minIL + g.ILStep - 1) (c, d) (-1) (-1) = .ok (r, false) ∧
      r.minIL = g.minIL + g.ILStep ∧ r.maxIL = g.minIL + 2 * g.ILStep := by
  have hs : 0 < g.ILStep := by omega
  obtain ⟨eX, pX, -⟩ := subStep_eq h.xl.1 (Or.inl ⟨by norm_num, rfl⟩ : Spec.StepAsked (-1) g.XLStep g.XLStep)
  have eI : subStep (-1) g.ILStep = .ok (g.ILStep, false) := by rw [subStep, if_pos (by norm_num)]
  obtain ⟨cX, dX, nX, x1, x2, x3, x4, x5, x6, x7, x8⟩ := part_axis h.xl (Or.inl ⟨by norm_num, rfl⟩ :
    Spec.StepAsked (-1) g.XLStep g.XLStep) rX (by omega)
  have bX : ((nX : ℤ) - 1) * 1 ≤ ((nX : ℤ) - 1) * g.XLStep := mul_le_mul_of_nonneg_left (by omega) (by omega)
  have cX0 := x4.2.2.2.1
  have dX1 := x4.2.2.2.2.2.1
  have i1 : subFirst (g.minIL + g.ILStep - 1) g.minIL g.ILStep g.ILStep = .ok (g.minIL + g.ILStep) := by
    unfold subFirst
    simp only [Res.monad_bind_eq, modInt]
    rw [if_neg hs.ne', Res.bind_ok, Int.tmod_eq_emod_of_nonneg (by omega),
      Int.emod_eq_of_lt (by omega) (by omega), if_pos (by omega), if_pos]
    · exact congrArg Res.ok (by ring)
    · have : (1 : ℤ) ≤ g.ILStep.tdiv 2 := by
        rw [Int.tdiv_eq_ediv_of_nonneg (by omega)]
        omega
      omega
  have i2 : subLast (g.minIL + g.ILStep - 1) (g.minIL + g.ILStep) g.maxIL g.ILStep = .ok (g.minIL + 2 * g.ILStep) := by
    unfold subLast
    simp only [Res.monad_bind_eq, modInt]
    have t : (g.minIL + g.ILStep - 1 - (g.minIL + g.ILStep)).tmod g.ILStep = -1 := by
      rw [show g.minIL + g.ILStep - 1 - (g.minIL + g.ILStep) = -1 by ring, Int.neg_tmod,
        Int.tmod_eq_emod_of_nonneg (by omega), Int.emod_eq_of_lt (by omega) (by omega)]
    rw [if_neg hs.ne', Res.bind_ok, t, if_pos (by omega), if_neg (by omega)]
    exact congrArg Res.ok (by ring)
  have i3 : subCount (g.minIL + g.ILStep) (g.minIL + 2 * g.ILStep) g.ILStep = .ok 2 := by
    unfold subCount
    rw [show g.minIL + 2 * g.ILStep - (g.minIL + g.ILStep) = 1 * g.ILStep by ring, divInt_mul hs]
    rfl
  obtain ⟨p, r, e1, e2, e3, e4, e5, e6, e7, e8⟩ := part_grid h hr h1 h2 (cI := g.minIL + g.ILStep)
    (dI := g.minIL + 2 * g.ILStep) (nI := 2) ⟨hs, pX⟩ (by push_cast; ring) x5 ⟨by norm_num, x6⟩ (by omega)
    (by omega) x8 (by omega) (by omega)
  simp only [Prod.mk.injEq] at e7
  have stI : (g.ILStep : ℝ) ≠ 0 := by exact_mod_cast h.il.1.ne'
  have stX : (g.XLStep : ℝ) ≠ 0 := by exact_mod_cast h.xl.1.ne'
  refine ⟨r, ?_, e7.2⟩
  unfold subGeometry
  simp only [Res.monad_bind_eq]
  have ck : subCheck (g.minIL + g.ILStep - 1) (g.minIL + g.ILStep - 1) g.minIL g.maxIL = .ok () := by
    unfold subCheck
    rw [if_neg (by omega), if_neg (by omega), if_neg (by omega), if_neg (by omega)]
  rw [ck, Res.bind_ok, checks h.xl pX rX, Res.bind_ok, eI, Res.bind_ok, eX, Res.bind_ok]
  simp only [Bool.or_self, Bool.false_eq_true, if_false]
  rw [i1, Res.bind_ok, x1, Res.bind_ok, i2, Res.bind_ok, x2, Res.bind_ok, i3, Res.bind_ok, x3, Res.bind_ok,
    divD_eq stI, Res.bind_ok, divD_eq stX, Res.bind_ok, corner (n' := 2) h.il, corner (n' := nX) h.xl, e1, Res.bind_ok, e2,
    Res.bind_ok]

/-- **C142 violated (steps of 0).** A step of 0 is taken for a step between lines, and then divided by. -/
theorem segy_zero_step_violation {g : SegyGeometry} (hs : 0 < g.ILStep ∧ 0 < g.XLStep) {a b c d askX : ℤ} (hX : askX < 0)
    (hI : g.minIL ≤ a ∧ a ≤ g.maxIL ∧ g.minIL ≤ b ∧ b ≤ g.maxIL)
    (hXL : g.minXL ≤ c ∧ c ≤ g.maxXL ∧ g.minXL ≤ d ∧ d ≤ g.maxXL) :
    g.subGeometry (a, b) (c, d) 0 askX = .ub "division by zero" := by
  unfold subGeometry
  simp only [Res.monad_bind_eq]
  have c1 : subCheck a b g.minIL g.maxIL = .ok () := by
    unfold subCheck
    rw [if_neg (by omega), if_neg (by omega), if_neg (by omega), if_neg (by omega)]
  have c2 : subCheck c d g.minXL g.maxXL = .ok () := by
    unfold subCheck
    rw [if_neg (by omega), if_neg (by omega), if_neg (by omega), if_neg (by omega)]
  have s1 : subStep 0 g.ILStep = .ok (0, true) := by rw [subStep, if_neg (by omega), if_pos hs.1]
  have s2 : subStep askX g.XLStep = .ok (g.XLStep, false) := by rw [subStep, if_pos hX]
  rw [c1, Res.bind_ok, c2, Res.bind_ok, s1, Res.bind_ok, s2, Res.bind_ok]
  simp only [Bool.or_false, if_true]
  rw [Res.bind_ok, Res.bind_ok]
  have : subLast b a g.maxIL 0 = .ub "division by zero" := by
    unfold subLast modInt
    rfl
  rw [this]
  rfl

end SegyGeometry
end Verif
