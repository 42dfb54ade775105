import Verif.Lemmas.TrendKit

/-!
# C150: interpolation between the numbers of a trend
-/

namespace Verif

open Classical

namespace TrendKit

theorem grid_first {g : List ℝ} {a h : ℝ} (hg : IsGrid g a h) (hn : 0 < g.length) : g[0] = a := by
  rw [hg]; simp

theorem grid_scale {g : List ℝ} {a h : ℝ} (hg : IsGrid g a h) (hn : 2 ≤ g.length) : g[1] - g[0] = h := by
  rw [hg, hg]; simp

theorem linearAll_spec {g y : List ℝ} {low upp scale : ℝ} (P : ℝ → ℝ → Prop) (h : ∀ p, ∃ v, linearAt g y low upp scale p = .ok v ∧ P p v) :
    ∀ xs : List ℝ, ∃ vs, linearAll g y low upp scale xs = .ok vs ∧ List.Forall₂ P xs vs
  | [] => ⟨[], rfl, .nil⟩
  | p :: xs => by
    obtain ⟨v, e, hv⟩ := h p
    obtain ⟨vs, e', hvs⟩ := linearAll_spec P h xs
    refine ⟨v :: vs, ?_, .cons hv hvs⟩
    unfold linearAll
    rw [e, Res.monad_bind_eq, Res.bind_ok, e']
    rfl

end TrendKit

open TrendKit

/-- **C150 (interpolation).** On a regular grid every place gets a number. It is missing outside the grid, the first or last number
within `1e-5` of an end, and between these the number of the straight line through the neighbours. -/
theorem trend_linear {g y : List ℝ} {a h : ℝ} (hg : IsGrid g a h) (hh : 0 < h) (hn : 2 ≤ g.length) (hn' : g.length ≤ 2 ^ 64)
    (hy : y.length = g.length) (xs : List ℝ) :
    ∃ vs, linearInterpolation g y xs = .ok vs ∧ List.Forall₂ (fun p v =>
      (p ≤ g[0] - 1e-5 ∨ g[g.length - 1] + 1e-5 ≤ p → v = missing) ∧
      (g[0] - 1e-5 < p → p < g[0] + 1e-5 → p < g[g.length - 1] + 1e-5 → v = y[0]) ∧
      (g[0] + 1e-5 ≤ p → g[g.length - 1] - 1e-5 < p → p < g[g.length - 1] + 1e-5 → v = y[y.length - 1]) ∧
      (g[0] + 1e-5 ≤ p → p ≤ g[g.length - 1] - 1e-5 → ∀ k (hk : k + 1 < g.length), g[k] ≤ p → p < g[k + 1] →
        v = y[k] + (y[k + 1] - y[k]) * ((p - g[k]) / (g[k + 1] - g[k])))) xs vs := by
  unfold linearInterpolation
  rw [rd_ok (show 0 < g.length by omega), Res.monad_bind_eq, Res.bind_ok, rd_ok (show g.length - 1 < g.length by omega),
    Res.monad_bind_eq, Res.bind_ok, rd_ok (show 1 < g.length by omega), Res.monad_bind_eq, Res.bind_ok, grid_scale hg hn,
    fdiv_ok hh.ne', Res.monad_bind_eq, Res.bind_ok]
  refine linearAll_spec _ (fun p => ?_) xs
  unfold linearAt
  by_cases ho : g[0] - 1e-5 < p ∧ p < g[g.length - 1] + 1e-5
  · rw [if_pos ho]
    have out : ∀ {v : ℝ}, (p ≤ g[0] - 1e-5 ∨ g[g.length - 1] + 1e-5 ≤ p → v = missing) := fun hc => by
      rcases hc with hc | hc
      · linarith [ho.1]
      · linarith [ho.2]
    by_cases hl : p < g[0] + 1e-5
    · rw [if_pos hl, rd_ok (show 0 < y.length by omega)]
      exact ⟨_, rfl, out, fun _ _ _ => rfl, fun hc => absurd hl (not_lt.2 hc), fun hc => absurd hl (not_lt.2 hc)⟩
    · rw [if_neg hl]
      by_cases hu : p > g[g.length - 1] - 1e-5
      · rw [if_pos hu, rd_ok (show y.length - 1 < y.length by omega)]
        exact ⟨_, rfl, out, fun _ hc => absurd hc hl, fun _ _ _ => rfl, fun _ hc => absurd hu (not_lt.2 hc)⟩
      · rw [if_neg hu]
        have hl' : a + 1e-5 ≤ p := by rw [← grid_first hg (by omega)]; exact not_lt.1 hl
        have hu' : p ≤ a + (g.length - 1 : ℕ) * h - 1e-5 := by
          rw [← hg (g.length - 1) (by omega)]; exact not_lt.1 hu
        obtain ⟨k, hk, k1, k2⟩ := exists_cell hg hh hn (x := p) (by linarith) (by linarith)
        have cell : ∀ m (hm : m + 1 < g.length), g[m] ≤ p → p < g[m + 1] → floorSize ((p - g[0]) * (1 / h)) = .ok m := by
          intro m hm m1 m2
          rw [grid_first hg (by omega)]
          rw [hg] at m1 m2
          exact floorSize_ok hh (by omega) m1 m2
        have kw : hat p g[k] (1 / h) = 1 - (p - g[k]) / h :=
          hat_ok hh k1 (by rw [hg] at k2 ⊢; push_cast at k2; linarith)
        rw [cell k hk k1 k2, Res.monad_bind_eq, Res.bind_ok, rd_ok (show k < g.length by omega), Res.monad_bind_eq, Res.bind_ok,
          rd_ok (show k < y.length by omega), Res.monad_bind_eq, Res.bind_ok, rd_ok (show k + 1 < y.length by omega), Res.monad_bind_eq,
          Res.bind_ok, kw]
        refine ⟨_, rfl, out, fun _ hc => absurd hc hl, fun _ hc => absurd hc hu, fun _ _ m hm m1 m2 => ?_⟩
        have : m = k := by
          have := (cell m hm m1 m2).symm.trans (cell k hk k1 k2)
          injection this
        subst this
        have e : g[m + 1] - g[m] = h := by rw [hg, hg]; push_cast; ring
        rw [e]
        ring
  · rw [if_neg ho]
    refine ⟨_, rfl, fun _ => rfl, fun h1 _ h2 => absurd ⟨h1, h2⟩ ho, fun h1 h2 h3 => absurd ⟨by linarith, h3⟩ ho,
      fun h1 h2 => absurd ⟨by linarith, by linarith⟩ ho⟩

/-- **C150 (violation, missing numbers).** A missing neighbour is used as if it were a number. -/
theorem trend_linear_violation : linearInterpolation [0, 1] [missing, 1] [1 / 2] = .ok [-49999] := by
  have hg : IsGrid [(0 : ℝ), 1] 0 1 := by
    intro k hk
    simp only [List.length_cons, List.length_nil] at hk
    have : k = 0 ∨ k = 1 := by omega
    rcases this with rfl | rfl <;> simp
  obtain ⟨vs, e, hv⟩ := trend_linear hg one_pos (by simp) (by norm_num) (y := [missing, 1]) (by simp) [1 / 2]
  rw [e]
  cases hv with
  | cons h1 h2 =>
    cases h2
    have := h1.2.2.2 (by norm_num) (by norm_num) 0 (by simp) (by norm_num) (by norm_num)
    rw [this]
    norm_num [missing]

namespace TrendKit

theorem cellAt_spec {g : List ℝ} {a h : ℝ} (hg : IsGrid g a h) (hh : 0 < h) (hn : 2 ≤ g.length) (hn' : g.length ≤ 2 ^ 64) (p : ℝ) :
    ∃ c, cellAt g.length g[0] g[g.length - 1] h (1 / h) p = .ok c ∧ c.1 + 1 < g.length ∧ 0 ≤ c.2 ∧ c.2 ≤ 1 ∧
      (g[0] + 1e-5 ≤ p → p ≤ g[g.length - 1] - 1e-5 → ∀ k (hk : k + 1 < g.length), g[k] ≤ p → p < g[k + 1] →
        c = (k, (p - g[k]) / (g[k + 1] - g[k]))) := by
  unfold cellAt
  by_cases hl : p < g[0] + 1e-5
  · rw [if_pos hl]
    exact ⟨_, rfl, by simp only; omega, le_refl _, zero_le_one, fun hc => absurd hl (not_lt.2 hc)⟩
  · rw [if_neg hl]
    by_cases hu : p > g[g.length - 1] - 1e-5
    · rw [if_pos hu]
      exact ⟨_, rfl, by simp only; omega, zero_le_one, le_refl _, fun _ hc => absurd hu (not_lt.2 hc)⟩
    · rw [if_neg hu]
      have hl' : a + 1e-5 ≤ p := by rw [← grid_first hg (by omega)]; exact not_lt.1 hl
      have hu' : p ≤ a + (g.length - 1 : ℕ) * h - 1e-5 := by
        rw [← hg (g.length - 1) (by omega)]; exact not_lt.1 hu
      obtain ⟨k, hk, k1, k2⟩ := exists_cell hg hh hn (x := p) (by linarith) (by linarith)
      have cell : ∀ m (hm : m + 1 < g.length), g[m] ≤ p → p < g[m + 1] → floorSize ((p - g[0]) * (1 / h)) = .ok m := by
        intro m hm m1 m2
        rw [grid_first hg (by omega)]
        rw [hg] at m1 m2
        exact floorSize_ok hh (by omega) m1 m2
      have w : ∀ m (hm : m + 1 < g.length), (p - g[0] - m * h) * (1 / h) = (p - g[m]) / (g[m + 1] - g[m]) := by
        intro m hm
        rw [hg, hg, hg]
        push_cast
        rw [show a + (↑m + 1) * h - (a + ↑m * h) = h by ring]
        ring
      rw [cell k hk k1 k2, Res.monad_bind_eq, Res.bind_ok, w k hk]
      have hd : 0 < g[k + 1] - g[k] := by linarith
      refine ⟨_, rfl, hk, div_nonneg (by linarith) hd.le, by rw [div_le_one hd]; linarith, fun _ _ m hm m1 m2 => ?_⟩
      have : m = k := by
        have := (cell m hm m1 m2).symm.trans (cell k hk k1 k2)
        injection this
      subst this
      rfl

theorem rd2_ok {z : List (List ℝ)} {f : ℕ → ℕ → ℝ} {n m : ℕ} (hz : ∀ k l, k < n → l < m → ∃ row, z[k]? = some row ∧ row[l]? = some (f k l))
    {k l : ℕ} (hk : k < n) (hl : l < m) : rd2 z k l = .ok (f k l) := by
  obtain ⟨row, e, e'⟩ := hz k l hk hl
  unfold rd2
  rw [rd_eq_ok.2 e, Res.monad_bind_eq, Res.bind_ok, rd_eq_ok.2 e']

/-- The bilinear combination of four numbers. -/
def bilinear (v00 v10 v01 v11 s t : ℝ) : ℝ := (v00 * (1 - s) + v10 * s) * (1 - t) + (v01 * (1 - s) + v11 * s) * t

theorem bilinear_bounds {v00 v10 v01 v11 s t lo hi : ℝ} (hs : 0 ≤ s) (hs' : s ≤ 1) (ht : 0 ≤ t) (ht' : t ≤ 1)
    (h00 : lo ≤ v00 ∧ v00 ≤ hi) (h10 : lo ≤ v10 ∧ v10 ≤ hi) (h01 : lo ≤ v01 ∧ v01 ≤ hi) (h11 : lo ≤ v11 ∧ v11 ≤ hi) :
    lo ≤ bilinear v00 v10 v01 v11 s t ∧ bilinear v00 v10 v01 v11 s t ≤ hi := by
  have line : ∀ {u v w : ℝ}, 0 ≤ w → w ≤ 1 → (lo ≤ u ∧ u ≤ hi) → (lo ≤ v ∧ v ≤ hi) → lo ≤ u * (1 - w) + v * w ∧ u * (1 - w) + v * w ≤ hi := by
    intro u v w h0 h1 hu hv
    constructor <;> nlinarith [mul_nonneg h0 (sub_nonneg.2 hv.1), mul_nonneg h0 (sub_nonneg.2 hv.2),
      mul_nonneg (sub_nonneg.2 h1) (sub_nonneg.2 hu.1), mul_nonneg (sub_nonneg.2 h1) (sub_nonneg.2 hu.2)]
  exact line ht ht' (line hs hs' h00 h10) (line hs hs' h01 h11)

end TrendKit

/-- **C150 (two dimensions).** On regular grids every place gets a number: missing outside; inside, if no number is missing, one between
the least and the greatest number of the grid; and the bilinear combination of the corners of its cell, or missing if one of them is, if
the place is at least `1e-5` from the ends. -/
theorem trend_bilinear {x y : List ℝ} {z : List (List ℝ)} {f : ℕ → ℕ → ℝ} {a h b d : ℝ} (hx : IsGrid x a h) (hh : 0 < h)
    (hn : 2 ≤ x.length) (hn' : x.length ≤ 2 ^ 64) (hy : IsGrid y b d) (hd : 0 < d) (hm : 2 ≤ y.length) (hm' : y.length ≤ 2 ^ 64)
    (hz : ∀ k l, k < x.length → l < y.length → ∃ row, z[k]? = some row ∧ row[l]? = some (f k l)) (p q : ℝ) :
    ∃ v, interpolate x y z p q = .ok v ∧
      (p ≤ x[0] - 1e-5 ∨ x[x.length - 1] + 1e-5 ≤ p ∨ q ≤ y[0] - 1e-5 ∨ y[y.length - 1] + 1e-5 ≤ q → v = missing) ∧
      (x[0] - 1e-5 < p → p < x[x.length - 1] + 1e-5 → y[0] - 1e-5 < q → q < y[y.length - 1] + 1e-5 → ∀ lo hi : ℝ,
        (∀ k l, k < x.length → l < y.length → f k l ≠ missing ∧ lo ≤ f k l ∧ f k l ≤ hi) → lo ≤ v ∧ v ≤ hi) ∧
      (x[0] + 1e-5 ≤ p → p ≤ x[x.length - 1] - 1e-5 → y[0] + 1e-5 ≤ q → q ≤ y[y.length - 1] - 1e-5 →
        ∀ k (hk : k + 1 < x.length), x[k] ≤ p → p < x[k + 1] → ∀ l (hl : l + 1 < y.length), y[l] ≤ q → q < y[l + 1] →
        ((f k l = missing ∨ f (k + 1) l = missing ∨ f k (l + 1) = missing ∨ f (k + 1) (l + 1) = missing) → v = missing) ∧
        (f k l ≠ missing → f (k + 1) l ≠ missing → f k (l + 1) ≠ missing → f (k + 1) (l + 1) ≠ missing →
          v = bilinear (f k l) (f (k + 1) l) (f k (l + 1)) (f (k + 1) (l + 1)) ((p - x[k]) / (x[k + 1] - x[k]))
            ((q - y[l]) / (y[l + 1] - y[l])))) := by
  unfold interpolate
  rw [rd_ok (show 0 < x.length by omega), Res.monad_bind_eq, Res.bind_ok, rd_ok (show x.length - 1 < x.length by omega),
    Res.monad_bind_eq, Res.bind_ok, rd_ok (show 1 < x.length by omega), Res.monad_bind_eq, Res.bind_ok, grid_scale hx hn,
    fdiv_ok hh.ne', Res.monad_bind_eq, Res.bind_ok,
    rd_ok (show 0 < y.length by omega), Res.monad_bind_eq, Res.bind_ok, rd_ok (show y.length - 1 < y.length by omega),
    Res.monad_bind_eq, Res.bind_ok, rd_ok (show 1 < y.length by omega), Res.monad_bind_eq, Res.bind_ok, grid_scale hy hm,
    fdiv_ok hd.ne', Res.monad_bind_eq, Res.bind_ok]
  by_cases ho : x[0] - 1e-5 < p ∧ p < x[x.length - 1] + 1e-5 ∧ y[0] - 1e-5 < q ∧ q < y[y.length - 1] + 1e-5
  · obtain ⟨⟨k, s⟩, e, hk, s0, s1, hc⟩ := cellAt_spec hx hh hn hn' p
    obtain ⟨⟨l, t⟩, e', hl, t0, t1, hc'⟩ := cellAt_spec hy hd hm hm' q
    simp only at hk s0 s1 hl t0 t1
    rw [if_pos ho, e, Res.monad_bind_eq, Res.bind_ok, e', Res.monad_bind_eq, Res.bind_ok,
      rd2_ok hz (show k < x.length by omega) (show l < y.length by omega), Res.monad_bind_eq, Res.bind_ok,
      rd2_ok hz (show k + 1 < x.length by omega) (show l < y.length by omega), Res.monad_bind_eq, Res.bind_ok,
      rd2_ok hz (show k < x.length by omega) (show l + 1 < y.length by omega), Res.monad_bind_eq, Res.bind_ok,
      rd2_ok hz (show k + 1 < x.length by omega) (show l + 1 < y.length by omega), Res.monad_bind_eq, Res.bind_ok]
    have out : ∀ {v : ℝ}, (p ≤ x[0] - 1e-5 ∨ x[x.length - 1] + 1e-5 ≤ p ∨ q ≤ y[0] - 1e-5 ∨ y[y.length - 1] + 1e-5 ≤ q → v = missing) := by
      intro v hc
      obtain ⟨o1, o2, o3, o4⟩ := ho
      rcases hc with hc | hc | hc | hc <;> linarith
    by_cases hv : f k l ≠ missing ∧ f (k + 1) l ≠ missing ∧ f k (l + 1) ≠ missing ∧ f (k + 1) (l + 1) ≠ missing
    · rw [if_pos hv]
      have eb : f k l * (1 - s) * (1 - t) + f (k + 1) l * s * (1 - t) + f k (l + 1) * (1 - s) * t + f (k + 1) (l + 1) * s * t =
          bilinear (f k l) (f (k + 1) l) (f k (l + 1)) (f (k + 1) (l + 1)) s t := by unfold bilinear; ring
      refine ⟨_, rfl, out, ?_, ?_⟩
      · intro _ _ _ _ lo hi hb
        simp only [eb]
        exact bilinear_bounds s0 s1 t0 t1 (hb k l (by omega) (by omega)).2 (hb (k + 1) l (by omega) (by omega)).2
          (hb k (l + 1) (by omega) (by omega)).2 (hb (k + 1) (l + 1) (by omega) (by omega)).2
      · intro i1 i2 i3 i4 k' hk' k1 k2 l' hl' l1 l2
        have ek := hc i1 i2 k' hk' k1 k2
        have el := hc' i3 i4 l' hl' l1 l2
        simp only [Prod.mk.injEq] at ek el
        obtain ⟨rfl, rfl⟩ := ek
        obtain ⟨rfl, rfl⟩ := el
        refine ⟨fun hc => ?_, fun _ _ _ _ => eb⟩
        rcases hc with hc | hc | hc | hc
        · exact absurd hc hv.1
        · exact absurd hc hv.2.1
        · exact absurd hc hv.2.2.1
        · exact absurd hc hv.2.2.2
    · rw [if_neg hv]
      refine ⟨_, rfl, out, ?_, ?_⟩
      · intro _ _ _ _ lo hi hb
        exact absurd ⟨(hb k l (by omega) (by omega)).1, (hb (k + 1) l (by omega) (by omega)).1,
          (hb k (l + 1) (by omega) (by omega)).1, (hb (k + 1) (l + 1) (by omega) (by omega)).1⟩ hv
      · intro i1 i2 i3 i4 k' hk' k1 k2 l' hl' l1 l2
        have ek := hc i1 i2 k' hk' k1 k2
        have el := hc' i3 i4 l' hl' l1 l2
        simp only [Prod.mk.injEq] at ek el
        obtain ⟨rfl, -⟩ := ek
        obtain ⟨rfl, -⟩ := el
        exact ⟨fun _ => rfl, fun h1 h2 h3 h4 => absurd ⟨h1, h2, h3, h4⟩ hv⟩
  · rw [if_neg ho]
    exact ⟨_, rfl, fun _ => rfl, fun h1 h2 h3 h4 => absurd ⟨h1, h2, h3, h4⟩ ho,
      fun h1 h2 h3 h4 => absurd ⟨by linarith, by linarith, by linarith, by linarith⟩ ho⟩

/-- A grid with two by two numbers meets the hypotheses. -/
theorem trend_bilinear_example : ∃ v, interpolate [0, 1] [0, 1] [[0, 2], [4, 8]] (1 / 2) (1 / 2) = .ok v ∧ v = 7 / 2 := by
  have hg : IsGrid [(0 : ℝ), 1] 0 1 := by
    intro k hk
    simp only [List.length_cons, List.length_nil] at hk
    have : k = 0 ∨ k = 1 := by omega
    rcases this with rfl | rfl <;> simp
  obtain ⟨v, e, -, -, hv⟩ := trend_bilinear (f := fun k l => if k = 0 then (if l = 0 then 0 else 2) else if l = 0 then 4 else 8) hg one_pos
    (by simp) (by norm_num) hg one_pos (by simp) (by norm_num) (z := [[0, 2], [4, 8]]) (by
      intro k l hk hl
      simp only [List.length_cons, List.length_nil] at hk hl
      have h1 : k = 0 ∨ k = 1 := by omega
      have h2 : l = 0 ∨ l = 1 := by omega
      rcases h1 with rfl | rfl <;> rcases h2 with rfl | rfl <;> simp) (1 / 2) (1 / 2)
  refine ⟨v, e, ?_⟩
  have := (hv (by norm_num) (by norm_num) (by norm_num) (by norm_num) 0 (by simp) (by norm_num) (by norm_num) 0 (by simp) (by norm_num)
    (by norm_num)).2 (by norm_num [missing]) (by norm_num [missing]) (by norm_num [missing]) (by norm_num [missing])
  rw [this]
  norm_num [bilinear]

namespace TrendKit

/-- The straight line through two points. -/
noncomputable def line (xi xi1 fxi fxi1 p : ℝ) : ℝ := fxi + (fxi1 - fxi) * ((p - xi) / (xi1 - xi))

theorem interpolate1D_ok {xi xi1 : ℝ} (h : xi < xi1) (fxi fxi1 p : ℝ) : interpolate1D xi xi1 fxi fxi1 p = .ok (line xi xi1 fxi fxi1 p) := by
  unfold interpolate1D line
  rw [fdiv_ok (show xi - xi1 ≠ 0 from fun hc => by linarith), Res.monad_bind_eq, Res.bind_ok]
  have h1 : xi1 - xi ≠ 0 := by intro hc; linarith
  have h2 : xi - xi1 ≠ 0 := by intro hc; linarith
  congr 1
  field_simp
  ring

theorem resampleIn_spec {y : List ℝ} (hs : y.Pairwise (· ≤ ·)) {xi xi1 : ℝ} (hx : xi < xi1) (fxi fxi1 : ℝ) :
    ∀ (n j : ℕ) (fy : List ℝ), y.length - j ≤ n → fy.length = y.length → (∀ k (hk : k < y.length), j ≤ k → xi ≤ y[k]) →
    ∃ j' fy', resampleIn xi xi1 fxi fxi1 y n (j, fy) = .ok (j', fy') ∧ j ≤ j' ∧ fy'.length = y.length ∧
      (∀ k (hk : k < y.length), j' ≤ k → xi1 ≤ y[k]) ∧
      (∀ k (hk : k < y.length) (hf : k < fy'.length), j ≤ k → k < j' → y[k] < xi1 ∧ fy'[k] = line xi xi1 fxi fxi1 y[k]) ∧
      (∀ k, k < j ∨ j' ≤ k → fy'[k]? = fy[k]?)
  | 0, j, fy, hn, hl, _ => ⟨j, fy, rfl, le_refl _, hl, fun k hk h => absurd hk (by omega), fun k _ _ h h' => absurd h' (by omega), fun _ _ => rfl⟩
  | n + 1, j, fy, hn, hl, hge => by
    unfold resampleIn
    by_cases hj : j < y.length
    · rw [dif_pos hj]
      by_cases hc : y[j] ≥ xi ∧ y[j] < xi1
      · rw [if_pos hc, interpolate1D_ok hx, Res.monad_bind_eq, Res.bind_ok, wr_ok (by omega), Res.monad_bind_eq, Res.bind_ok]
        obtain ⟨j', fy', e, h1, h2, h3, h4, h5⟩ := resampleIn_spec hs hx fxi fxi1 n (j + 1) (fy.set j (line xi xi1 fxi fxi1 y[j]))
          (by omega) (by rw [List.length_set, hl]) (fun k hk h => hge k hk (by omega))
        refine ⟨j', fy', e, by omega, h2, h3, ?_, ?_⟩
        · intro k hk hf hjk hkj
          rcases Nat.eq_or_lt_of_le hjk with rfl | hlt
          · refine ⟨hc.2, ?_⟩
            have := h5 j (.inl (by omega))
            rw [List.getElem?_eq_getElem hf, List.getElem?_set_self (by omega)] at this
            exact Option.some.inj this
          · exact h4 k hk hf hlt hkj
        · intro k hk
          rw [h5 k (by omega), List.getElem?_set_ne (by omega)]
      · rw [if_neg hc]
        refine ⟨j, fy, rfl, le_refl _, hl, fun k hk h => ?_, fun k _ _ h h' => absurd h' (by omega), fun _ _ => rfl⟩
        have h1 : xi1 ≤ y[j] := by
          by_contra hlt
          exact hc ⟨hge j hj (le_refl _), not_le.1 hlt⟩
        rcases Nat.eq_or_lt_of_le h with rfl | hlt
        · exact h1
        · exact h1.trans (List.pairwise_iff_getElem.1 hs j k hj hk hlt)
    · rw [dif_neg hj]
      exact ⟨j, fy, rfl, le_refl _, hl, fun k hk h => absurd hk (by omega), fun k _ _ h h' => absurd h' (by omega), fun _ _ => rfl⟩

end TrendKit

/-- **C150 (resampling).** If the places of the trend increase, and the new places are sorted and none is before the first, every new
place before the last one gets the number of the straight line through its neighbours, and the others keep the number they had. -/
theorem trend_resample {x fx y fy : List ℝ} (hx : x.Pairwise (· < ·)) (hn : 0 < x.length) (hf : fx.length = x.length)
    (hy : y.Pairwise (· ≤ ·)) (hfy : fy.length = y.length) (hge : ∀ k (hk : k < y.length), x[0] ≤ y[k]) :
    ∃ r, resample x fx y fy = .ok r ∧ ∃ hr : r.length = y.length,
      (∀ k (hk : k < y.length) m (hm : m + 1 < x.length), x[m] ≤ y[k] → y[k] < x[m + 1] →
        r[k] = line x[m] x[m + 1] fx[m] fx[m + 1] y[k]) ∧
      ∀ k (hk : k < y.length), x[x.length - 1] ≤ y[k] → r[k] = fy[k] := by
  have lt : ∀ {i j : ℕ} (hij : i < j) (hj : j < x.length), x[i]'(hij.trans hj) < x[j] := fun hij hj =>
    List.pairwise_iff_getElem.1 hx _ _ _ hj hij
  have le : ∀ {i j : ℕ} (hij : i ≤ j) (hj : j < x.length), x[i]'(lt_of_le_of_lt hij hj) ≤ x[j] := fun {i j} hij hj => by
    rcases Nat.eq_or_lt_of_le hij with rfl | h
    · exact le_refl _
    · exact (lt h hj).le
  unfold resample
  obtain ⟨⟨j, r⟩, e, hl, h1, h2, h3⟩ := forRange_sat (lo := 0) (hi := x.length - 1)
    (fun i (s : ℕ × List ℝ) => s.2.length = y.length ∧ (∀ k (hk : k < y.length) (hi : i < x.length), s.1 ≤ k → x[i] ≤ y[k]) ∧
      (∀ k (hk : k < y.length) (hi : i < x.length) (hr : k < s.2.length), k < s.1 → y[k] < x[i] ∧
        ∀ m (hm : m + 1 < x.length), x[m] ≤ y[k] → y[k] < x[m + 1] → s.2[k] = line x[m] x[m + 1] fx[m] fx[m + 1] y[k]) ∧
      ∀ k, s.1 ≤ k → s.2[k]? = fy[k]?) (by omega) (body := resampleAt x fx y) (s := (0, fy))
    ⟨hfy, fun k hk _ _ => hge k hk, fun k _ _ _ h => absurd h (by simp), fun _ _ => rfl⟩ (by
      rintro i ⟨j, r⟩ _ hi ⟨hl, h1, h2, h3⟩
      simp only at hl h1 h2 h3
      unfold resampleAt
      rw [rd_ok (show i < x.length by omega), Res.monad_bind_eq, Res.bind_ok, rd_ok (show i + 1 < x.length by omega), Res.monad_bind_eq,
        Res.bind_ok, rd_ok (show i < fx.length by omega), Res.monad_bind_eq, Res.bind_ok, rd_ok (show i + 1 < fx.length by omega),
        Res.monad_bind_eq, Res.bind_ok]
      obtain ⟨j', r', e, g1, g2, g3, g4, g5⟩ := resampleIn_spec hy (lt (Nat.lt_succ_self i) (by omega : i + 1 < x.length)) fx[i] fx[i + 1]
        (y.length - j) j r (le_refl _) hl (fun k hk h => h1 k hk (by omega) h)
      refine ⟨(j', r'), e, g2, fun k hk _ h => g3 k hk h, ?_, fun k hk => ?_⟩
      · intro k hk hi' hr hkj
        simp only at hr hkj
        by_cases hjk : j ≤ k
        · obtain ⟨q1, q2⟩ := g4 k hk hr hjk hkj
          refine ⟨q1, fun m hm m1 m2 => ?_⟩
          have hk1 := h1 k hk (by omega) hjk
          have : m = i := by
            by_contra hne
            rcases Nat.lt_or_gt_of_ne hne with hlt | hgt
            · have := le (show m + 1 ≤ i by omega) (by omega); linarith
            · have := le (show i + 1 ≤ m by omega) (by omega); linarith
          subst this
          exact q2
        · obtain ⟨q1, q2⟩ := h2 k hk (by omega) (by omega) (by omega)
          refine ⟨q1.trans (lt (Nat.lt_succ_self i) (by omega)), fun m hm m1 m2 => ?_⟩
          have := g5 k (.inl (by omega))
          rw [List.getElem?_eq_getElem hr, List.getElem?_eq_getElem (by omega)] at this
          simp only
          rw [Option.some.inj this]
          exact q2 m hm m1 m2
      · simp only at hk ⊢
        rw [g5 k (.inr hk)]
        exact h3 k (by omega))
  simp only at hl h1 h2 h3
  rw [e, Res.monad_bind_eq, Res.bind_ok]
  refine ⟨r, rfl, hl, ?_, ?_⟩
  · intro k hk m hm m1 m2
    refine (h2 k hk (by omega) (by omega) ?_).2 m hm m1 m2
    by_contra hc
    have := h1 k hk (by omega) (not_lt.1 hc)
    have := le (show m + 1 ≤ x.length - 1 by omega) (by omega)
    linarith
  · intro k hk hkx
    have hj : j ≤ k := by
      by_contra hc
      have := (h2 k hk (by omega) (by omega) (not_le.1 hc)).1
      linarith
    have := h3 k hj
    rw [List.getElem?_eq_getElem (by omega), List.getElem?_eq_getElem (by omega)] at this
    exact Option.some.inj this

/-- **C150 (violation, resampling).** The last place of the trend gets no number. -/
theorem trend_resample_violation : ∃ r, resample [0, 1] [5, 7] [1 / 2, 1] [missing, missing] = .ok r ∧ r = [6, missing] := by
  obtain ⟨r, e, hr, h1, h2⟩ := trend_resample (x := [0, 1]) (fx := [5, 7]) (y := [1 / 2, 1]) (fy := [missing, missing]) (by norm_num)
    (by simp) (by simp) (by norm_num) (by simp) (by
      intro k hk
      simp only [List.length_cons, List.length_nil] at hk
      have : k = 0 ∨ k = 1 := by omega
      rcases this with rfl | rfl <;> norm_num)
  refine ⟨r, e, ?_⟩
  have q1 := h1 0 (by simp) 0 (by simp) (by norm_num) (by norm_num)
  have q2 := h2 1 (by simp) (by norm_num)
  simp only [List.length_cons, List.length_nil] at hr
  match r, hr with
  | [u, v], _ =>
    simp only [List.getElem_cons_zero, List.getElem_cons_succ] at q1 q2
    rw [q1, q2]
    norm_num [line]

/-- **C150 (violation, resampling).** If one new place is before the trend, no place gets a number. -/
theorem trend_resample_before {x fx y fy : List ℝ} (hx : x.Pairwise (· < ·)) (hn : 0 < x.length) (hf : fx.length = x.length)
    (hy : 0 < y.length) (hlt : y[0] < x[0]) : resample x fx y fy = .ok fy := by
  unfold resample
  obtain ⟨s, e, hs⟩ := forRange_sat (lo := 0) (hi := x.length - 1) (fun _ (s : ℕ × List ℝ) => s = (0, fy)) (by omega)
    (body := resampleAt x fx y) (s := (0, fy)) rfl (by
      rintro i s _ hi rfl
      unfold resampleAt
      rw [rd_ok (show i < x.length by omega), Res.monad_bind_eq, Res.bind_ok, rd_ok (show i + 1 < x.length by omega), Res.monad_bind_eq,
        Res.bind_ok, rd_ok (show i < fx.length by omega), Res.monad_bind_eq, Res.bind_ok, rd_ok (show i + 1 < fx.length by omega),
        Res.monad_bind_eq, Res.bind_ok]
      refine ⟨_, ?_, rfl⟩
      obtain ⟨n, hn'⟩ : ∃ n, y.length - (0, fy).1 = n + 1 := ⟨y.length - 1, by simp only; omega⟩
      rw [hn']
      unfold resampleIn
      rw [dif_pos hy, if_neg]
      rintro ⟨h1, -⟩
      have : x[0] ≤ x[i] := by
        rcases Nat.eq_zero_or_pos i with h | h
        · simp only [h]; exact le_refl _
        · exact (List.pairwise_iff_getElem.1 hx 0 i hn (by omega) h).le
      linarith)
  rw [e, Res.monad_bind_eq, Res.bind_ok, hs]

/-- Places that meet the hypotheses. -/
theorem trend_resample_before_example : resample [0, 1] [5, 7] [-1, 1 / 2] [missing, missing] = .ok [missing, missing] :=
  trend_resample_before (by norm_num) (by simp) (by simp) (by simp) (by norm_num)

end Verif
