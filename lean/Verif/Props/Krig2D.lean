import Verif.Lemmas.Krig2DBlocks
import Verif.Lemmas.Gauss2
import Verif.Props.CovLookup
import Verif.Props.Variogram
import Mathlib.Probability.ProbabilityMassFunction.Integrals
import Mathlib.Probability.Distributions.Uniform
import Mathlib.Tactic.IntervalCases

/-!
# C94: kriging in two dimensions, from data at nodes, all at once

The grid holds the trend `T`, the data are inside the grid at different nodes, and the covariances come from a table
for a grid at least as large. `sort` is the order in which the blocks are taken.
-/

namespace Verif

open MeasureTheory

/-- The correlations between the data. -/
noncomputable def dataCorr (v : Variogram) (dx dy : ℝ) (d : List Datum) : Matrix (Fin d.length) (Fin d.length) ℝ :=
  Matrix.of fun a b => v.corr2 ((d[a].i - d[b].i : ℤ) * dx) ((d[a].j - d[b].j : ℤ) * dy)

/-- A kriging task on a grid: the setting of the theorems. -/
structure KrigTask (v : Variogram) (dx dy : ℝ) (cov : CovTable) (trend : Grid2D ℝ) (T : ℕ → ℕ → ℝ) (d : List Datum) :
    Prop where
  /-- the trend -/
  wf : trend.data.length = trend.ni * trend.nj
  holds : ∀ i < trend.ni, ∀ j < trend.nj, trend.get i j = .ok (T i j)
  /-- the table of covariances -/
  table : ∃ nx ny : ℤ, 0 < nx ∧ 0 < ny ∧ 2 * nx * ny < 2 ^ 31 ∧ trend.ni ≤ nx ∧ trend.nj ≤ ny ∧
    CovTable.create v nx ny dx dy = .ok cov
  /-- the data -/
  inside : ∀ e ∈ d, 0 ≤ e.i ∧ e.i < trend.ni ∧ 0 ≤ e.j ∧ e.j < trend.nj
  nodup : (d.map fun e => (e.i, e.j)).Nodup

section
variable {v : Variogram} {dx dy : ℝ} {cov : CovTable} {trend : Grid2D ℝ} {T : ℕ → ℕ → ℝ} {d : List Datum}

theorem KrigTask.filled (h : KrigTask v dx dy cov trend T d) : Grid2D.Holds trend.ni trend.nj T trend :=
  ⟨rfl, rfl, h.wf, fun i j hi hj _ => h.holds i hi j hj⟩

theorem KrigTask.dataIn (h : KrigTask v dx dy cov trend T d) : DataIn trend.ni trend.nj d := ⟨h.inside, h.nodup⟩

theorem KrigTask.small (h : KrigTask v dx dy cov trend T d) : trend.ni < 2 ^ 31 ∧ trend.nj < 2 ^ 31 := by
  obtain ⟨nx, ny, h1, h2, h3, h4, h5, -⟩ := h.table
  have a : nx * 1 ≤ nx * ny := mul_le_mul_of_nonneg_left (by omega) h1.le
  have b : 1 * ny ≤ nx * ny := mul_le_mul_of_nonneg_right (by omega) h2.le
  rw [mul_assoc] at h3
  constructor
  · have : (trend.ni : ℤ) < 2 ^ 31 := by linarith
    exact_mod_cast this
  · have : (trend.nj : ℤ) < 2 ^ 31 := by linarith
    exact_mod_cast this

theorem KrigTask.lookup (h : KrigTask v dx dy cov trend T d) (x y : ℤ) (hx : |x| < trend.ni) (hy : |y| < trend.nj) :
    cov.getCov x y = .ok (v.corr2 (x * dx) (y * dy)) := by
  obtain ⟨nx, ny, h1, h2, h3, h4, h5, hc⟩ := h.table
  obtain ⟨g, hg, hh⟩ := covTable_lookup v dx dy h1 h2 h3
  obtain rfl : g = cov := by rw [hc] at hg; exact (Res.ok.inj hg).symm
  exact hh x y (by omega) (by omega)

theorem KrigTask.ranges (h : KrigTask v dx dy cov trend T d) :
    (∃ r, cov.getRangeX = .ok r) ∧ ∃ r, cov.getRangeY = .ok r := by
  obtain ⟨nx, ny, h1, h2, h3, h4, h5, hc⟩ := h.table
  obtain ⟨r, hr, -⟩ := covTable_rangeX v dx dy h1 h2 h3 hc
  obtain ⟨r', hr', -⟩ := covTable_rangeY v dx dy h1 h2 h3 hc
  exact ⟨⟨r, hr⟩, r', hr'⟩

theorem corr2_even (v : Variogram) (dx dy : ℝ) (x y : ℤ) :
    v.corr2 ((-x : ℤ) * dx) ((-y : ℤ) * dy) = v.corr2 (x * dx) (y * dy) := by
  rw [← (corr_neg v (x * dx) (y * dy) 0).2.1]
  push_cast
  ring_nf

/-- The whole outcome, all data at once. -/
theorem krig2D_all {sort : BlockSort (List Datum)} (hsort : ∀ l, (sort l).Perm l) (h : KrigTask v dx dy cov trend T d)
    (gr : Bool) (P : ℝ) (h0 : d ≠ []) :
    (¬ (dataCorr v dx dy d).PosDef → ∃ msg, krig2DNodal sort trend d cov gr true P = .throws msg) ∧
    ((dataCorr v dx dy d).PosDef → ∃ out, krig2DNodal sort trend d cov gr true P = .ok out ∧
      Grid2D.Holds trend.ni trend.nj
        (fun i j => (if gr = true then 0 else T i j) + krigged (fun x y => v.corr2 (x * dx) (y * dy)) T d i j) out) := by
  obtain ⟨⟨rx, hrx⟩, ry, hry⟩ := h.ranges
  obtain ⟨k1, k2⟩ := overBlocks_ok (gr := gr) (n_blocks_x := 1) (n_blocks_y := 1) (nxb := trend.ni) (nyb := trend.nj)
    (L := [((0, 0), d)]) h.small.1 h.small.2 (corr2_even v dx dy) h.lookup h.filled (by simp) (by simp)
    (by simpa using h.dataIn) (st := (trend, Grid2D.mk' trend.ni trend.nj 0)) h.filled (Grid2D.Holds.mk' 0)
    (by intros; rfl)
  have hstart : krig2DNodal sort trend d cov gr true P
      = (overBlocks (fun bx by_ db => krigBlockNodal trend db cov bx by_ trend.ni trend.nj 1 1 gr) [((0, 0), d)]
        (trend, Grid2D.mk' trend.ni trend.nj 0)).bind fun st => .ok st.1 := by
    unfold krig2DNodal krigBlocks
    simp only [Res.monad_bind_eq, if_true]
    rw [hrx, Res.bind_ok, hry, Res.bind_ok, Res.bind_ok]
    dsimp only
    rw [cellsPerBlock_one, cellsPerBlock_one, List.perm_singleton.1 (hsort [((0, 0), d)])]
  rw [hstart]
  constructor
  · intro hp
    obtain ⟨msg, hm⟩ := k1 ⟨((0, 0), d), by simp, h0, hp⟩
    rw [hm]
    exact ⟨msg, rfl⟩
  · intro hp
    obtain ⟨st, hst, T', hT', e, -⟩ := k2 (by
      intro b hb hb0
      rw [List.mem_singleton] at hb
      subst hb
      exact hp)
    rw [hst]
    refine ⟨st.1, rfl, hT'.congr fun i hi j hj => ?_⟩
    rw [e ((0, 0), d) (by simp) i hi j hj ⟨by simp, by simpa [blockEnd] using hi, by simp, by simpa [blockEnd] using hj⟩, if_neg h0]

/-- **C94.** The nodes with data get their values. Every other node gets the trend plus the weighted residuals of the
data, with the weights that solve the kriging system. If residuals are asked for, the trend is left out. -/
theorem krig2D_spec {sort : BlockSort (List Datum)} (hsort : ∀ l, (sort l).Perm l) (h : KrigTask v dx dy cov trend T d)
    (gr : Bool) (P : ℝ) (h0 : d ≠ []) (hK : (dataCorr v dx dy d).PosDef) :
    ∃ out, krig2DNodal sort trend d cov gr true P = .ok out ∧ out.ni = trend.ni ∧ out.nj = trend.nj ∧
      (∀ e ∈ d, ∀ i j : ℕ, e.i = i → e.j = j →
        out.get i j = .ok (if gr = true then e.value - T i j else e.value)) ∧
      ∀ i < trend.ni, ∀ j < trend.nj, ∀ w : Fin d.length → ℝ,
        (∀ a : Fin d.length, ∑ b : Fin d.length, v.corr2 ((d[a].i - d[b].i : ℤ) * dx) ((d[a].j - d[b].j : ℤ) * dy) * w b
          = v.corr2 ((d[a].i - i : ℤ) * dx) ((d[a].j - j : ℤ) * dy)) →
        out.get i j = .ok ((if gr = true then 0 else T i j)
          + ∑ a : Fin d.length, w a * (d[a].value - T d[a].i.toNat d[a].j.toNat)) := by
  obtain ⟨out, ho, hT⟩ := (krig2D_all hsort h gr P h0).2 hK
  refine ⟨out, ho, hT.1, hT.2.1, ?_, ?_⟩
  · intro e he i j hi hj
    obtain ⟨a, ha, rfl⟩ := List.getElem_of_mem he
    obtain ⟨_, a2, _, a4⟩ := h.inside _ he
    rw [hT.get (by omega) (by omega)]
    have := krigged_data (c := fun x y => v.corr2 (x * dx) (y * dy)) (corr2_even v dx dy) h.dataIn hK T ⟨a, ha⟩
    rw [show d[(⟨a, ha⟩ : Fin d.length)].i = (i : ℤ) from hi, show d[(⟨a, ha⟩ : Fin d.length)].j = (j : ℤ) from hj,
      Int.toNat_natCast, Int.toNat_natCast] at this
    rw [this]
    unfold nodeRes
    rw [show d[(⟨a, ha⟩ : Fin d.length)].i = (i : ℤ) from hi, show d[(⟨a, ha⟩ : Fin d.length)].j = (j : ℤ) from hj,
      Int.toNat_natCast, Int.toNat_natCast, show d[(⟨a, ha⟩ : Fin d.length)] = d[a] from rfl]
    cases gr
    · rw [if_neg (by decide), if_neg (by decide), add_sub_cancel]
    · rw [if_pos rfl, if_pos rfl, zero_add]
  · intro i hi j hj w hw
    rw [hT.get hi hj]
    congr 2
    exact dot_inv_mulVec hK (w := w) (k := fun a => v.corr2 ((d[a].i - i : ℤ) * dx) ((d[a].j - j : ℤ) * dy))
      (funext hw) _

/-- **C94.** The function throws exactly if the correlation matrix of the data is not positive definite. -/
theorem krig2D_throws {sort : BlockSort (List Datum)} (hsort : ∀ l, (sort l).Perm l) (h : KrigTask v dx dy cov trend T d)
    (gr : Bool) (P : ℝ) (h0 : d ≠ []) :
    (∃ msg, krig2DNodal sort trend d cov gr true P = .throws msg) ↔ ¬ (dataCorr v dx dy d).PosDef := by
  obtain ⟨h1, h2⟩ := krig2D_all hsort h gr P h0
  constructor
  · rintro ⟨msg, hm⟩ hK
    obtain ⟨out, ho, -⟩ := h2 hK
    rw [ho] at hm
    cases hm
  · exact h1

/-- Data with other values at the same nodes. -/
def withValues (d : List Datum) (z : ℕ → ℕ → ℝ) : List Datum := d.map fun e => { e with value := z e.i.toNat e.j.toNat }

theorem KrigTask.withValues (h : KrigTask v dx dy cov trend T d) (z : ℕ → ℕ → ℝ) :
    KrigTask v dx dy cov trend T (withValues d z) := by
  refine ⟨h.wf, h.holds, h.table, ?_, ?_⟩
  · intro e he
    obtain ⟨f, hf, rfl⟩ := List.mem_map.1 he
    exact h.inside f hf
  · unfold Verif.withValues
    rw [List.map_map]
    exact h.nodup

theorem dataCorr_withValues (z : ℕ → ℕ → ℝ) (hK : (dataCorr v dx dy d).PosDef) :
    (dataCorr v dx dy (withValues d z)).PosDef := by
  have hl : (withValues d z).length = d.length := List.length_map _
  have h := hK.submatrix (e := Fin.cast hl) (Fin.cast_injective hl)
  convert h using 1
  ext a b
  unfold dataCorr
  rw [Matrix.submatrix_apply, Matrix.of_apply, Matrix.of_apply]
  have e : ∀ a : Fin (withValues d z).length, (withValues d z)[a].i = d[Fin.cast hl a].i ∧ (withValues d z)[a].j = d[Fin.cast hl a].j := by
    intro a
    have : (withValues d z)[a] = { d[Fin.cast hl a] with value := z d[Fin.cast hl a].i.toNat d[Fin.cast hl a].j.toNat } :=
      List.getElem_map _
    rw [this]
    exact ⟨rfl, rfl⟩
  rw [(e a).1, (e a).2, (e b).1, (e b).2]

/-- **C94.** Kriging is the best linear prediction. Let `Z` be random fields with the trend as their mean and with the
correlations of the variogram. From the values at the data nodes, the function computes in each node the predictor with
the least mean squared error among all affine functions of these values. -/
theorem krig2D_best {sort : BlockSort (List Datum)} (hsort : ∀ l, (sort l).Perm l) (h : KrigTask v dx dy cov trend T d)
    (P : ℝ) (h0 : d ≠ []) (hK : (dataCorr v dx dy d).PosDef)
    {Ω : Type} [MeasurableSpace Ω] {μ : Measure Ω} [IsProbabilityMeasure μ] {Z : ℕ → ℕ → Ω → ℝ} {s : ℝ}
    (hZ : ∀ i < trend.ni, ∀ j < trend.nj, MemLp (Z i j) 2 μ)
    (hm : ∀ i < trend.ni, ∀ j < trend.nj, ∫ ω, Z i j ω ∂μ = T i j)
    (hc : ∀ i < trend.ni, ∀ j < trend.nj, ∀ k < trend.ni, ∀ l < trend.nj,
      ∫ ω, (Z i j ω - T i j) * (Z k l ω - T k l) ∂μ = s ^ 2 * v.corr2 ((i - k : ℤ) * dx) ((j - l : ℤ) * dy)) :
    ∃ out : Ω → Grid2D ℝ,
      (∀ ω, krig2DNodal sort trend (withValues d fun i j => Z i j ω) cov false true P = .ok (out ω)) ∧
      ∀ i < trend.ni, ∀ j < trend.nj, ∃ z : Ω → ℝ, (∀ ω, (out ω).get i j = .ok (z ω)) ∧ ∀ (c : ℝ) (u : Fin d.length → ℝ),
        ∫ ω, (Z i j ω - z ω) ^ 2 ∂μ
          ≤ ∫ ω, (Z i j ω - (c + ∑ a : Fin d.length, u a * Z d[a].i.toNat d[a].j.toNat ω)) ^ 2 ∂μ := by
  have key : ∀ ω, ∃ out, krig2DNodal sort trend (withValues d fun i j => Z i j ω) cov false true P = .ok out ∧ _ := fun ω =>
    krig2D_spec hsort (h.withValues fun i j => Z i j ω) false P
      (fun hn => h0 (List.map_eq_nil_iff.1 hn)) (dataCorr_withValues _ hK)
  choose out h1 h2 h3 _ h5 using key
  refine ⟨out, h1, ?_⟩
  intro i hi j hj
  have hin : ∀ a : Fin d.length, 0 ≤ d[a].i ∧ d[a].i < trend.ni ∧ 0 ≤ d[a].j ∧ d[a].j < trend.nj := fun a =>
    h.inside _ (List.getElem_mem _)
  have hx : ∀ a : Fin d.length, d[a].i.toNat < trend.ni := fun a => by have := hin a; omega
  have hy : ∀ a : Fin d.length, d[a].j.toNat < trend.nj := fun a => by have := hin a; omega
  have hti : ∀ a : Fin d.length, ((d[a].i.toNat : ℕ) : ℤ) = d[a].i := fun a => Int.toNat_of_nonneg (hin a).1
  have htj : ∀ a : Fin d.length, ((d[a].j.toNat : ℕ) : ℤ) = d[a].j := fun a => Int.toNat_of_nonneg (hin a).2.2.1
  have hw := weights_exist hK fun a => v.corr2 ((d[a].i - i : ℤ) * dx) ((d[a].j - j : ℤ) * dy)
  generalize ((dataCorr v dx dy d)⁻¹.mulVec fun a => v.corr2 ((d[a].i - i : ℤ) * dx) ((d[a].j - j : ℤ) * dy)) = w at hw
  refine ⟨fun ω => T i j + ∑ a : Fin d.length, w a * (Z d[a].i.toNat d[a].j.toNat ω - T d[a].i.toNat d[a].j.toNat), ?_, ?_⟩
  · intro ω
    have hl : (withValues d fun i j => Z i j ω).length = d.length := List.length_map _
    have e : ∀ a : Fin (withValues d fun i j => Z i j ω).length,
        (withValues d fun i j => Z i j ω)[a].i = d[Fin.cast hl a].i ∧ (withValues d fun i j => Z i j ω)[a].j = d[Fin.cast hl a].j ∧
        (withValues d fun i j => Z i j ω)[a].value = Z d[Fin.cast hl a].i.toNat d[Fin.cast hl a].j.toNat ω := by
      intro a
      have : (withValues d fun i j => Z i j ω)[a]
          = { d[Fin.cast hl a] with value := Z d[Fin.cast hl a].i.toNat d[Fin.cast hl a].j.toNat ω } := List.getElem_map _
      rw [this]
      exact ⟨rfl, rfl, rfl⟩
    rw [h5 ω i hi j hj (fun a => w (Fin.cast hl a))]
    · rw [if_neg (by decide)]
      congr 2
      refine Fintype.sum_equiv (finCongr hl) _ _ fun a => ?_
      rw [(e a).1, (e a).2.1, (e a).2.2]
      rfl
    · intro a
      have := congrFun hw (Fin.cast hl a)
      rw [(e a).1, (e a).2.1]
      rw [← this]
      refine Fintype.sum_equiv (finCongr hl) _ _ fun b => ?_
      rw [(e b).1, (e b).2.1]
      rfl
  · intro c u
    exact best_linear (s := s ^ 2) (X := fun a : Fin d.length => Z d[a].i.toNat d[a].j.toNat) (K := dataCorr v dx dy d)
      (m := fun a => T d[a].i.toNat d[a].j.toNat)
      (k := fun a => v.corr2 ((d[a].i - i : ℤ) * dx) ((d[a].j - j : ℤ) * dy)) (fun a => hZ _ (hx a) _ (hy a)) (hZ i hi j hj)
      (fun a => hm _ (hx a) _ (hy a)) (hm i hi j hj)
      (fun a b => by rw [hc _ (hx a) _ (hy a) _ (hx b) _ (hy b), hti, htj, hti, htj]; rfl)
      (fun a => by rw [hc _ (hx a) _ (hy a) _ hi _ hj, hti, htj]) hw c u

/-- With the Gaussian variogram the correlations between different points are positive definite. -/
theorem corr2_gauss_posDef {t : VType} {p rx ry rz az dp sd : ℝ} (hv : Variogram.create t p rx ry rz az dp sd = .ok v)
    (ht : t = .gaussian) {n : ℕ} {q : Fin n → ℝ × ℝ} (hq : Function.Injective q) :
    (Matrix.of fun a b : Fin n => v.corr2 ((q a).1 - (q b).1) ((q a).2 - (q b).2)).PosDef := by
  have hr : rx ≠ 0 ∧ ry ≠ 0 ∧ rz ≠ 0 := by
    by_contra hc
    unfold Variogram.create Variogram.estimateFactors at hv
    dsimp only at hv
    rw [if_pos (by tauto)] at hv
    cases hv
  have htype : v.type = .gaussian := by
    unfold Variogram.create Variogram.estimateFactors at hv
    dsimp only at hv
    rw [if_neg (by tauto)] at hv
    rw [← Res.ok.inj hv]
    exact ht
  have hpos : ∀ x y : ℝ, (x ≠ 0 ∨ y ≠ 0) → 0 < v.quad2 x y := by
    intro x y hxy
    have h1 := quad3_nonneg hv x y 0
    have e : v.quad2 x y = v.quad3 x y 0 := by simp [Variogram.quad2, Variogram.quad3]
    rw [e]
    refine lt_of_le_of_ne h1 fun h2 => ?_
    have h3 := (normDist_eq_zero_iff hr.1 hr.2.1 hr.2.2 x y 0 (az := az) (dp := dp)).1 (by
      unfold Spec.normDist
      rw [← Variogram.estimateFactors_quad3 hv, ← h2, Real.sqrt_zero])
    tauto
  have hA : 0 < v.txx := by
    have := hpos 1 0 (by norm_num)
    simpa [Variogram.quad2] using this
  have hdet : v.txy ^ 2 < 4 * v.txx * v.tyy := by
    have := hpos (-v.txy) (2 * v.txx) (.inr (by positivity))
    unfold Variogram.quad2 at this
    have h2 : 0 < v.txx * (4 * v.txx * v.tyy - v.txy ^ 2) := by nlinarith
    have := (mul_pos_iff_of_pos_left hA).1 h2
    linarith
  have h := gauss_quad_posDef (t := 3) (by norm_num) hA hdet hq
  convert h using 1
  ext a b
  show Variogram.corr1D _ _ _ = _
  rw [htype]
  show Real.exp _ = Real.exp _
  congr 1
  unfold Variogram.distance2
  have hq : 0 ≤ v.quad2 ((q a).1 - (q b).1) ((q a).2 - (q b).2) := by
    have e : ∀ x y, v.quad2 x y = v.quad3 x y 0 := by intro x y; simp [Variogram.quad2, Variogram.quad3]
    rw [e]
    exact quad3_nonneg hv _ _ 0
  rw [mul_assoc, Real.mul_self_sqrt hq]
  unfold Variogram.quad2
  norm_num
  ring

/-- The data of a task are at different points. -/
theorem dataCorr_gauss {t : VType} {p rx ry rz az dp sd : ℝ} (hv : Variogram.create t p rx ry rz az dp sd = .ok v)
    (ht : t = .gaussian) (hdx : dx ≠ 0) (hdy : dy ≠ 0) (hd : (d.map fun e => (e.i, e.j)).Nodup) :
    (dataCorr v dx dy d).PosDef := by
  have hinj : Function.Injective fun a : Fin d.length => ((d[a].i : ℝ) * dx, (d[a].j : ℝ) * dy) := by
    intro a b hab
    rw [Prod.mk.injEq] at hab
    have e1 := mul_right_cancel₀ hdx hab.1
    have e2 := mul_right_cancel₀ hdy hab.2
    rw [List.nodup_iff_injective_get] at hd
    have := @hd ⟨a, by rw [List.length_map]; exact a.2⟩ ⟨b, by rw [List.length_map]; exact b.2⟩ (by
      simp only [List.get_eq_getElem, List.getElem_map, Prod.mk.injEq]
      exact ⟨by exact_mod_cast e1, by exact_mod_cast e2⟩)
    exact Fin.ext (by simpa using this)
  have h := corr2_gauss_posDef hv ht hinj
  convert h using 1
  ext a b
  show v.corr2 _ _ = v.corr2 _ _
  push_cast
  congr 1 <;> ring

/-- **C94.** With the Gaussian variogram the function never throws. -/
theorem krig2D_gauss {sort : BlockSort (List Datum)} (hsort : ∀ l, (sort l).Perm l) (h : KrigTask v dx dy cov trend T d)
    (gr : Bool) (P : ℝ) (h0 : d ≠ []) {p rx ry rz az dp sd : ℝ}
    (hv : Variogram.create .gaussian p rx ry rz az dp sd = .ok v) (hdx : dx ≠ 0) (hdy : dy ≠ 0) :
    ∃ out, krig2DNodal sort trend d cov gr true P = .ok out := by
  obtain ⟨out, ho, -⟩ := krig2D_spec hsort h gr P h0 (dataCorr_gauss hv rfl hdx hdy h.nodup)
  exact ⟨out, ho⟩

/-- **C94.** Without data the grid stays as it is. -/
theorem krig2D_empty {sort : BlockSort (List Datum)} (hsort : ∀ l, (sort l).Perm l) (h : KrigTask v dx dy cov trend T [])
    (gr : Bool) (P : ℝ) : krig2DNodal sort trend [] cov gr true P = .ok trend := by
  obtain ⟨⟨rx, hrx⟩, ry, hry⟩ := h.ranges
  unfold krig2DNodal krigBlocks
  simp only [Res.monad_bind_eq, if_true]
  rw [hrx, Res.bind_ok, hry, Res.bind_ok, Res.bind_ok]
  dsimp only
  rw [List.perm_singleton.1 (hsort [((0, 0), [])]), overBlocks, krigBlock_nil, Res.bind_ok]
  rfl

end

/-! ### A case -/

/-- The Gaussian variogram of range one. -/
noncomputable def gaussVario : Variogram :=
  { type := .gaussian, power := 1, rangeX := 1, rangeY := 1, rangeZ := 1, azimuth := 0, dip := 0, var := 1,
    txx := 1, tyy := 1, tzz := 1, txy := 0, txz := 0, tyz := 0 }

theorem gaussVario_create : Variogram.create .gaussian 1 1 1 1 0 0 1 = .ok gaussVario := by
  unfold Variogram.create Variogram.estimateFactors gaussVario
  norm_num

/-- Two data on a grid of three by two nodes. -/
theorem krigTask_case : ∃ cov, KrigTask gaussVario 1 1 cov (Grid2D.mk' 3 2 5) (fun _ _ => 5) [⟨0, 0, 7, 1⟩, ⟨2, 1, 4, 1⟩] := by
  obtain ⟨cov, hc, -⟩ := covTable_lookup gaussVario (nx := 3) (ny := 2) 1 1 (by norm_num) (by norm_num) (by norm_num)
  refine ⟨cov, (Grid2D.Holds.mk' (nx := 3) (ny := 2) 5).2.2.1, fun i hi j hj => (Grid2D.Holds.mk' (nx := 3) (ny := 2) 5).get hi hj, ?_, ?_, ?_⟩
  · exact ⟨3, 2, by norm_num, by norm_num, by norm_num, le_refl _, le_refl _, hc⟩
  · intro e he
    simp only [List.mem_cons, List.not_mem_nil, or_false] at he
    rcases he with rfl | rfl <;> simp [Grid2D.mk']
  · simp

/-- The data are honoured there, and the residual grid holds their residuals. -/
example : ∃ cov out res, KrigTask gaussVario 1 1 cov (Grid2D.mk' 3 2 5) (fun _ _ => 5) [⟨0, 0, 7, 1⟩, ⟨2, 1, 4, 1⟩] ∧
    krig2DNodal id (Grid2D.mk' 3 2 5) [⟨0, 0, 7, 1⟩, ⟨2, 1, 4, 1⟩] cov false true 1 = .ok out ∧ out.get 0 0 = .ok 7 ∧
    out.get 2 1 = .ok 4 ∧ krig2DNodal id (Grid2D.mk' 3 2 5) [⟨0, 0, 7, 1⟩, ⟨2, 1, 4, 1⟩] cov true true 1 = .ok res ∧
    res.get 2 1 = .ok (-1) := by
  obtain ⟨cov, h⟩ := krigTask_case
  have hK := dataCorr_gauss (dx := 1) (dy := 1) gaussVario_create rfl one_ne_zero one_ne_zero h.nodup
  obtain ⟨out, h1, -, -, h2, -⟩ := krig2D_spec (sort := id) (fun l => List.Perm.refl _) h false 1 (by simp) hK
  obtain ⟨res, h3, -, -, h4, -⟩ := krig2D_spec (sort := id) (fun l => List.Perm.refl _) h true 1 (by simp) hK
  refine ⟨cov, out, res, h, h1, ?_, ?_, h3, ?_⟩
  · rw [h2 ⟨0, 0, 7, 1⟩ (by simp) 0 0 rfl rfl]; norm_num
  · rw [h2 ⟨2, 1, 4, 1⟩ (by simp) 2 1 rfl rfl]; norm_num
  · rw [h4 ⟨2, 1, 4, 1⟩ (by simp) 2 1 rfl rfl]; norm_num

/-- Two nodes with mean 0 and unit variance whose correlation is that of the variogram, made from two independent
signs. -/
noncomputable def signField (i _j : ℕ) (ω : Bool × Bool) : ℝ :=
  if i = 0 then (if ω.1 then 1 else -1)
  else gaussVario.corr2 1 0 * (if ω.1 then 1 else -1) + √(1 - gaussVario.corr2 1 0 ^ 2) * (if ω.2 then 1 else -1)

/-- The theorem on prediction for these two nodes, the first of them known. -/
example : ∃ (cov : CovTable) (out : Bool × Bool → Grid2D ℝ),
    (∀ ω, krig2DNodal id (Grid2D.mk' 2 1 0) (withValues [⟨0, 0, 0, 1⟩] fun i j => signField i j ω) cov false true 1
      = .ok (out ω)) ∧
      ∀ i < 2, ∀ j < 1, ∃ z : Bool × Bool → ℝ, (∀ ω, (out ω).get i j = .ok (z ω)) ∧ ∀ (c : ℝ) (u : Fin 1 → ℝ),
        ∫ ω, (signField i j ω - z ω) ^ 2 ∂(PMF.uniformOfFintype (Bool × Bool)).toMeasure
          ≤ ∫ ω, (signField i j ω - (c + ∑ a : Fin 1, u a * signField 0 0 ω)) ^ 2
            ∂(PMF.uniformOfFintype (Bool × Bool)).toMeasure := by
  have hc0 : gaussVario.corr2 0 0 = 1 := by
    show Real.exp (-3.0 * √(1 * 0 * 0 + 1 * 0 * 0 + 0 * 0 * 0) * √(1 * 0 * 0 + 1 * 0 * 0 + 0 * 0 * 0)) = 1
    simp
  have hc1 : 0 ≤ gaussVario.corr2 1 0 ∧ gaussVario.corr2 1 0 ≤ 1 := by
    constructor
    · exact (Real.exp_pos _).le
    · show Real.exp (-3.0 * √(1 * 1 * 1 + 1 * 0 * 0 + 0 * 1 * 0) * √(1 * 1 * 1 + 1 * 0 * 0 + 0 * 1 * 0)) ≤ 1
      rw [Real.exp_le_one_iff]
      norm_num
  have hs : √(1 - gaussVario.corr2 1 0 ^ 2) * √(1 - gaussVario.corr2 1 0 ^ 2) = 1 - gaussVario.corr2 1 0 ^ 2 :=
    Real.mul_self_sqrt (by nlinarith)
  obtain ⟨cov, hc, -⟩ := covTable_lookup gaussVario (nx := 2) (ny := 1) 1 1 (by norm_num) (by norm_num) (by norm_num)
  have h : KrigTask gaussVario 1 1 cov (Grid2D.mk' 2 1 0) (fun _ _ => 0) [⟨0, 0, 0, 1⟩] := by
    refine ⟨(Grid2D.Holds.mk' (nx := 2) (ny := 1) 0).2.2.1, fun i hi j hj => (Grid2D.Holds.mk' (nx := 2) (ny := 1) 0).get hi hj, ?_, ?_, ?_⟩
    · exact ⟨2, 1, by norm_num, by norm_num, by norm_num, le_refl _, le_refl _, hc⟩
    · intro e he
      rw [List.mem_singleton] at he
      subst he
      simp [Grid2D.mk']
    · simp
  refine ⟨cov, krig2D_best (d := [⟨0, 0, 0, 1⟩]) (Z := signField) (s := 1) (fun l => List.Perm.refl _) h 1 (by simp)
    (dataCorr_gauss gaussVario_create rfl one_ne_zero one_ne_zero h.nodup) ?_ ?_ ?_⟩
  · intro i _ j _
    exact MemLp.of_discrete
  · intro i hi j hj
    have hi : i < 2 := hi
    rw [PMF.integral_eq_sum, Fintype.sum_prod_type, Fintype.sum_bool, Fintype.sum_bool, Fintype.sum_bool]
    interval_cases i
    · simp [signField, PMF.uniformOfFintype_apply]
    · simp [signField, PMF.uniformOfFintype_apply]
      ring
  · intro i hi j hj k hk l hl
    have hi : i < 2 := hi
    have hj : j < 1 := hj
    have hk : k < 2 := hk
    have hl : l < 1 := hl
    obtain rfl : j = 0 := by omega
    obtain rfl : l = 0 := by omega
    rw [PMF.integral_eq_sum, Fintype.sum_prod_type, Fintype.sum_bool, Fintype.sum_bool, Fintype.sum_bool]
    have hcm : gaussVario.corr2 (-1) 0 = gaussVario.corr2 1 0 := by
      have := corr2_even gaussVario 1 1 1 0
      simpa using this
    generalize hr : √(1 - gaussVario.corr2 1 0 ^ 2) = r at hs
    interval_cases i <;> interval_cases k <;> simp [signField, PMF.uniformOfFintype_apply, hc0, hcm, hr] <;>
      nlinarith

/-- **C94.** With no data, the grid of residuals is not zero but the trend: the two grids that the function can give
then do not differ by the trend. -/
theorem krig2D_empty_violation : ∃ (v : Variogram) (cov : CovTable) (trend : Grid2D ℝ),
    KrigTask v 1 1 cov trend (fun _ _ => 5) [] ∧ trend.get 0 0 = .ok 5 ∧
    krig2DNodal id trend [] cov true true 1 = .ok trend ∧ krig2DNodal id trend [] cov false true 1 = .ok trend := by
  obtain ⟨cov, h⟩ := krigTask_case
  have h' : KrigTask gaussVario 1 1 cov (Grid2D.mk' 3 2 5) (fun _ _ => 5) [] :=
    ⟨h.wf, h.holds, h.table, by simp, by simp⟩
  exact ⟨gaussVario, cov, _, h', h.holds 0 (by simp [Grid2D.mk']) 0 (by simp [Grid2D.mk']),
    krig2D_empty (fun l => List.Perm.refl _) h' true 1, krig2D_empty (fun l => List.Perm.refl _) h' false 1⟩

end Verif
