import Verif.Lemmas.DistrCont2

/-! Helper lemmas: draws from a part of a distribution. -/

namespace Verif.Distr

open Spec MeasureTheory ProbabilityTheory Set Filter Topology

theorem unif_reverse : unif.map (fun u => 1 - u) = unif := by
  have hm := (Measure.measurePreserving_sub_left (volume : Measure ℝ) 1).restrict_preimage
    (measurableSet_Ioc (a := (0 : ℝ)) (b := 1))
  have e : (fun u : ℝ => 1 - u) ⁻¹' Ioc 0 1 = Ico 0 1 := by
    ext u
    simp only [mem_preimage, mem_Ioc, mem_Ico]
    constructor <;> intro h <;> constructor <;> linarith [h.1, h.2]
  rw [e] at hm
  rw [unif, hm.map_eq]
  exact Measure.restrict_congr_set Ico_ae_eq_Ioc.symm

theorem unif_Ioc {l r : ℝ} (hl : 0 ≤ l) (hr : r ≤ 1) : unif (Ioc l r) = ENNReal.ofReal (r - l) := by
  rw [unif, Measure.restrict_congr_set Ico_ae_eq_Ioc, Measure.restrict_apply measurableSet_Ioc,
    Set.inter_eq_left.2 (Ioc_subset_Ioc hl hr), Real.volume_Ioc]

/-- A uniform number, scaled to (l, r], has the law of a uniform number given that it is in (l, r]. -/
theorem unif_part {l r : ℝ} (hl : 0 ≤ l) (hlr : l < r) (hr : r ≤ 1) :
    unif.map (fun u => l + u * (r - l)) = unif[|Ioc l r] := by
  have hm : Measurable fun u : ℝ => l + u * (r - l) := by fun_prop
  have : IsProbabilityMeasure (unif.map fun u => l + u * (r - l)) :=
    Measure.isProbabilityMeasure_map hm.aemeasurable
  have hd : 0 < r - l := by linarith
  refine Measure.ext_of_Iic _ _ fun x => ?_
  rw [map_Iic (F := uF l r) hm (max_le zero_le_one (min_le_left _ _))
    (fun p h0 h1 => uniform_galois hlr h0 h1.le), cond_apply measurableSet_Ioc, unif_Ioc hl hr,
    Ioc_inter_Iic, ← ENNReal.ofReal_inv_of_pos hd]
  rcases le_or_gt x l with hx | hx
  · rw [uF_low hlr hx, Ioc_eq_empty (by rw [not_lt]; exact (min_le_right _ _).trans hx)]
    simp
  · rw [unif_Ioc hl ((min_le_left _ _).trans hr), ← ENNReal.ofReal_mul (by positivity)]
    congr 1
    rcases le_or_gt x r with hxr | hxr
    · rw [uF_mid hlr hx.le hxr, min_eq_right hxr, div_eq_inv_mul]
    · rw [uF_high hlr hxr.le, min_eq_left hxr.le, inv_mul_cancel₀ hd.ne']

/-- The part of a law between two quantiles. -/
theorem map_part {q : ℝ → ℝ} (hq : Measurable q) (hmono : StrictMonoOn q (Icc 0 1)) {l r : ℝ}
    (hl : 0 ≤ l) (hlr : l < r) (hr : r ≤ 1) :
    unif.map (fun u => q (l + u * (r - l))) = (unif.map q)[|Ioc (q l) (q r)] := by
  have hm : Measurable fun u : ℝ => l + u * (r - l) := by fun_prop
  have e1 : unif.map (fun u => q (l + u * (r - l))) = (unif[|Ioc l r]).map q := by
    rw [← unif_part hl hlr hr, Measure.map_map hq hm]
    rfl
  have hpre : (q ⁻¹' Ioc (q l) (q r) : Set ℝ) =ᵐ[unif] Ioc l r := by
    filter_upwards [ae_unif] with u hu
    refine propext ?_
    have hu' : u ∈ Icc (0 : ℝ) 1 := ⟨hu.1.le, hu.2.le⟩
    show q l < q u ∧ q u ≤ q r ↔ l < u ∧ u ≤ r
    rw [hmono.lt_iff_lt ⟨hl, by linarith⟩ hu', hmono.le_iff_le hu' ⟨by linarith, hr⟩]
  rw [e1, ProbabilityTheory.cond, ProbabilityTheory.cond, Measure.map_smul, Measure.restrict_map hq measurableSet_Ioc,
    Measure.map_apply hq measurableSet_Ioc, measure_congr hpre, Measure.restrict_congr_set hpre]

/-- The part of a law above a quantile. -/
theorem cond_above {q : ℝ → ℝ} (hq : Measurable q) (hmono : StrictMonoOn q (Icc 0 1)) {l : ℝ}
    (h0 : 0 ≤ l) (h1 : l < 1) : (unif.map q)[|Ioc (q l) (q 1)] = (unif.map q)[|Ioi (q l)] := by
  have hpre : (Ioc (q l) (q 1) : Set ℝ) =ᵐ[unif.map q] Ioi (q l) := by
    refine (ae_map_iff hq.aemeasurable
      (by
        have : {x | Ioc (q l) (q 1) x = Ioi (q l) x} = (Ioc (q l) (q 1) ∩ Ioi (q l)) ∪ (Ioi (q l))ᶜ := by
          ext x
          show (x ∈ Ioc (q l) (q 1)) = (x ∈ Ioi (q l)) ↔ _
          simp only [eq_iff_iff, mem_union, mem_inter_iff, mem_compl_iff, mem_Ioc, mem_Ioi]
          tauto
        rw [this]
        exact (measurableSet_Ioc.inter measurableSet_Ioi).union measurableSet_Ioi.compl)).2 ?_
    filter_upwards [ae_unif] with u hu
    refine propext ?_
    show q l < q u ∧ q u ≤ q 1 ↔ q l < q u
    have : q u ≤ q 1 := (hmono.le_iff_le ⟨hu.1.le, hu.2.le⟩ ⟨zero_le_one, le_rfl⟩).2 hu.2.le
    tauto
  rw [ProbabilityTheory.cond, ProbabilityTheory.cond, measure_congr hpre, Measure.restrict_congr_set hpre]

theorem frac_strictMono {a b e : ℝ} (ha : 0 < a) (hab : a < b) (he : 0 < e) :
    StrictMonoOn (fq a b e) (Icc 0 1) := by
  intro x hx y hy hxy
  have := frac_lt ha hab he
  unfold fq
  refine Real.rpow_lt_rpow_of_neg (frac_arg ha hab he hy.1 hy.2) ?_
    (div_neg_of_neg_of_pos (by norm_num) he)
  nlinarith

section

variable {a b e : ℝ} (ha : 0 < a) (hab : a < b) (he : 0 < e)
include ha hab he

theorem frac_dMax : Fractal.dMax ⟨a, b, e, a ^ (-e), b ^ (-e)⟩ = b ^ (-e) := by
  unfold Fractal.dMax
  exact if_neg (by rw [lit.1]; show ¬ b < 0; linarith)

theorem frac_middle {l r : ℝ} (hl : 0 ≤ l) (hlr : l < r) (hr : r ≤ 1) :
    DrawsHaveLaw (Fractal.drawFromMiddleQuantile ⟨a, b, e, a ^ (-e), b ^ (-e)⟩ l r)
      ((unif.map (fq a b e))[|Ioc (fq a b e l) (fq a b e r)]) := by
  have hq : Measurable (fq a b e) := measurable_fq ha hab he
  rw [← map_part hq (frac_strictMono ha hab he) hl hlr hr]
  refine drawsHaveLaw_of (by fun_prop) fun un s s' u eu h0 h1 => ?_
  unfold Fractal.drawFromMiddleQuantile
  have hu0 : 0 ≤ l + u * (r - l) := by nlinarith
  have hu1 : l + u * (r - l) ≤ 1 := by nlinarith
  have harg := frac_arg ha hab he hu0 hu1
  simp only [Res.monad_bind_eq, eu, Res.bind_ok, fdiv_ok he.ne', frac_dMax ha hab he]
  rw [show a ^ (-e) + (l + u * (r - l)) * (b ^ (-e) - a ^ (-e))
    = (1 - (l + u * (r - l))) * a ^ (-e) + (l + u * (r - l)) * b ^ (-e) by ring, fpow_ok harg, Res.bind_ok]
  unfold fq
  rw [show (-1.0 : ℝ) = -1 by norm_num]

theorem frac_lower {r : ℝ} (h0 : 0 < r) (hr : r ≤ 1) :
    DrawsHaveLaw (Fractal.drawFromLowerQuantile ⟨a, b, e, a ^ (-e), b ^ (-e)⟩ r)
      ((unif.map (fq a b e))[|Ioc (fq a b e 0) (fq a b e r)]) := by
  have hq : Measurable (fq a b e) := measurable_fq ha hab he
  rw [← map_part hq (frac_strictMono ha hab he) le_rfl h0 hr]
  refine drawsHaveLaw_of (by fun_prop) fun un s s' u eu h0 h1 => ?_
  unfold Fractal.drawFromLowerQuantile
  have hu0 : 0 ≤ 0 + u * (r - 0) := by nlinarith
  have hu1 : 0 + u * (r - 0) ≤ 1 := by nlinarith
  have harg := frac_arg ha hab he hu0 hu1
  simp only [Res.monad_bind_eq, eu, Res.bind_ok, fdiv_ok he.ne', frac_dMax ha hab he]
  rw [show a ^ (-e) - u * (a ^ (-e) - b ^ (-e)) * r
    = (1 - (0 + u * (r - 0))) * a ^ (-e) + (0 + u * (r - 0)) * b ^ (-e) by ring, fpow_ok harg, Res.bind_ok]
  unfold fq
  rw [show (-1.0 : ℝ) = -1 by norm_num]

/-- The upper part, of the part above the limit if there is one: `t` is the probability below the
limit. -/
theorem frac_upper {qu t : ℝ} {limit : Option ℝ} (h0 : 0 ≤ qu) (h1 : qu < 1) (ht0 : 0 ≤ t) (ht1 : t < 1)
    (hlim : limit = none ∧ t = 0 ∨ ∃ x, limit = some x ∧
      ((x < a ∧ t = 0) ∨ (a ≤ x ∧ x < b ∧ fq a b e t = x))) :
    DrawsHaveLaw (Fractal.drawFromUpperQuantile ⟨a, b, e, a ^ (-e), b ^ (-e)⟩ qu limit)
      ((unif.map (fq a b e))[|Ioi (fq a b e (t + qu * (1 - t)))]) := by
  have hq : Measurable (fq a b e) := measurable_fq ha hab he
  set l := t + qu * (1 - t) with hl
  have hl0 : 0 ≤ l := by nlinarith
  have hl1 : l < 1 := by nlinarith
  have hmono := frac_strictMono ha hab he
  rw [← cond_above hq hmono hl0 hl1, ← map_part hq hmono hl0 hl1 le_rfl]
  have erev : unif.map (fun u => fq a b e (l + u * (1 - l)))
      = unif.map (fun u => fq a b e (l + (1 - u) * (1 - l))) := by
    conv_lhs => rw [← unif_reverse]
    rw [Measure.map_map (by fun_prop) (by fun_prop)]
    rfl
  rw [erev]
  refine drawsHaveLaw_of (by fun_prop) fun un s s' u eu h0' h1' => ?_
  unfold Fractal.drawFromUpperQuantile
  have hu0 : 0 ≤ l + (1 - u) * (1 - l) := by nlinarith
  have hu1 : l + (1 - u) * (1 - l) ≤ 1 := by nlinarith
  have harg := frac_arg ha hab he hu0 hu1
  have key : ∀ m, m = (1 - t) * a ^ (-e) + t * b ^ (-e) →
      ((fpow (b ^ (-e) + u * (m - b ^ (-e)) * (1.0 - qu)) (-1.0 / e)).bind fun r => Res.ok (r, s'))
        = .ok (fq a b e (l + (1 - u) * (1 - l)), s') := by
    rintro m rfl
    rw [show b ^ (-e) + u * ((1 - t) * a ^ (-e) + t * b ^ (-e) - b ^ (-e)) * (1.0 - qu)
      = (1 - (l + (1 - u) * (1 - l))) * a ^ (-e) + (l + (1 - u) * (1 - l)) * b ^ (-e) by
        rw [hl, lit.2.1]; ring, fpow_ok harg, Res.bind_ok]
    unfold fq
    rw [show (-1.0 : ℝ) = -1 by norm_num]
  simp only [Res.monad_bind_eq, eu, Res.bind_ok, fdiv_ok he.ne', frac_dMax ha hab he]
  rcases hlim with ⟨rfl, rfl⟩ | ⟨x, rfl, ⟨hx, rfl⟩ | ⟨hx, hxb, ex⟩⟩
  · exact key _ (by ring)
  · simp only [ge_iff_le, not_le.2 hx, if_false]
    exact key _ (by ring)
  · have hx0 : 0 < x := by linarith
    simp only [ge_iff_le, hx, if_true]
    rw [fpow_ok hx0, Res.bind_ok]
    refine key _ ?_
    rw [← ex]
    unfold fq
    rw [← Real.rpow_mul (frac_arg ha hab he ht0 ht1.le).le, show -1 / e * -e = 1 by field_simp,
      Real.rpow_one]

end

end Verif.Distr
