import Verif.Spec.Noise
import Verif.Lemmas.Outcome
import Mathlib.Probability.Distributions.Gaussian.HasGaussianLaw.Independence
import Mathlib.Probability.Independence.InfinitePi

/-! Helper lemmas: linear functions of random draws. -/

namespace Verif

open Spec MeasureTheory ProbabilityTheory Finset

variable {Ω : Type} [MeasurableSpace Ω] {μ : Measure Ω} {w : ℕ → Ω → ℝ}

theorem Spec.GaussianNoise.white [IsProbabilityMeasure μ] (h : GaussianNoise μ w) : WhiteNoise μ w := by
  have hg : ∀ a, HasGaussianLaw (w a) μ := fun a => (h.law a).hasGaussianLaw
  refine ⟨fun a => (hg a).memLp_two, fun a => ?_, fun a b => ?_⟩
  · rw [(h.law a).integral_eq, integral_id_gaussianReal]
  · split_ifs with hab
    · subst hab
      rw [covariance_self (hg a).aemeasurable, (h.law a).variance_eq, variance_id_gaussianReal]
      rfl
    · exact (h.indep.indepFun hab).covariance_eq_zero (hg a).memLp_two (hg b).memLp_two

section
variable {ι : Type} (S : Finset ι)

theorem Spec.WhiteNoise.memLp_lin (h : WhiteNoise μ w) (α : ι → ℝ) (f : ι → ℕ) :
    MemLp (fun ω => ∑ p ∈ S, α p * w (f p) ω) 2 μ :=
  memLp_finsetSum S fun p _ => (h.memLp (f p)).const_mul (α p)

theorem Spec.WhiteNoise.mean_lin [IsProbabilityMeasure μ] (h : WhiteNoise μ w) (α : ι → ℝ) (f : ι → ℕ) :
    ∫ ω, ∑ p ∈ S, α p * w (f p) ω ∂μ = 0 := by
  rw [integral_finsetSum]
  · refine Finset.sum_eq_zero fun p _ => ?_
    rw [integral_const_mul, h.mean, mul_zero]
  · intro p _
    exact ((h.memLp (f p)).integrable (by norm_num)).const_mul _

theorem Spec.WhiteNoise.cov_lin [IsProbabilityMeasure μ] (h : WhiteNoise μ w) (α β : ι → ℝ) (f g : ι → ℕ) :
    cov[fun ω => ∑ p ∈ S, α p * w (f p) ω, fun ω => ∑ p ∈ S, β p * w (g p) ω; μ]
      = ∑ p ∈ S, ∑ q ∈ S, if f p = g q then α p * β q else 0 := by
  rw [covariance_fun_sum_fun_sum' (fun p _ => (h.memLp (f p)).const_mul (α p))
    (fun p _ => (h.memLp (g p)).const_mul (β p))]
  refine Finset.sum_congr rfl fun p _ => Finset.sum_congr rfl fun q _ => ?_
  rw [covariance_const_mul_left, covariance_const_mul_right, h.cov]
  split_ifs <;> simp

theorem Spec.WhiteNoise.cov_lin_same [IsProbabilityMeasure μ] (h : WhiteNoise μ w) (α β : ι → ℝ)
    (f : ι → ℕ) (hf : Set.InjOn f S) :
    cov[fun ω => ∑ p ∈ S, α p * w (f p) ω, fun ω => ∑ p ∈ S, β p * w (f p) ω; μ]
      = ∑ p ∈ S, α p * β p := by
  classical
  rw [h.cov_lin]
  refine Finset.sum_congr rfl fun p hp => ?_
  rw [Finset.sum_eq_single p]
  · rw [if_pos rfl]
  · intro q hq hqp
    rw [if_neg fun e => hqp (hf hq hp e.symm)]
  · exact fun h => absurd hp h

theorem Spec.WhiteNoise.cov_lin_disjoint [IsProbabilityMeasure μ] (h : WhiteNoise μ w) (α β : ι → ℝ)
    (f g : ι → ℕ) (hfg : ∀ p ∈ S, ∀ q ∈ S, f p ≠ g q) :
    cov[fun ω => ∑ p ∈ S, α p * w (f p) ω, fun ω => ∑ p ∈ S, β p * w (g p) ω; μ] = 0 := by
  rw [h.cov_lin]
  exact Finset.sum_eq_zero fun p hp => Finset.sum_eq_zero fun q hq => if_neg (hfg p hp q hq)

end

/-- Finitely many linear functions of the draws are jointly Gaussian. -/
theorem Spec.GaussianNoise.joint {κ ι : Type} [Fintype κ] (h : GaussianNoise μ w) (S : Finset ι)
    (α : κ → ι → ℝ) (f : κ → ι → ℕ) :
    HasGaussianLaw (fun ω (c : κ) => ∑ p ∈ S, α c p * w (f c p) ω) μ := by
  classical
  set J : Finset ℕ := Finset.univ.biUnion fun c => S.image (f c) with hJ
  have hmem : ∀ c, ∀ p ∈ S, f c p ∈ J := fun c p hp => by
    rw [hJ, Finset.mem_biUnion]
    exact ⟨c, Finset.mem_univ _, Finset.mem_image_of_mem _ hp⟩
  have hg : ∀ a : J, HasGaussianLaw (w a) μ := fun a => (h.law a).hasGaussianLaw
  have hi : iIndepFun (fun a : J => w a) μ := h.indep.precomp Subtype.val_injective
  have hv := hi.hasGaussianLaw hg
  let L : (J → ℝ) →L[ℝ] (κ → ℝ) := ContinuousLinearMap.pi fun c =>
    ∑ p ∈ S.attach, α c p • ContinuousLinearMap.proj (R := ℝ) (φ := fun _ : J => ℝ)
      ⟨f c p, hmem c p p.2⟩
  have := hv.map_fun L
  refine this.congr (Filter.Eventually.of_forall fun ω => ?_)
  funext c
  simp only [L, ContinuousLinearMap.coe_pi', FunLike.coe_sum, Finset.sum_apply,
    FunLike.coe_smul, Pi.smul_apply, ContinuousLinearMap.proj_apply, smul_eq_mul]
  exact Finset.sum_attach S fun p => α c p * w (f c p) ω

/-- The same for a family of vectors. -/
theorem Spec.GaussianNoise.joint₂ {κ κ' ι : Type} [Fintype κ] [Fintype κ'] (h : GaussianNoise μ w)
    (S : Finset ι) (α : κ → κ' → ι → ℝ) (f : κ → κ' → ι → ℕ) :
    HasGaussianLaw (fun ω (c : κ) (c' : κ') => ∑ p ∈ S, α c c' p * w (f c c' p) ω) μ := by
  have := h.joint S (fun c : κ × κ' => α c.1 c.2) (fun c => f c.1 c.2)
  exact this.map_fun (ContinuousLinearMap.pi fun c => ContinuousLinearMap.pi fun c' =>
    ContinuousLinearMap.proj (R := ℝ) (φ := fun _ : κ × κ' => ℝ) (c, c'))

/-! ### A generator with Gaussian noise exists -/

/-- A generator whose state is the sequence still to come. -/
def seqDraw (s : ℕ → ℝ) : Res (ℝ × (ℕ → ℝ)) := .ok (s 0, fun n => s (n + 1))

theorem seqDraw_draws (n : ℕ) (s : ℕ → ℝ) :
    draws seqDraw n s = .ok ((List.range n).map s, fun a => s (n + a)) := by
  induction n generalizing s with
  | zero => simp [draws]
  | succ n ih =>
    rw [draws]
    simp only [seqDraw, Res.bind_ok, ih]
    rw [List.range_succ_eq_map]
    simp only [List.map_cons, List.map_map, Res.ok.injEq, Prod.mk.injEq]
    refine ⟨rfl, ?_⟩
    funext a; congr 1; omega

theorem seqDraw_streams (s : ℕ → ℝ) : Streams seqDraw s s := fun n => ⟨_, seqDraw_draws n s⟩

/-- The law of a sequence of independent standard normal variables. -/
noncomputable def seqLaw : Measure (ℕ → ℝ) := Measure.infinitePi fun _ => gaussianReal 0 1

instance : IsProbabilityMeasure seqLaw := by unfold seqLaw; infer_instance

theorem seqLaw_noise : GaussianNoise seqLaw fun a ω => ω a where
  law a := ⟨(measurable_pi_apply a).aemeasurable, Measure.infinitePi_map_eval _ a⟩
  indep := iIndepFun_infinitePi (X := fun _ x => x) fun _ => measurable_id

end Verif
