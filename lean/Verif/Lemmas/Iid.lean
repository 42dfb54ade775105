import Mathlib.Probability.ProductMeasure
import Mathlib.MeasureTheory.Measure.Prod
import Mathlib.MeasureTheory.Integral.Lebesgue.Countable

/-! Helper lemmas: sequences of independent values, and programs that read a random number of them. -/

namespace Verif.Iid

open MeasureTheory Set
open scoped ENNReal

variable {X : Type} [MeasurableSpace X] (κ : Measure X) [IsProbabilityMeasure κ]

/-- The law of a sequence of independent values with law `κ`. -/
noncomputable def seq : Measure (ℕ → X) := Measure.infinitePi fun _ => κ

instance : IsProbabilityMeasure (seq κ) := by unfold seq; infer_instance

/-- The first `n` values are in given sets. -/
def box (n : ℕ) (t : ℕ → Set X) : Set (ℕ → X) := {u | ∀ i < n, u i ∈ t i}

omit [MeasurableSpace X] in
theorem box_succ (n : ℕ) (t : ℕ → Set X) :
    box (n + 1) t = {u | u 0 ∈ t 0 ∧ (fun i => u (i + 1)) ∈ box n fun i => t (i + 1)} := by
  ext u
  simp only [box, mem_ofPred_eq]
  constructor
  · exact fun h => ⟨h 0 (by omega), fun i hi => h (i + 1) (by omega)⟩
  · rintro ⟨h0, h⟩ i hi
    cases i with
    | zero => exact h0
    | succ i => exact h i (by omega)

theorem measurableSet_box (n : ℕ) {t : ℕ → Set X} (ht : ∀ i, MeasurableSet (t i)) :
    MeasurableSet (box n t) := by
  have : box n t = ⋂ i : ℕ, ⋂ _ : i < n, (fun u : ℕ → X => u i) ⁻¹' t i := by
    ext u; simp [box]
  rw [this]
  exact MeasurableSet.iInter fun i => MeasurableSet.iInter fun _ => measurable_pi_apply i (ht i)

/-- A measure on sequences is determined by such boxes. -/
theorem eq_seq {ν : Measure (ℕ → X)}
    (h : ∀ n t, (∀ i, MeasurableSet (t i)) → ν (box n t) = ∏ i ∈ Finset.range n, κ (t i)) :
    ν = seq κ := by
  classical
  refine Measure.eq_infinitePi (fun _ => κ) fun s t ht => ?_
  set t' : ℕ → Set X := fun i => if i ∈ s then t i else univ with ht'
  have hm : ∀ i, MeasurableSet (t' i) := by
    intro i
    simp only [ht']
    split_ifs with hi
    · exact ht i
    · exact MeasurableSet.univ
  obtain ⟨n, hn⟩ : ∃ n, s ⊆ Finset.range n := s.exists_nat_subset_range
  have e : Set.pi (s : Set ℕ) t = box n t' := by
    ext u
    simp only [Set.mem_pi, Finset.mem_coe, box, mem_ofPred_eq, ht']
    constructor
    · intro hu i _
      split_ifs with hi
      · exact hu i hi
      · trivial
    · intro hu i hi
      have := hu i (Finset.mem_range.1 (hn hi))
      rwa [if_pos hi] at this
  rw [e, h n t' hm, ← Finset.prod_subset hn]
  · exact Finset.prod_congr rfl fun i hi => by simp [ht', hi]
  · intro i _ hi
    simp [ht', hi]

theorem seq_box (n : ℕ) {t : ℕ → Set X} (ht : ∀ i, MeasurableSet (t i)) :
    seq κ (box n t) = ∏ i ∈ Finset.range n, κ (t i) := by
  have : box n t = Set.pi (Finset.range n : Set ℕ) t := by
    ext u; simp [box]
  rw [this]
  exact Measure.infinitePi_pi (fun _ => κ) fun i _ => ht i

/-- Put a value in front of a sequence. -/
def cons (p : X × (ℕ → X)) : ℕ → X
  | 0 => p.1
  | i + 1 => p.2 i

theorem measurable_cons : Measurable (cons (X := X)) := by
  refine measurable_pi_iff.2 fun i => ?_
  cases i with
  | zero => exact measurable_fst
  | succ i => exact (measurable_pi_apply i).comp measurable_snd

theorem map_cons : (κ.prod (seq κ)).map cons = seq κ := by
  refine eq_seq κ fun n t ht => ?_
  rw [Measure.map_apply measurable_cons (measurableSet_box n ht)]
  cases n with
  | zero =>
    have : cons ⁻¹' box 0 t = univ := by ext u; simp [box]
    rw [this]; simp
  | succ n =>
    have : cons ⁻¹' box (n + 1) t = t 0 ×ˢ box n fun i => t (i + 1) := by
      ext p
      rw [box_succ]
      simp only [mem_preimage, mem_ofPred_eq, mem_prod]
      rfl
    rw [this, Measure.prod_prod, seq_box κ n fun i => ht (i + 1), Finset.prod_range_succ']
    exact mul_comm _ _

/-- Drop the first `m` values. -/
def shift (m : ℕ) (u : ℕ → X) : ℕ → X := fun i => u (i + m)

theorem measurable_shift (m : ℕ) : Measurable (shift (X := X) m) :=
  measurable_pi_iff.2 fun i => measurable_pi_apply (i + m)

/-- The first value and the rest are independent. -/
theorem lintegral_cons {F : X → (ℕ → X) → ℝ≥0∞} (hF : Measurable (Function.uncurry F)) :
    ∫⁻ u, F (u 0) (shift 1 u) ∂seq κ = ∫⁻ x, ∫⁻ r, F x r ∂seq κ ∂κ := by
  have hm : Measurable fun u : ℕ → X => F (u 0) (shift 1 u) :=
    hF.comp ((measurable_pi_apply 0).prodMk (measurable_shift 1))
  conv_lhs => rw [← map_cons κ]
  rw [lintegral_map hm measurable_cons]
  exact lintegral_prod _ hF.aemeasurable

/-- The same for the first two values. -/
theorem lintegral_cons2 {F : X × X → (ℕ → X) → ℝ≥0∞} (hF : Measurable (Function.uncurry F)) :
    ∫⁻ u, F (u 0, u 1) (shift 2 u) ∂seq κ = ∫⁻ p, ∫⁻ r, F p r ∂seq κ ∂κ.prod κ := by
  have h1 := lintegral_cons κ (F := fun x r => F (x, r 0) (shift 1 r)) (by
    refine hF.comp (Measurable.prodMk (measurable_fst.prodMk ?_) ?_)
    · exact (measurable_pi_apply 0).comp measurable_snd
    · exact (measurable_shift 1).comp measurable_snd)
  have e : (fun u : ℕ → X => F (u 0, u 1) (shift 2 u))
      = fun u => F (u 0, (shift 1 u) 0) (shift 1 (shift 1 u)) := by
    funext u; rfl
  rw [e, h1, lintegral_prod]
  · refine lintegral_congr fun x => ?_
    exact lintegral_cons κ (F := fun y r => F (x, y) r)
      (hF.comp ((measurable_const.prodMk measurable_fst).prodMk measurable_snd))
  · exact (hF.lintegral_prod_right' (ν := seq κ)).aemeasurable

/-! ### Rejection loops -/

variable {Y : Type} [MeasurableSpace Y] [Inhabited Y]

open Classical in
/-- Read pairs until one is in `B`; the result is made from that pair, and what follows is left. -/
noncomputable def loop (B : Set (X × X)) (h : X × X → Y) (u : ℕ → X) : Y × (ℕ → X) :=
  if H : ∃ k, (u (2 * k), u (2 * k + 1)) ∈ B then
    (h (u (2 * Nat.find H), u (2 * Nat.find H + 1)), shift (2 * Nat.find H + 2) u)
  else (default, u)

/-- The first accepted pair is number `k`. -/
def First (B : Set (X × X)) (k : ℕ) : Set (ℕ → X) :=
  {u | (∀ i < k, (u (2 * i), u (2 * i + 1)) ∉ B) ∧ (u (2 * k), u (2 * k + 1)) ∈ B}

/-- No pair is accepted. -/
def Never (B : Set (X × X)) : Set (ℕ → X) := {u | ∀ i, (u (2 * i), u (2 * i + 1)) ∉ B}

omit [MeasurableSpace X] [MeasurableSpace Y] in
theorem loop_first {B : Set (X × X)} (h : X × X → Y) {k : ℕ} {u : ℕ → X} (hu : u ∈ First B k) :
    loop B h u = (h (u (2 * k), u (2 * k + 1)), shift (2 * k + 2) u) := by
  classical
  have H : ∃ k, (u (2 * k), u (2 * k + 1)) ∈ B := ⟨k, hu.2⟩
  have e : Nat.find H = k := (Nat.find_eq_iff H).2 ⟨hu.2, fun i hi => hu.1 i hi⟩
  unfold loop
  rw [dif_pos H, e]

omit [MeasurableSpace X] [MeasurableSpace Y] in
theorem loop_never {B : Set (X × X)} (h : X × X → Y) {u : ℕ → X} (hu : u ∈ Never B) :
    loop B h u = (default, u) := by
  unfold loop
  rw [dif_neg fun ⟨k, hk⟩ => hu k hk]

omit [MeasurableSpace X] in
theorem first_or_never (B : Set (X × X)) (u : ℕ → X) : u ∈ Never B ∨ ∃ k, u ∈ First B k := by
  classical
  by_cases H : ∃ k, (u (2 * k), u (2 * k + 1)) ∈ B
  · exact .inr ⟨Nat.find H, fun i hi => Nat.find_min H hi, Nat.find_spec H⟩
  · exact .inl fun i hi => H ⟨i, hi⟩

theorem measurable_pair (i : ℕ) : Measurable fun u : ℕ → X => (u (2 * i), u (2 * i + 1)) :=
  (measurable_pi_apply _).prodMk (measurable_pi_apply _)

theorem measurableSet_first {B : Set (X × X)} (hB : MeasurableSet B) (k : ℕ) :
    MeasurableSet (First B k) := by
  have : First B k = (⋂ i : ℕ, ⋂ _ : i < k, (fun u : ℕ → X => (u (2 * i), u (2 * i + 1))) ⁻¹' Bᶜ)
      ∩ (fun u : ℕ → X => (u (2 * k), u (2 * k + 1))) ⁻¹' B := by
    ext u; simp [First]
  rw [this]
  exact (MeasurableSet.iInter fun i => MeasurableSet.iInter fun _ => measurable_pair i hB.compl).inter
    (measurable_pair k hB)

theorem measurableSet_never {B : Set (X × X)} (hB : MeasurableSet B) : MeasurableSet (Never B) := by
  have : Never B = ⋂ i : ℕ, (fun u : ℕ → X => (u (2 * i), u (2 * i + 1))) ⁻¹' Bᶜ := by
    ext u; simp [Never]
  rw [this]
  exact MeasurableSet.iInter fun i => measurable_pair i hB.compl

omit [MeasurableSpace X] in
theorem first_succ (B : Set (X × X)) (k : ℕ) :
    First B (k + 1) = {u | (u 0, u 1) ∉ B ∧ shift 2 u ∈ First B k} := by
  ext u
  simp only [First, mem_ofPred_eq]
  constructor
  · rintro ⟨h1, h2⟩
    refine ⟨h1 0 (by omega), fun i hi => ?_, ?_⟩
    · have := h1 (i + 1) (by omega)
      exact this
    · exact h2
  · rintro ⟨h0, h1, h2⟩
    refine ⟨fun i hi => ?_, h2⟩
    cases i with
    | zero => exact h0
    | succ i => exact h1 i (by omega)

theorem measurable_loop {B : Set (X × X)} (hB : MeasurableSet B) {h : X × X → Y}
    (hh : Measurable h) : Measurable (loop B h) := by
  intro A hA
  have : loop B h ⁻¹' A = (Never B ∩ (fun u => ((default : Y), u)) ⁻¹' A) ∪
      ⋃ k, First B k ∩ (fun u => (h (u (2 * k), u (2 * k + 1)), shift (2 * k + 2) u)) ⁻¹' A := by
    ext u
    simp only [mem_preimage, mem_union, mem_inter_iff, mem_iUnion]
    constructor
    · intro hu
      rcases first_or_never B u with hn | ⟨k, hk⟩
      · rw [loop_never h hn] at hu
        exact .inl ⟨hn, hu⟩
      · rw [loop_first h hk] at hu
        exact .inr ⟨k, hk, hu⟩
    · rintro (⟨hn, hu⟩ | ⟨k, hk, hu⟩)
      · rwa [loop_never h hn]
      · rwa [loop_first h hk]
  rw [this]
  refine ((measurableSet_never hB).inter ?_).union
    (MeasurableSet.iUnion fun k => (measurableSet_first hB k).inter ?_)
  · exact (measurable_const.prodMk measurable_id) hA
  · exact ((hh.comp (measurable_pair k)).prodMk (measurable_shift _)) hA

section
variable {B : Set (X × X)} (hB : MeasurableSet B) {h : X × X → Y} (hh : Measurable h)
  {F : Y → (ℕ → X) → ℝ≥0∞} (hF : Measurable (Function.uncurry F))
include hB hh hF

omit hB [Inhabited Y] in
theorem measurable_value (k : ℕ) :
    Measurable fun u : ℕ → X => F (h (u (2 * k), u (2 * k + 1))) (shift (2 * k + 2) u) :=
  hF.comp ((hh.comp (measurable_pair k)).prodMk (measurable_shift _))

omit [Inhabited Y] in
/-- The part of the integral where pair `k` is the first to be accepted. -/
theorem lintegral_first (k : ℕ) :
    ∫⁻ u in First B k, F (h (u (2 * k), u (2 * k + 1))) (shift (2 * k + 2) u) ∂seq κ
      = (κ.prod κ Bᶜ) ^ k * ∫⁻ p in B, ∫⁻ r, F (h p) r ∂seq κ ∂κ.prod κ := by
  induction k with
  | zero =>
    have e : (First B 0).indicator (fun u => F (h (u (2 * 0), u (2 * 0 + 1))) (shift (2 * 0 + 2) u))
        = fun u => (fun p r => B.indicator (fun p => F (h p) r) p) (u 0, u 1) (shift 2 u) := by
      funext u
      by_cases hu : (u 0, u 1) ∈ B
      · rw [indicator_of_mem (show u ∈ First B 0 from ⟨fun i hi => by omega, hu⟩)]
        simp only [indicator_of_mem hu]
      · rw [indicator_of_notMem (show u ∉ First B 0 from fun hc => hu hc.2)]
        simp only [indicator_of_notMem hu]
    rw [← lintegral_indicator (measurableSet_first hB 0), e,
      lintegral_cons2 κ (F := fun p r => B.indicator (fun p => F (h p) r) p), pow_zero, one_mul,
      ← lintegral_indicator hB]
    · refine lintegral_congr fun p => ?_
      by_cases hp : p ∈ B
      · simp only [indicator_of_mem hp]
      · simp only [indicator_of_notMem hp, lintegral_zero]
    · have : (Function.uncurry fun (p : X × X) (r : ℕ → X) => B.indicator (fun p => F (h p) r) p)
          = (Prod.fst ⁻¹' B).indicator fun q : (X × X) × (ℕ → X) => F (h q.1) q.2 := by
        funext q
        rfl
      rw [this]
      exact (hF.comp ((hh.comp measurable_fst).prodMk measurable_snd)).indicator
        (measurable_fst hB)
  | succ k ih =>
    set G : (ℕ → X) → ℝ≥0∞ := (First B k).indicator
      fun u => F (h (u (2 * k), u (2 * k + 1))) (shift (2 * k + 2) u) with hG
    have hGm : Measurable G :=
      (measurable_value hh hF k).indicator (measurableSet_first hB k)
    have e : (First B (k + 1)).indicator
        (fun u => F (h (u (2 * (k + 1)), u (2 * (k + 1) + 1))) (shift (2 * (k + 1) + 2) u))
        = fun u => (fun p r => Bᶜ.indicator (fun _ => G r) p) (u 0, u 1) (shift 2 u) := by
      funext u
      rw [first_succ]
      by_cases hu : (u 0, u 1) ∈ B
      · rw [indicator_of_notMem (fun hc => hc.1 hu)]
        simp only [indicator_of_notMem (notMem_compl_iff.2 hu)]
      · simp only [indicator_of_mem (mem_compl hu), hG]
        by_cases hs : shift 2 u ∈ First B k
        · rw [indicator_of_mem (show u ∈ {u | (u 0, u 1) ∉ B ∧ shift 2 u ∈ First B k} from ⟨hu, hs⟩),
            indicator_of_mem hs]
          rfl
        · rw [indicator_of_notMem fun hc => hs hc.2, indicator_of_notMem hs]
    rw [← lintegral_indicator (measurableSet_first hB (k + 1)), e,
      lintegral_cons2 κ (F := fun p r => Bᶜ.indicator (fun _ => G r) p)]
    · have e2 : ∀ p : X × X, ∫⁻ r, Bᶜ.indicator (fun _ => G r) p ∂seq κ
          = Bᶜ.indicator (fun _ => ∫⁻ r, G r ∂seq κ) p := by
        intro p
        by_cases hp : p ∈ Bᶜ
        · simp only [indicator_of_mem hp]
        · simp only [indicator_of_notMem hp, lintegral_zero]
      simp only [e2]
      rw [lintegral_indicator hB.compl, setLIntegral_const, hG,
        lintegral_indicator (measurableSet_first hB k), ih, pow_succ]
      ring
    · have : (Function.uncurry fun (p : X × X) (r : ℕ → X) => Bᶜ.indicator (fun _ => G r) p)
          = (Prod.fst ⁻¹' Bᶜ).indicator fun q : (X × X) × (ℕ → X) => G q.2 := by
        funext q
        rfl
      rw [this]
      exact (hGm.comp measurable_snd).indicator (measurable_fst hB.compl)

end

omit [MeasurableSpace X] in
theorem first_disjoint (B : Set (X × X)) : Pairwise (Function.onFun Disjoint (First B)) := by
  intro i j hij
  refine Set.disjoint_left.2 fun u hi hj => ?_
  rcases lt_or_gt_of_ne hij with h | h
  · exact hj.1 i h hi.2
  · exact hi.1 j h hj.2

section
variable {B : Set (X × X)} (hB : MeasurableSet B) (hpos : κ.prod κ B ≠ 0)
include hB hpos

omit hpos in
theorem geometric : (∑' k : ℕ, (κ.prod κ Bᶜ) ^ k) = (κ.prod κ B)⁻¹ := by
  rw [ENNReal.tsum_geometric, prob_compl_eq_one_sub hB, ENNReal.sub_sub_cancel ENNReal.one_ne_top
    prob_le_one]

/-- Almost surely a pair is accepted. -/
theorem seq_never : seq κ (Never B) = 0 := by
  have h1 : ∀ k, seq κ (First B k) = (κ.prod κ Bᶜ) ^ k * κ.prod κ B := by
    intro k
    have := lintegral_first κ hB (measurable_id (α := X × X)) (F := fun _ _ => 1) measurable_const k
    simpa using this
  have h2 : seq κ (⋃ k, First B k) = 1 := by
    rw [measure_iUnion (first_disjoint B) (measurableSet_first hB)]
    simp only [h1]
    rw [ENNReal.tsum_mul_right, geometric κ hB, ENNReal.inv_mul_cancel hpos (measure_ne_top _ _)]
  have h3 : Never B ⊆ (⋃ k, First B k)ᶜ := by
    intro u hu hc
    obtain ⟨k, hk⟩ := mem_iUnion.1 hc
    exact hu k hk.2
  refine measure_mono_null h3 ?_
  rw [prob_compl_eq_one_sub (MeasurableSet.iUnion (measurableSet_first hB)), h2, tsub_self]

/-- What a rejection loop returns has the conditional law, and is independent of what follows. -/
theorem lintegral_loop {h : X × X → Y} (hh : Measurable h) {F : Y → (ℕ → X) → ℝ≥0∞}
    (hF : Measurable (Function.uncurry F)) :
    ∫⁻ u, F (loop B h u).1 (loop B h u).2 ∂seq κ
      = (κ.prod κ B)⁻¹ * ∫⁻ p in B, ∫⁻ r, F (h p) r ∂seq κ ∂κ.prod κ := by
  have hU : (⋃ k, First B k) =ᵐ[seq κ] univ := by
    refine (ae_eq_univ.2 (measure_mono_null ?_ (seq_never κ hB hpos)))
    intro u hu
    rcases first_or_never B u with hn | hk
    · exact hn
    · exact absurd (mem_iUnion.2 hk) hu
  rw [← setLIntegral_univ, ← setLIntegral_congr hU,
    lintegral_iUnion (measurableSet_first hB) (first_disjoint B)]
  have : ∀ k, ∫⁻ u in First B k, F (loop B h u).1 (loop B h u).2 ∂seq κ
      = (κ.prod κ Bᶜ) ^ k * ∫⁻ p in B, ∫⁻ r, F (h p) r ∂seq κ ∂κ.prod κ := by
    intro k
    rw [← lintegral_first κ hB hh hF k]
    refine setLIntegral_congr_fun (measurableSet_first hB k) fun u hu => ?_
    simp only [loop_first h hu]
  simp only [this]
  rw [ENNReal.tsum_mul_right, geometric κ hB]

end

/-! ### A program that is run again and again -/

/-- `prog` reads some values and returns one and what is left. -/
structure Fresh (prog : (ℕ → X) → Y × (ℕ → X)) (ν : Measure Y) : Prop where
  measurable : Measurable prog
  law : ∀ F : Y → (ℕ → X) → ℝ≥0∞, Measurable (Function.uncurry F) →
    ∫⁻ u, F (prog u).1 (prog u).2 ∂seq κ = ∫⁻ y, ∫⁻ r, F y r ∂seq κ ∂ν

/-- The results of successive runs. -/
def results (prog : (ℕ → X) → Y × (ℕ → X)) (u : ℕ → X) : ℕ → Y
  | 0 => (prog u).1
  | n + 1 => results prog (prog u).2 n

omit [Inhabited Y] in
theorem measurable_results {prog : (ℕ → X) → Y × (ℕ → X)} (h : Measurable prog) :
    Measurable (results prog) := by
  refine measurable_pi_iff.2 fun n => ?_
  induction n with
  | zero => exact measurable_fst.comp h
  | succ n ih => exact ih.comp (measurable_snd.comp h)

omit [Inhabited Y] in
/-- Successive results are independent and have the same law. -/
theorem Fresh.map_results {prog : (ℕ → X) → Y × (ℕ → X)} {ν : Measure Y} [IsProbabilityMeasure ν]
    (h : Fresh κ prog ν) : (seq κ).map (results prog) = seq ν := by
  refine eq_seq ν fun n t ht => ?_
  rw [Measure.map_apply (measurable_results h.measurable) (measurableSet_box n ht)]
  induction n generalizing t with
  | zero =>
    have : results prog ⁻¹' box 0 t = univ := by ext u; simp [box]
    rw [this]; simp
  | succ n ih =>
    have hm := (measurable_results h.measurable) (measurableSet_box n fun i => ht (i + 1))
    have e : results prog ⁻¹' box (n + 1) t = {u | (prog u).1 ∈ t 0 ∧
        (prog u).2 ∈ results prog ⁻¹' box n fun i => t (i + 1)} := by
      rw [box_succ]; rfl
    have hS : MeasurableSet (t 0 ×ˢ (results prog ⁻¹' box n fun i => t (i + 1))) := (ht 0).prod hm
    have h1 := h.law (fun y r => (t 0 ×ˢ (results prog ⁻¹' box n fun i => t (i + 1))).indicator 1
      (y, r)) (measurable_one.indicator hS)
    have h2 : seq κ (results prog ⁻¹' box (n + 1) t) = ∫⁻ u, (t 0 ×ˢ (results prog ⁻¹' box n fun i =>
        t (i + 1))).indicator (1 : Y × (ℕ → X) → ℝ≥0∞) ((prog u).1, (prog u).2) ∂seq κ := by
      rw [e, ← lintegral_indicator_one]
      · rfl
      · exact h.measurable hS
    rw [h2, h1, ← lintegral_prod (fun q => (t 0 ×ˢ (results prog ⁻¹' box n fun i =>
        t (i + 1))).indicator (1 : Y × (ℕ → X) → ℝ≥0∞) q) (measurable_one.indicator hS).aemeasurable,
      lintegral_indicator_one hS, Measure.prod_prod, ih _ (fun i => ht (i + 1)),
      Finset.prod_range_succ']
    exact mul_comm _ _

end Verif.Iid
