import Verif.Model.Empirical2
import Verif.Lemmas.Empirical
import Mathlib.Data.List.GetD

namespace Verif.Py

open Spec Finset

/-! ### Lists -/

theorem compress_map {ι α : Type} (p : ι → Bool) (f : ι → α) (l : List ι) :
    compress (l.map p) (l.map f) = (l.filter p).map f := by
  unfold compress
  rw [List.zip_map', List.filter_map, List.map_map]
  rfl

theorem range_map_getD {ι : Type} (d : ι) (l : List ι) :
    (List.range l.length).map (fun j => l.getD j d) = l := by
  refine List.ext_getElem (by simp) fun i h1 h2 => ?_
  simp [List.getElem?_eq_getElem h2]

theorem filter_range_getD {ι : Type} (d : ι) (l : List ι) (p : ι → Bool) :
    ((List.range l.length).filter fun j => p (l.getD j d)).map (fun j => l.getD j d) = l.filter p := by
  conv_rhs => rw [← range_map_getD d l, List.filter_map]
  rfl

theorem takeAt_eq {d : List ℝ} {c : List ℕ} (h : ∀ i ∈ c, i < d.length) :
    takeAt d c = .ok (c.map fun i => d.getD i 0) := by
  induction c with
  | nil => rfl
  | cons i c ih =>
    have hi := h i (by simp)
    rw [takeAt, ih fun i hi => h i (by simp [hi]), rd, List.getElem?_eq_getElem hi]
    simp [Res.monad_bind_eq, Res.bind_ok, List.getElem?_eq_getElem hi]

theorem binRow_eq {d : List ℝ} {cs : List (List ℕ)} (h : ∀ c ∈ cs, ∀ i ∈ c, i < d.length) :
    binRow d cs = .ok (cs.map fun c => npMean (c.map fun i => d.getD i 0)) := by
  induction cs with
  | nil => rfl
  | cons c cs ih =>
    rw [binRow, takeAt_eq (h c (by simp)), ih fun c hc => h c (by simp [hc])]
    rfl

/-! ### Components -/

section
variable {ι : Type} (d : ι) (l : List ι) (D : ι → ℝ)

theorem close_iff (hgap : ∀ a ∈ l, ∀ b ∈ l, |D a - D b| < 1e-10 → D a = D b) {i j : ℕ} :
    Close (l.map D) i j ↔ i < l.length ∧ j < l.length ∧ D (l.getD i d) = D (l.getD j d) := by
  unfold Close
  constructor
  · rintro ⟨x, y, hx, hy, h⟩
    rw [List.getElem?_map, Option.map_eq_some_iff] at hx hy
    obtain ⟨a, ha, rfl⟩ := hx
    obtain ⟨b, hb, rfl⟩ := hy
    obtain ⟨h1, rfl⟩ := List.getElem?_eq_some_iff.1 ha
    obtain ⟨h2, rfl⟩ := List.getElem?_eq_some_iff.1 hb
    refine ⟨h1, h2, ?_⟩
    rw [List.getD_eq_getElem _ _ h1, List.getD_eq_getElem _ _ h2]
    exact hgap _ (List.getElem_mem h1) _ (List.getElem_mem h2) h
  · rintro ⟨h1, h2, h⟩
    refine ⟨D (l.getD i d), D (l.getD j d), ?_, ?_, ?_⟩
    · rw [List.getElem?_map, List.getElem?_eq_getElem h1, List.getD_eq_getElem _ _ h1]
      rfl
    · rw [List.getElem?_map, List.getElem?_eq_getElem h2, List.getD_eq_getElem _ _ h2]
      rfl
    · rw [h, sub_self, abs_zero]
      norm_num

theorem sameComponent_iff (hgap : ∀ a ∈ l, ∀ b ∈ l, |D a - D b| < 1e-10 → D a = D b) {i j : ℕ}
    (hi : i < l.length) :
    SameComponent (Close (l.map D)) i j ↔ j < l.length ∧ D (l.getD j d) = D (l.getD i d) := by
  constructor
  · intro h
    induction h with
    | refl => exact ⟨hi, rfl⟩
    | tail _ h ih =>
      rw [close_iff d l D hgap] at h
      exact ⟨h.2.1, h.2.2.symm.trans ih.2⟩
  · rintro ⟨h1, h2⟩
    exact Relation.ReflTransGen.single ((close_iff d l D hgap).2 ⟨hi, h1, h2.symm⟩)

/-- The positions at which a distance occurs for the first time. -/
noncomputable def firsts : List ℕ :=
  open Classical in (List.range l.length).filter fun i => ∀ j < i, D (l.getD j d) ≠ D (l.getD i d)

/-- The distances, each one once. -/
noncomputable def values : List ℝ := (firsts d l D).map fun i => D (l.getD i d)

open Classical in
theorem components_eq (hgap : ∀ a ∈ l, ∀ b ∈ l, |D a - D b| < 1e-10 → D a = D b) :
    components (Close (l.map D)) l.length = (values d l D).map fun x =>
      (List.range l.length).filter fun j => D (l.getD j d) = x := by
  unfold components values firsts
  rw [List.map_map]
  have hf : (List.range l.length).filter (fun i => decide (∀ j < i, ¬ SameComponent (Close (l.map D)) j i))
      = (List.range l.length).filter fun i => decide (∀ j < i, D (l.getD j d) ≠ D (l.getD i d)) := by
    refine List.filter_congr fun i hi => ?_
    rw [List.mem_range] at hi
    simp only [decide_eq_decide]
    refine forall₂_congr fun j hj => ?_
    rw [sameComponent_iff d l D hgap (hj.trans hi)]
    simp only [hi, true_and]
    exact not_congr eq_comm
  rw [hf]
  refine List.map_congr_left fun i hi => ?_
  rw [List.mem_filter, List.mem_range] at hi
  refine List.filter_congr fun j hj => ?_
  rw [List.mem_range] at hj
  rw [decide_eq_decide, sameComponent_iff d l D hgap hi.1]
  simp [hj]

theorem mem_values {x : ℝ} : x ∈ values d l D ↔ ∃ c ∈ l, D c = x := by
  classical
  unfold values firsts
  simp only [List.mem_map, List.mem_filter, List.mem_range, decide_eq_true_eq]
  constructor
  · rintro ⟨i, ⟨hi, -⟩, rfl⟩
    refine ⟨_, ?_, rfl⟩
    rw [List.getD_eq_getElem _ _ hi]
    exact List.getElem_mem hi
  · rintro ⟨c, hc, rfl⟩
    obtain ⟨i, hi, rfl⟩ := List.getElem_of_mem hc
    have hex : ∃ j, j < l.length ∧ D (l.getD j d) = D l[i] :=
      ⟨i, hi, by rw [List.getD_eq_getElem _ _ hi]⟩
    refine ⟨Nat.find hex, ⟨(Nat.find_spec hex).1, fun j hj h => ?_⟩, (Nat.find_spec hex).2⟩
    exact Nat.find_min hex hj ⟨hj.trans (Nat.find_spec hex).1, h.trans (Nat.find_spec hex).2⟩

theorem nodup_values : (values d l D).Nodup := by
  classical
  unfold values firsts
  refine List.Nodup.map_on ?_ (List.nodup_range.filter _)
  intro i hi j hj h
  simp only [List.mem_filter, List.mem_range, decide_eq_true_eq] at hi hj
  rcases lt_trichotomy i j with hlt | rfl | hlt
  · exact absurd h (hj.2 i hlt)
  · rfl
  · exact absurd h.symm (hi.2 j hlt)

theorem firstDist_eq {g : List ℕ} {x : ℝ} (hne : g ≠ [])
    (h : ∀ i ∈ g, i < l.length ∧ D (l.getD i d) = x) : firstDist (l.map D) g = .ok x := by
  cases g with
  | nil => exact absurd rfl hne
  | cons i g =>
    obtain ⟨h1, h2⟩ := h i (by simp)
    unfold firstDist
    rw [rd]
    simp only [List.getElem?_cons_zero, Res.monad_bind_eq, Res.bind_ok]
    rw [rd, List.getElem?_map, List.getElem?_eq_getElem h1]
    rw [List.getD_eq_getElem _ _ h1] at h2
    simp [h2]

open Classical in
theorem groupDists_eq (xs : List ℝ) (hxs : ∀ x ∈ xs, ∃ c ∈ l, D c = x) :
    groupDists (l.map D) (xs.map fun x =>
      (List.range l.length).filter fun j => D (l.getD j d) = x) = .ok xs := by
  induction xs with
  | nil => rfl
  | cons x xs ih =>
    rw [List.map_cons, groupDists, firstDist_eq d l D (x := x) ?_ ?_, ih fun x hx => hxs x (by simp [hx])]
    · rfl
    · obtain ⟨c, hc, rfl⟩ := hxs x (by simp)
      obtain ⟨i, hi, rfl⟩ := List.getElem_of_mem hc
      refine List.ne_nil_of_mem (a := i) ?_
      rw [List.mem_filter, List.mem_range, List.getD_eq_getElem _ _ hi]
      exact ⟨hi, by simp⟩
    · intro i hi
      rw [List.mem_filter, List.mem_range] at hi
      exact ⟨hi.1, by simpa using hi.2⟩

open Classical in
theorem findDistanceBins_eq (L : List ι) (p : ι → Bool) (hne : L.filter p ≠ [])
    (hgap : ∀ a ∈ L, ∀ b ∈ L, |D a - D b| < 1e-10 → D a = D b) :
    findDistanceBins (L.map D) (L.map p)
      = .ok ⟨(values d (L.filter p) D).map fun x =>
          (List.range (L.filter p).length).filter fun j => D ((L.filter p).getD j d) = x,
        values d (L.filter p) D⟩ := by
  unfold findDistanceBins
  simp only [compress_map, List.length_map]
  rw [if_neg (by simpa using hne)]
  rw [components_eq d _ D fun a ha b hb => hgap a (List.mem_of_mem_filter ha) b (List.mem_of_mem_filter hb)]
  rw [groupDists_eq d _ D _ fun x hx => (mem_values d _ D).1 hx]
  rfl

/-- The row of means. -/
theorem binRow_classes [DecidableEq ι] (hl : l.Nodup) (f : ι → ℝ) (xs : List ℝ) (hxs : ∀ x ∈ xs, ∃ c ∈ l, D c = x) :
    binRow (l.map f) (xs.map fun x => open Classical in
      (List.range l.length).filter fun j => D (l.getD j d) = x)
      = .ok (xs.map fun x => some (open Classical in
        (∑ c ∈ l.toFinset.filter fun c => D c = x, f c) / (l.toFinset.filter fun c => D c = x).card)) := by
  classical
  rw [binRow_eq]
  · congr 1
    rw [List.map_map]
    refine List.map_congr_left fun x hx => ?_
    have h1 : (((List.range l.length).filter fun j => decide (D (l.getD j d) = x)).map
        fun i => (l.map f).getD i 0) = (l.filter fun c => decide (D c = x)).map f := by
      rw [← filter_range_getD d l, List.map_map]
      refine List.map_congr_left fun i hi => ?_
      rw [List.mem_filter, List.mem_range] at hi
      obtain ⟨hi, -⟩ := hi
      simp only [Function.comp]
      rw [List.getD_eq_getElem _ _ (by simpa using hi), List.getD_eq_getElem _ _ hi,
        List.getElem_map]
    simp only [Function.comp]
    rw [h1]
    have hs : (l.filter fun c => decide (D c = x)).toFinset
        = l.toFinset.filter fun c => D c = x := by
      ext c
      simp
    unfold npMean
    rw [if_neg, ← hs, List.toFinset_card_of_nodup (hl.filter _), List.sum_toFinset _ (hl.filter _),
      List.length_map]
    obtain ⟨c, hc, hcx⟩ := hxs x hx
    simp only [List.isEmpty_iff, List.map_eq_nil_iff]
    exact List.ne_nil_of_mem (List.mem_filter.2 ⟨hc, by simpa using hcx⟩)
  · intro c hc i hi
    rw [List.mem_map] at hc
    obtain ⟨x, -, rfl⟩ := hc
    rw [List.mem_filter, List.mem_range] at hi
    simpa using hi.1

end

/-! ### Columns -/

theorem mapM_some {α β : Type} (f : α → Option β) (g : α → β) {l : List α}
    (h : ∀ a ∈ l, f a = some (g a)) : l.mapM f = some (l.map g) := by
  induction l with
  | nil => rfl
  | cons a l ih =>
    rw [List.mapM_cons, h a (by simp), ih fun a ha => h a (by simp [ha])]
    rfl

theorem column_eq {n : ℕ} (w : ℕ → ℝ → ℝ) {xs : List ℝ} {j : ℕ} {x : ℝ} (hj : xs[j]? = some x) :
    column ((List.range n).map fun k => xs.map fun x => some (w k x)) j
      = some ((List.range n).map fun k => w k x) := by
  unfold column
  rw [mapM_some _ (fun r => ((r[j]?).join).getD 0) (l := (List.range n).map fun k => xs.map fun x => some (w k x))]
  · rw [List.map_map]
    congr 1
    refine List.map_congr_left fun k _ => ?_
    simp [hj]
  · intro r hr
    rw [List.mem_map] at hr
    obtain ⟨k, -, rfl⟩ := hr
    simp [hj]

theorem npMean_range {n : ℕ} (hn : 0 < n) (f : ℕ → ℝ) :
    npMean ((List.range n).map f) = some ((∑ k ∈ Finset.range n, f k) / n) := by
  unfold npMean
  rw [if_neg (by simp; omega), List.length_map, List.length_range, Finset.sum_range]
  congr 2
  rw [← Finset.sum_range, ← List.sum_toFinset _ List.nodup_range, List.toFinset_range]

theorem colMean_eq {n : ℕ} (hn : 0 < n) (w : ℕ → ℝ → ℝ) {xs : List ℝ} {j : ℕ} {x : ℝ}
    (hj : xs[j]? = some x) :
    colMean ((List.range n).map fun k => xs.map fun x => some (w k x)) j
      = some ((∑ k ∈ Finset.range n, w k x) / n) := by
  unfold colMean
  rw [column_eq w hj, Option.bind_some, npMean_range hn]

theorem colStd_eq {n : ℕ} (hn : 0 < n) (w : ℕ → ℝ → ℝ) {xs : List ℝ} {j : ℕ} {x : ℝ}
    (hj : xs[j]? = some x) :
    colStd ((List.range n).map fun k => xs.map fun x => some (w k x)) j
      = some (Real.sqrt ((∑ k ∈ Finset.range n,
          (w k x - (∑ l ∈ Finset.range n, w l x) / n) ^ 2) / n)) := by
  unfold colStd
  rw [column_eq w hj, Option.bind_some, npMean_range hn, Option.bind_some, List.map_map]
  simp only [Function.comp_def, sq_abs]
  rw [npMean_range hn]
  rfl

/-! ### Distances -/

theorem cornerDist_eq (c : ℕ × ℕ × ℕ) : cellDist 1.0 1.0 1.0 c (0, 0, 0) = cornerDist c := by
  unfold cellDist cornerDist
  norm_num

/-- Different roots of integers are not very close. -/
theorem sqrt_gap {a b : ℕ} (ha : a ≤ 25 * 10 ^ 18) (hb : b ≤ 25 * 10 ^ 18)
    (h : |Real.sqrt a - Real.sqrt b| < 1e-10) : a = b := by
  by_contra hab
  have hbound : ∀ m : ℕ, m ≤ 25 * 10 ^ 18 → Real.sqrt m ≤ 5 * 10 ^ 9 := by
    intro m hm
    have h1 : (m : ℝ) ≤ 25 * 10 ^ 18 := by exact_mod_cast hm
    calc Real.sqrt m ≤ Real.sqrt ((5 * 10 ^ 9) ^ 2) := Real.sqrt_le_sqrt (by linarith)
      _ = 5 * 10 ^ 9 := Real.sqrt_sq (by norm_num)
  have h1 := hbound a ha
  have h2 := hbound b hb
  have h3 : (1 : ℝ) ≤ |(a : ℝ) - b| := by
    have : (1 : ℤ) ≤ |(a : ℤ) - b| := Int.one_le_abs (sub_ne_zero.2 (by exact_mod_cast hab))
    exact_mod_cast this
  have h4 : (a : ℝ) - b = (Real.sqrt a - Real.sqrt b) * (Real.sqrt a + Real.sqrt b) := by
    have e1 := Real.mul_self_sqrt (Nat.cast_nonneg (α := ℝ) a)
    have e2 := Real.mul_self_sqrt (Nat.cast_nonneg (α := ℝ) b)
    linear_combination -e1 + e2
  rw [h4, abs_mul, abs_of_nonneg (add_nonneg (Real.sqrt_nonneg (a : ℝ)) (Real.sqrt_nonneg (b : ℝ)))] at h3
  have h5 : |Real.sqrt a - Real.sqrt b| * (Real.sqrt a + Real.sqrt b)
      ≤ |Real.sqrt a - Real.sqrt b| * 10 ^ 10 :=
    mul_le_mul_of_nonneg_left (by linarith) (abs_nonneg _)
  norm_num at h
  linarith

theorem cornerDist_nat (c : ℕ × ℕ × ℕ) :
    cornerDist c = Real.sqrt ((c.1 ^ 2 + c.2.1 ^ 2 + c.2.2 ^ 2 : ℕ) : ℝ) := by
  unfold cornerDist
  push_cast
  rfl

theorem cornerDist_gap {nx ny nz : ℕ} (h : nx ^ 2 + ny ^ 2 + nz ^ 2 ≤ 25 * 10 ^ 18)
    {a b : ℕ × ℕ × ℕ} (ha : a ∈ cells nx ny nz) (hb : b ∈ cells nx ny nz)
    (hab : |cornerDist a - cornerDist b| < 1e-10) : cornerDist a = cornerDist b := by
  have hle : ∀ c ∈ cells nx ny nz, c.1 ^ 2 + c.2.1 ^ 2 + c.2.2 ^ 2 ≤ 25 * 10 ^ 18 := by
    intro c hc
    simp only [cells, Finset.mem_product, Finset.mem_range] at hc
    have h1 := Nat.pow_le_pow_left hc.1.le 2
    have h2 := Nat.pow_le_pow_left hc.2.1.le 2
    have h3 := Nat.pow_le_pow_left hc.2.2.le 2
    omega
  rw [cornerDist_nat, cornerDist_nat] at hab
  rw [cornerDist_nat, cornerDist_nat, sqrt_gap (hle a ha) (hle b hb) hab]

end Verif.Py
