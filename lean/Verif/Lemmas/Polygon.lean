import Verif.Spec.Polygon
import Verif.Lemmas.Geometry
import Verif.Lemmas.Outcome
import Mathlib.Data.ZMod.Basic
import Mathlib.Algebra.CharP.Two
import Mathlib.Topology.Algebra.Monoid
import Mathlib.Topology.MetricSpace.Pseudo.Defs

/-!
# Counting edges to the right of a point, modulo two
-/

namespace Verif.Geo

open Classical Filter Topology

/-- 1 if the proposition holds. -/
noncomputable def chi (P : Prop) : ZMod 2 := if P then 1 else 0

theorem chi_pos {P : Prop} (h : P) : chi P = 1 := if_pos h
theorem chi_neg {P : Prop} (h : ¬ P) : chi P = 0 := if_neg h

theorem two_zero : (1 : ZMod 2) + 1 = 0 := by decide

theorem self_add (a : ZMod 2) : a + a = 0 := CharTwo.add_self_eq_zero a

/-- The edge is hit by the ray from `z` in the direction of x; of its ends, the lower one does not count. -/
def Hit (e : Pt × Pt) (z : ℝ × ℝ) : Prop :=
  (e.1.y < z.2 ∧ z.2 ≤ e.2.y ∧ 0 < side e.1 e.2 z) ∨ (e.2.y < z.2 ∧ z.2 ≤ e.1.y ∧ side e.1 e.2 z < 0)

/-- The number of edges hit, modulo two. -/
noncomputable def cnt (l : List (Pt × Pt)) (z : ℝ × ℝ) : ZMod 2 := (l.map (fun e => chi (Hit e z))).sum

theorem crossStep_eq (x y : ℝ) (p q : Pt) (b : Bool) :
    Polygon.crossStep x y p q b = .ok (if Hit (p, q) (x, y) then !b else b) := by
  unfold Polygon.crossStep
  by_cases h1 : y ≤ max p.y q.y
  · by_cases h2 : y > min p.y q.y
    · rw [if_pos h1, if_pos h2]
      have hne : q.y - p.y ≠ 0 := by
        intro h
        have : q.y = p.y := by linarith
        rw [this, max_self] at h1
        rw [this, min_self] at h2
        linarith
      have key : Hit (p, q) (x, y) ↔ x < (y - p.y) / (q.y - p.y) * (q.x - p.x) + p.x := by
        have e : (y - p.y) / (q.y - p.y) * (q.x - p.x) + p.x - x = side p q (x, y) / (q.y - p.y) := by
          unfold side
          field_simp
          ring
        rw [← sub_pos, e]
        unfold Hit
        simp only
        rcases lt_or_gt_of_ne hne with h | h
        · have hlt : q.y < p.y := by linarith
          rw [max_eq_left hlt.le] at h1
          rw [min_eq_right hlt.le] at h2
          constructor
          · rintro (⟨a, b, c⟩ | ⟨a, b, c⟩)
            · linarith
            · exact div_pos_of_neg_of_neg c h
          · intro hd
            exact Or.inr ⟨h2, h1, by
              by_contra hc
              have := div_nonpos_of_nonneg_of_nonpos (not_lt.1 hc) h.le
              linarith⟩
        · have hlt : p.y < q.y := by linarith
          rw [max_eq_right hlt.le] at h1
          rw [min_eq_left hlt.le] at h2
          constructor
          · rintro (⟨a, b, c⟩ | ⟨a, b, c⟩)
            · exact div_pos c h
            · linarith
          · intro hd
            exact Or.inl ⟨h2, h1, by
              by_contra hc
              have := div_nonpos_of_nonpos_of_nonneg (not_lt.1 hc) h.le
              linarith⟩
      have hmax : (y - p.y) / (q.y - p.y) * (q.x - p.x) + p.x ≤ max p.x q.x := by
        have t0 : 0 ≤ (y - p.y) / (q.y - p.y) ∧ (y - p.y) / (q.y - p.y) ≤ 1 := by
          rcases lt_or_gt_of_ne hne with h | h
          · have hlt : q.y < p.y := by linarith
            rw [max_eq_left hlt.le] at h1
            rw [min_eq_right hlt.le] at h2
            exact ⟨div_nonneg_of_nonpos (by linarith) h.le, (div_le_one_of_neg h).2 (by linarith)⟩
          · have hlt : p.y < q.y := by linarith
            rw [max_eq_right hlt.le] at h1
            rw [min_eq_left hlt.le] at h2
            exact ⟨div_nonneg (by linarith) h.le, (div_le_one h).2 (by linarith)⟩
        set t := (y - p.y) / (q.y - p.y)
        have a1 := le_max_left p.x q.x
        have a2 := le_max_right p.x q.x
        nlinarith [t0.1, t0.2]
      by_cases h3 : x < max p.x q.x
      · rw [if_pos h3, fdiv_ok hne]
        show (if x < _ then Res.ok (!b) else Res.ok b) = _
        by_cases h4 : x < (y - p.y) / (q.y - p.y) * (q.x - p.x) + p.x
        · rw [if_pos h4, if_pos (key.2 h4)]
        · rw [if_neg h4, if_neg (fun h => h4 (key.1 h))]
      · rw [if_neg h3, if_neg (fun h => h3 (lt_of_lt_of_le (key.1 h) hmax))]
    · rw [if_pos h1, if_neg h2, if_neg]
      rintro (⟨a, c, d⟩ | ⟨a, c, d⟩)
      · exact h2 (min_lt_of_left_lt a)
      · exact h2 (min_lt_of_right_lt a)
  · rw [if_neg h1, if_neg]
    rintro (⟨a, c, d⟩ | ⟨a, c, d⟩)
    · exact h1 (le_max_of_le_right c)
    · exact h1 (le_max_of_le_left c)

theorem insideLoop_eq (x y : ℝ) (p : Pt) (ps : List Pt) (b : Bool) :
    Polygon.insideLoop x y p ps b = .ok (decide (cnt (edgesFrom p ps) (x, y) + chi (b = true) = 1)) := by
  induction ps generalizing p b with
  | nil =>
    unfold Polygon.insideLoop edgesFrom cnt chi
    cases b <;> simp
  | cons q ps ih =>
    unfold Polygon.insideLoop
    rw [crossStep_eq]
    show Polygon.insideLoop x y q ps _ = _
    rw [ih]
    congr 2
    unfold cnt
    rw [show edgesFrom p (q :: ps) = (p, q) :: edgesFrom q ps from rfl, List.map_cons, List.sum_cons]
    set c := (List.map (fun e => chi (Hit e (x, y))) (edgesFrom q ps)).sum
    by_cases h : Hit (p, q) (x, y)
    · rw [if_pos h, chi_pos h]
      cases b
      · rw [chi_pos (by rfl), chi_neg (by simp), add_zero, add_comm]
      · rw [chi_neg (by simp), chi_pos rfl, add_zero, add_comm 1 c, add_assoc, two_zero, add_zero]
    · rw [if_neg h, chi_neg h, zero_add]

/-- The answer is the parity of the number of edges hit. -/
theorem isInsideXY_eq (ps : List Pt) (z : ℝ × ℝ) : Polygon.isInsideXY ps z.1 z.2 = .ok (decide (cnt (edges ps) z = 1)) := by
  unfold Polygon.isInsideXY
  match ps with
  | [] => simp [edges, cnt]
  | [p] =>
    have : ¬ Hit (p, p) z := by
      rintro (⟨a, c, d⟩ | ⟨a, c, d⟩)
      · exact absurd (lt_of_lt_of_le a c) (lt_irrefl _)
      · exact absurd (lt_of_lt_of_le a c) (lt_irrefl _)
    simp [edges, cnt, edgesFrom, chi_neg this]
  | p :: q :: ps =>
    rw [if_neg (by simp)]
    have : rd (p :: q :: ps) ((p :: q :: ps).length - 1) = .ok ((p :: q :: ps).getLast (by simp)) := by
      unfold rd
      rw [List.getLast_eq_getElem, List.getElem?_eq_getElem (by simp)]
    rw [this]
    show Polygon.insideLoop z.1 z.2 _ _ _ = _
    rw [insideLoop_eq, chi_neg (by simp), add_zero]
    rw [edges, dif_neg (by simp)]

/-- Along the edges from `p`, each point but the first and the last counts twice. -/
theorem sum_ends (f : Pt → ZMod 2) (p : Pt) (ps : List Pt) :
    ((edgesFrom p ps).map (fun e => f e.1 + f e.2)).sum = f p + f ((p :: ps).getLast (by simp)) := by
  induction ps generalizing p with
  | nil => simp [edgesFrom, self_add]
  | cons q ps ih =>
    rw [show edgesFrom p (q :: ps) = (p, q) :: edgesFrom q ps from rfl, List.map_cons, List.sum_cons, ih,
      List.getLast_cons (a := p) (l := q :: ps) (by simp)]
    have := self_add (f q)
    linear_combination this

/-- Around a polygon, each corner counts twice. -/
theorem sum_ends_zero (f : Pt → ZMod 2) (ps : List Pt) : ((edges ps).map (fun e => f e.1 + f e.2)).sum = 0 := by
  unfold edges
  split_ifs with h
  · rfl
  · rw [sum_ends, List.getLast_cons h, self_add]

theorem edgesFrom_mem {p : Pt} {ps : List Pt} {e : Pt × Pt} (h : e ∈ edgesFrom p ps) : (e.1 = p ∨ e.1 ∈ ps) ∧ e.2 ∈ ps := by
  induction ps generalizing p with
  | nil => simp [edgesFrom] at h
  | cons q ps ih =>
    unfold edgesFrom at h
    rcases List.mem_cons.1 h with h | h
    · subst h
      exact ⟨Or.inl rfl, List.mem_cons_self⟩
    · obtain ⟨h1, h2⟩ := ih h
      refine ⟨Or.inr ?_, List.mem_cons_of_mem _ h2⟩
      rcases h1 with h1 | h1
      · rw [h1]; exact List.mem_cons_self
      · exact List.mem_cons_of_mem _ h1

theorem edges_mem {ps : List Pt} {e : Pt × Pt} (h : e ∈ edges ps) : e.1 ∈ ps ∧ e.2 ∈ ps := by
  unfold edges at h
  split_ifs at h with h0
  · simp at h
  · obtain ⟨h1, h2⟩ := edgesFrom_mem h
    refine ⟨?_, h2⟩
    rcases h1 with h1 | h1
    · rw [h1]; exact List.getLast_mem h0
    · exact h1

theorem side_swap (a b : Pt) (z : ℝ × ℝ) : side b a z = -side a b z := by unfold side; ring

theorem onEdge_side {e : Pt × Pt} {z : ℝ × ℝ} (h : OnEdge e z) : side e.1 e.2 z = 0 := by
  obtain ⟨t, -, -, h1, h2⟩ := h
  unfold side
  rw [h1, h2]
  ring

theorem side_continuous (a b : Pt) : Continuous (side a b) := by
  unfold side
  fun_prop

/-- Near `z0`: what is strict stays. -/
def Near (a b : Pt) (z0 z : ℝ × ℝ) : Prop :=
  (z0.2 < a.y → z.2 < a.y) ∧ (a.y < z0.2 → a.y < z.2) ∧ (z0.2 < b.y → z.2 < b.y) ∧ (b.y < z0.2 → b.y < z.2) ∧
    (0 < side a b z0 → 0 < side a b z) ∧ (side a b z0 < 0 → side a b z < 0)

theorem ev_lt {f g : ℝ × ℝ → ℝ} (hf : Continuous f) (hg : Continuous g) (z0 : ℝ × ℝ) : ∀ᶠ z in 𝓝 z0, f z0 < g z0 → f z < g z := by
  by_cases h : f z0 < g z0
  · filter_upwards [hf.continuousAt.eventually_lt hg.continuousAt h] with z hz _
    exact hz
  · exact Eventually.of_forall (fun z h' => absurd h' h)

theorem near_eventually (a b : Pt) (z0 : ℝ × ℝ) : ∀ᶠ z in 𝓝 z0, Near a b z0 z := by
  have hs := side_continuous a b
  have h2 : Continuous (fun z : ℝ × ℝ => z.2) := continuous_snd
  have c : ∀ r : ℝ, Continuous (fun _ : ℝ × ℝ => r) := fun r => continuous_const
  filter_upwards [ev_lt h2 (c a.y) z0, ev_lt (c a.y) h2 z0, ev_lt h2 (c b.y) z0, ev_lt (c b.y) h2 z0, ev_lt (c 0) hs z0, ev_lt hs (c 0) z0]
    with z h1 h2 h3 h4 h5 h6
  exact ⟨h1, h2, h3, h4, h5, h6⟩

/-- The corner is at the height of `z0`, on the right of it, and `z` is above. -/
def Above (z0 z : ℝ × ℝ) (v : Pt) : Prop := v.y = z0.2 ∧ z0.1 < v.x ∧ z0.2 < z.2

theorem hit_swap (a b : Pt) (z : ℝ × ℝ) : Hit (a, b) z ↔ Hit (b, a) z := by
  unfold Hit
  simp only
  rw [side_swap a b]
  constructor
  · rintro (⟨h1, h2, h3⟩ | ⟨h1, h2, h3⟩)
    · exact Or.inr ⟨h1, h2, by linarith⟩
    · exact Or.inl ⟨h1, h2, by linarith⟩
  · rintro (⟨h1, h2, h3⟩ | ⟨h1, h2, h3⟩)
    · exact Or.inr ⟨h1, h2, by linarith⟩
    · exact Or.inl ⟨h1, h2, by linarith⟩

/-- An edge from below to above: how the count changes from `z0` to `z`. -/
theorem local_up {a b : Pt} {z0 z : ℝ × ℝ} (hab : a.y < b.y) (off : ¬ OnEdge (a, b) z0) (hn : Near a b z0 z) :
    chi (Hit (a, b) z) = chi (Hit (a, b) z0) + (chi (Above z0 z a) + chi (Above z0 z b)) := by
  obtain ⟨n1, n2, n3, n4, n5, n6⟩ := hn
  have hs : ∀ w : ℝ × ℝ, Hit (a, b) w ↔ a.y < w.2 ∧ w.2 ≤ b.y ∧ 0 < side a b w := by
    intro w
    constructor
    · rintro (h | ⟨h1, h2, h3⟩)
      · exact h
      · simp only at h1 h2
        linarith
    · exact fun h => Or.inl h
  have hz : a.y ≤ z0.2 → z0.2 ≤ b.y → side a b z0 ≠ 0 := by
    intro h1 h2 h3
    refine off ⟨(z0.2 - a.y) / (b.y - a.y), div_nonneg (by linarith) (by linarith), (div_le_one (by linarith)).2 (by linarith), ?_, ?_⟩
    · have : b.y - a.y ≠ 0 := by linarith
      simp only
      unfold side at h3
      field_simp
      linear_combination -h3
    · have : b.y - a.y ≠ 0 := by linarith
      simp only
      field_simp
      ring
  rcases lt_trichotomy z0.2 a.y with h | h | h
  · -- below both
    have := n1 h
    rw [chi_neg, chi_neg, chi_neg, chi_neg, add_zero, add_zero]
    · rintro ⟨g1, -, -⟩; linarith
    · rintro ⟨g1, -, -⟩; linarith
    · rw [hs]; rintro ⟨g1, -, -⟩; linarith
    · rw [hs]; rintro ⟨g1, -, -⟩; linarith
  · -- at the lower end
    have hne := hz h.ge (by linarith)
    have sd : side a b z0 = (a.x - z0.1) * (b.y - a.y) := by unfold side; rw [h]; ring
    have g3 := n3 (by linarith)
    rw [chi_neg (P := Hit (a, b) z0), chi_neg (P := Above z0 z b), zero_add, add_zero]
    · congr 1
      rw [hs]
      apply propext
      constructor
      · rintro ⟨k1, k2, k3⟩
        refine ⟨h.symm, ?_, by linarith⟩
        by_contra hc
        have : side a b z0 < 0 := lt_of_le_of_ne (by rw [sd]; nlinarith) hne
        linarith [n6 this]
      · rintro ⟨k1, k2, k3⟩
        refine ⟨by linarith, g3.le, n5 ?_⟩
        rw [sd]
        exact mul_pos (by linarith) (by linarith)
    · rintro ⟨g1, -, -⟩; linarith
    · rw [hs]; rintro ⟨g1, -, -⟩; linarith
  · have g2 := n2 h
    rcases lt_trichotomy z0.2 b.y with h' | h' | h'
    · -- strictly between
      have hne := hz h.le h'.le
      have g3 := n3 h'
      rw [chi_neg (P := Above z0 z b), chi_neg (P := Above z0 z a), add_zero, add_zero]
      · congr 1
        rw [hs, hs]
        apply propext
        constructor
        · rintro ⟨k1, k2, k3⟩
          refine ⟨h, h'.le, ?_⟩
          by_contra hc
          linarith [n6 (lt_of_le_of_ne (not_lt.1 hc) hne)]
        · rintro ⟨k1, k2, k3⟩
          exact ⟨g2, g3.le, n5 k3⟩
      · rintro ⟨g1, -, -⟩; linarith
      · rintro ⟨g1, -, -⟩; linarith
    · -- at the upper end
      have hne := hz h.le h'.le
      have sd : side a b z0 = (b.x - z0.1) * (b.y - a.y) := by unfold side; rw [h']; ring
      rw [chi_neg (P := Above z0 z a), zero_add]
      · by_cases hx : z0.1 < b.x
        · have sp : 0 < side a b z0 := by rw [sd]; exact mul_pos (by linarith) (by linarith)
          rw [chi_pos (P := Hit (a, b) z0) ((hs _).2 ⟨h, h'.le, sp⟩)]
          by_cases hz2 : z0.2 < z.2
          · rw [chi_pos (P := Above z0 z b) ⟨h'.symm, hx, hz2⟩, chi_neg, two_zero]
            rw [hs]; rintro ⟨-, k, -⟩; linarith
          · rw [chi_neg (P := Above z0 z b) (fun hc => hz2 hc.2.2), chi_pos, add_zero]
            exact (hs _).2 ⟨g2, by linarith, n5 sp⟩
        · have sn : side a b z0 < 0 := lt_of_le_of_ne (by rw [sd]; nlinarith) hne
          rw [chi_neg (P := Hit (a, b) z0), chi_neg (P := Above z0 z b) (fun hc => hx hc.2.1), chi_neg, add_zero]
          · rw [hs]; rintro ⟨-, -, k⟩; linarith [n6 sn]
          · rw [hs]; rintro ⟨-, -, k⟩; linarith
      · rintro ⟨g1, -, -⟩; linarith
    · -- above both
      have g4 := n4 h'
      rw [chi_neg, chi_neg, chi_neg, chi_neg, add_zero, add_zero]
      · rintro ⟨g1, -, -⟩; linarith
      · rintro ⟨g1, -, -⟩; linarith
      · rw [hs]; rintro ⟨-, g1, -⟩; linarith
      · rw [hs]; rintro ⟨-, g1, -⟩; linarith

theorem onEdge_swap {a b : Pt} {z : ℝ × ℝ} (h : OnEdge (a, b) z) : OnEdge (b, a) z := by
  obtain ⟨t, h0, h1, h2, h3⟩ := h
  refine ⟨1 - t, by linarith, by linarith, ?_, ?_⟩
  · simp only at h2 ⊢; rw [h2]; ring
  · simp only at h3 ⊢; rw [h3]; ring

theorem near_swap {a b : Pt} {z0 z : ℝ × ℝ} (h : Near a b z0 z) : Near b a z0 z := by
  obtain ⟨h1, h2, h3, h4, h5, h6⟩ := h
  refine ⟨h3, h4, h1, h2, ?_, ?_⟩
  · rw [side_swap a b, side_swap a b]; intro h; linarith [h6 (by linarith)]
  · rw [side_swap a b, side_swap a b]; intro h; linarith [h5 (by linarith)]

theorem hit_flat {a b : Pt} (h : a.y = b.y) (z : ℝ × ℝ) : ¬ Hit (a, b) z := by
  rintro (⟨h1, h2, -⟩ | ⟨h1, h2, -⟩)
  · simp only at h1 h2; linarith
  · simp only at h1 h2; linarith

/-- How the count for an edge that `z0` is not on changes from `z0` to `z` nearby. -/
theorem local_edge {e : Pt × Pt} {z0 z : ℝ × ℝ} (off : ¬ OnEdge e z0) (hn : Near e.1 e.2 z0 z) :
    chi (Hit e z) = chi (Hit e z0) + (chi (Above z0 z e.1) + chi (Above z0 z e.2)) := by
  obtain ⟨a, b⟩ := e
  rcases lt_trichotomy a.y b.y with h | h | h
  · exact local_up h off hn
  · rw [chi_neg (hit_flat h z), chi_neg (hit_flat h z0), zero_add]
    by_cases hy : a.y = z0.2
    · have key : z0.1 < a.x ↔ z0.1 < b.x := by
        by_contra hc
        apply off
        by_cases h1 : z0.1 < a.x
        · have h2 : ¬ z0.1 < b.x := fun h2 => hc ⟨fun _ => h2, fun _ => h1⟩
          have hd : a.x - b.x > 0 := by linarith
          refine ⟨(a.x - z0.1) / (a.x - b.x), div_nonneg (by linarith) hd.le, (div_le_one hd).2 (by linarith), ?_, ?_⟩
          · simp only; field_simp; ring
          · simp only; rw [← h, sub_self, mul_zero, add_zero, hy]
        · have h2 : z0.1 < b.x := by
            by_contra h2
            exact hc ⟨fun h => absurd h h1, fun h => absurd h h2⟩
          have hd : b.x - a.x > 0 := by linarith
          refine ⟨(z0.1 - a.x) / (b.x - a.x), div_nonneg (by linarith) hd.le, (div_le_one hd).2 (by linarith), ?_, ?_⟩
          · simp only; field_simp; ring
          · simp only; rw [← h, sub_self, mul_zero, add_zero, hy]
      have : Above z0 z a ↔ Above z0 z b := by
        unfold Above
        rw [key, ← h]
      simp only
      rw [propext this, self_add]
    · rw [chi_neg (P := Above z0 z (a, b).1) (fun hc => hy hc.1), chi_neg (P := Above z0 z (a, b).2) (fun hc => hy (h.trans hc.1)), add_zero]
  · have := local_up h (fun hc => off (onEdge_swap hc)) (near_swap hn)
    rw [propext (hit_swap a b z), propext (hit_swap a b z0), this]
    simp only
    ring

theorem ev_list {l : List (Pt × Pt)} {P : Pt × Pt → ℝ × ℝ → Prop} {z0 : ℝ × ℝ} (h : ∀ e ∈ l, ∀ᶠ z in 𝓝 z0, P e z) :
    ∀ᶠ z in 𝓝 z0, ∀ e ∈ l, P e z := by
  induction l with
  | nil => simp
  | cons e l ih =>
    filter_upwards [h e List.mem_cons_self, ih (fun d hd => h d (List.mem_cons_of_mem _ hd))] with z h1 h2 d hd
    rcases List.mem_cons.1 hd with h | h
    · rw [h]; exact h1
    · exact h2 d h

/-- How the count for edges that `z0` is not on changes. -/
theorem local_list {l : List (Pt × Pt)} {z0 : ℝ × ℝ} (off : ∀ e ∈ l, ¬ OnEdge e z0) :
    ∀ᶠ z in 𝓝 z0, cnt l z = cnt l z0 + (l.map (fun e => chi (Above z0 z e.1) + chi (Above z0 z e.2))).sum := by
  filter_upwards [ev_list (fun e (_ : e ∈ l) => near_eventually e.1 e.2 z0)] with z hz
  unfold cnt
  rw [← List.sum_map_add]
  congr 1
  apply List.map_congr_left
  intro e he
  exact local_edge (off e he) (hz e he)

/-- Off the edges, the count is locally constant. -/
theorem cnt_local {ps : List Pt} {z0 : ℝ × ℝ} (off : ∀ e ∈ edges ps, ¬ OnEdge e z0) : ∀ᶠ z in 𝓝 z0, cnt (edges ps) z = cnt (edges ps) z0 := by
  filter_upwards [local_list off] with z hz
  rw [hz, sum_ends_zero (fun v => chi (Above z0 z v)), add_zero]

/-- Near a point inside an edge, the count for that edge and its ends depends on the side. -/
theorem local_flip {a b : Pt} {t : ℝ} (h0 : 0 < t) (h1 : t < 1) {q : ℝ × ℝ} (hx : q.1 = a.x + t * (b.x - a.x)) (hy : q.2 = a.y + t * (b.y - a.y))
    (hab : a.x ≠ b.x ∨ a.y ≠ b.y) :
    ∃ K : ZMod 2, ∀ z, Near a b q z → side a b z ≠ 0 →
      chi (Hit (a, b) z) + (chi (Above q z a) + chi (Above q z b)) = K + chi (0 < side a b z) := by
  rcases lt_trichotomy a.y b.y with h | h | h
  · refine ⟨0, fun z hn hs => ?_⟩
    have g1 : a.y < q.2 := by rw [hy]; nlinarith
    have g2 : q.2 < b.y := by rw [hy]; nlinarith
    rw [chi_neg (P := Above q z a) (fun hc => by linarith [hc.1]), chi_neg (P := Above q z b) (fun hc => by linarith [hc.1]), add_zero, add_zero, zero_add]
    congr 1
    apply propext
    constructor
    · rintro (⟨-, -, k⟩ | ⟨k1, k2, k⟩)
      · exact k
      · simp only at k1 k2; linarith
    · exact fun k => Or.inl ⟨hn.2.1 g1, (hn.2.2.1 g2).le, k⟩
  · have hne : a.x ≠ b.x := by
      rcases hab with h' | h'
      · exact h'
      · exact absurd h h'
    have hq : a.y = q.2 := by rw [hy, h]; ring
    have sd : ∀ z : ℝ × ℝ, side a b z = (b.x - a.x) * (z.2 - q.2) := by
      intro z; unfold side; rw [h] at hq ⊢; rw [← hq]; ring
    rcases lt_or_gt_of_ne hne with hlt | hlt
    · refine ⟨0, fun z hn hs => ?_⟩
      have g1 : ¬ q.1 < a.x := by rw [hx]; nlinarith
      have g2 : q.1 < b.x := by rw [hx]; nlinarith
      rw [chi_neg (hit_flat h z), chi_neg (P := Above q z a) (fun hc => g1 hc.2.1), zero_add, zero_add, zero_add]
      congr 1
      apply propext
      rw [sd]
      constructor
      · rintro ⟨-, -, k⟩
        exact mul_pos (by linarith) (by linarith)
      · intro k
        refine ⟨by linarith, g2, ?_⟩
        by_contra hc
        nlinarith
    · refine ⟨1, fun z hn hs => ?_⟩
      have g1 : q.1 < a.x := by rw [hx]; nlinarith
      have g2 : ¬ q.1 < b.x := by rw [hx]; nlinarith
      rw [chi_neg (hit_flat h z), chi_neg (P := Above q z b) (fun hc => g2 hc.2.1), zero_add, add_zero]
      rw [sd] at hs ⊢
      have hz : z.2 - q.2 ≠ 0 := fun hc => hs (by rw [hc, mul_zero])
      by_cases k : q.2 < z.2
      · rw [chi_pos (P := Above q z a) ⟨hq, g1, k⟩, chi_neg, add_zero]
        nlinarith
      · rw [chi_neg (P := Above q z a) (fun hc => k hc.2.2), chi_pos, two_zero]
        have : z.2 - q.2 < 0 := lt_of_le_of_ne (by linarith) hz
        exact mul_pos_of_neg_of_neg (by linarith) this
  · refine ⟨1, fun z hn hs => ?_⟩
    have g1 : q.2 < a.y := by rw [hy]; nlinarith
    have g2 : b.y < q.2 := by rw [hy]; nlinarith
    rw [chi_neg (P := Above q z a) (fun hc => by linarith [hc.1]), chi_neg (P := Above q z b) (fun hc => by linarith [hc.1]), add_zero, add_zero]
    by_cases k : 0 < side a b z
    · rw [chi_pos k, chi_neg, two_zero]
      rintro (⟨k1, k2, k3⟩ | ⟨-, -, k3⟩)
      · simp only at k1 k2; linarith
      · simp only at k3; linarith
    · rw [chi_neg k, chi_pos, add_zero]
      exact Or.inr ⟨hn.2.2.2.1 g2, (hn.1 g1).le, lt_of_le_of_ne (not_lt.1 k) hs⟩

/-- Crossing an edge in a point that is on no other edge changes the count. -/
theorem cnt_flip {ps : List Pt} {l1 l2 : List (Pt × Pt)} {a b : Pt} (he : edges ps = l1 ++ (a, b) :: l2) {t : ℝ} (h0 : 0 < t) (h1 : t < 1)
    {q : ℝ × ℝ} (hx : q.1 = a.x + t * (b.x - a.x)) (hy : q.2 = a.y + t * (b.y - a.y)) (hab : a.x ≠ b.x ∨ a.y ≠ b.y)
    (off : ∀ e ∈ l1 ++ l2, ¬ OnEdge e q) :
    ∃ K : ZMod 2, ∀ᶠ z in 𝓝 q, side a b z ≠ 0 → cnt (edges ps) z = K + chi (0 < side a b z) := by
  obtain ⟨K, hK⟩ := local_flip h0 h1 hx hy hab
  refine ⟨cnt (l1 ++ l2) q + K, ?_⟩
  filter_upwards [local_list off, near_eventually a b q] with z hz hn hs
  have e1 : cnt (edges ps) z = cnt (l1 ++ l2) z + chi (Hit (a, b) z) := by
    unfold cnt
    rw [he, List.map_append, List.map_append, List.sum_append, List.sum_append, List.map_cons, List.sum_cons]
    ring
  have e2 := sum_ends_zero (fun v => chi (Above q z v)) ps
  rw [he, List.map_append, List.sum_append, List.map_cons, List.sum_cons] at e2
  rw [List.map_append, List.sum_append] at hz
  have e3 := hK z hn hs
  have e4 := self_add (chi (Above q z a) + chi (Above q z b))
  simp only at e2
  linear_combination e1 + hz + e3 + e2 - e4

end Verif.Geo
