import Verif.Model.TrendKit
import Verif.Lemmas.Outcome
import Mathlib.Tactic.Linarith
import Mathlib.Data.List.Nodup

/-!
# C149: sorted vectors, searches in them, and sorting with places and ranks
-/

namespace Verif

namespace TrendKit

theorem sorted_le {x : List ℝ} (h : x.Pairwise (· ≤ ·)) {i j : ℕ} (hij : i ≤ j) (hj : j < x.length) :
    x[i]'(lt_of_le_of_lt hij hj) ≤ x[j] := by
  rcases Nat.eq_or_lt_of_le hij with rfl | hl
  · exact le_refl _
  · exact List.pairwise_iff_getElem.1 h i j (lt_trans hl hj) hj hl

theorem lowerLoop_spec {x : List ℝ} {x0 : ℝ} : ∀ {low upp : ℕ} (hl : low < upp) (hu : upp < x.length), x[low] ≤ x0 → x0 < x[upp] →
    ∃ r, lowerLoop x x0 low upp = .ok r ∧ ∃ h : r + 1 < x.length, x[r] ≤ x0 ∧ x0 < x[r + 1] := by
  intro low upp
  induction hn : upp - low using Nat.strong_induction_on generalizing low upp with
  | _ n ih =>
    intro hl hu h1 h2
    unfold lowerLoop
    by_cases hc : upp - low > 1
    · have hm : low + (upp - low) / 2 < x.length := by omega
      rw [dif_pos hc, dif_pos hm]
      by_cases hv : x[low + (upp - low) / 2] ≤ x0
      · rw [if_pos hv]
        exact ih (upp - (low + (upp - low) / 2)) (by omega) rfl (by omega) hu hv h2
      · rw [if_neg hv]
        exact ih (low + (upp - low) / 2 - low) (by omega) rfl (by omega) hm h1 (not_le.1 hv)
    · have e : upp = low + 1 := by omega
      subst e
      rw [dif_neg hc]
      exact ⟨low, by rw [show low + (low + 1 - low) / 2 = low by omega], hu, h1, h2⟩

theorem upperLoop_spec {x : List ℝ} {x0 : ℝ} : ∀ {low upp : ℕ} (hl : low < upp) (hu : upp < x.length), x[low] < x0 → x0 ≤ x[upp] →
    ∃ r, upperLoop x x0 low upp = .ok (r + 1) ∧ ∃ h : r + 1 < x.length, x[r] < x0 ∧ x0 ≤ x[r + 1] := by
  intro low upp
  induction hn : upp - low using Nat.strong_induction_on generalizing low upp with
  | _ n ih =>
    intro hl hu h1 h2
    unfold upperLoop
    by_cases hc : upp - low > 1
    · have hm : low + (upp - low) / 2 < x.length := by omega
      rw [dif_pos hc, dif_pos hm]
      by_cases hv : x[low + (upp - low) / 2] < x0
      · rw [if_pos hv]
        exact ih (upp - (low + (upp - low) / 2)) (by omega) rfl (by omega) hu hv h2
      · rw [if_neg hv]
        exact ih (low + (upp - low) / 2 - low) (by omega) rfl (by omega) hm h1 (not_lt.1 hv)
    · have e : upp = low + 1 := by omega
      subst e
      rw [dif_neg hc]
      exact ⟨low, by rw [show min (low + (low + 1 - low) / 2 + 1) (x.length - 1) = low + 1 by omega], hu, h1, h2⟩

end TrendKit

open TrendKit

/-- **C149 (sorted).** `CheckIfVectorIsSorted` tells whether a vector that is not empty is sorted. -/
theorem trend_sorted {x : List ℝ} (hx : x ≠ []) : ∃ b, isSorted x = .ok b ∧ (b = true ↔ x.Pairwise (· ≤ ·)) := by
  have hlen : 0 < x.length := List.length_pos_iff.2 hx
  unfold isSorted
  rw [if_neg (by omega)]
  have := forRange_sat (lo := 0) (hi := x.length - 1)
    (fun m (b : Bool) => b = true ↔ ∀ i (h : i + 1 < x.length), i < m → x[i] ≤ x[i + 1]) (by omega)
    (body := fun i b => do
      let u ← rd x i
      let v ← rd x (i + 1)
      .ok (if u > v then false else b)) (s := true)
    ⟨fun _ i h hi => absurd hi (by omega), fun _ => rfl⟩ (by
      intro i b _ hi hb
      rw [rd_ok (show i < x.length by omega), Res.monad_bind_eq, Res.bind_ok, rd_ok (show i + 1 < x.length by omega), Res.monad_bind_eq,
        Res.bind_ok]
      refine ⟨_, rfl, ?_⟩
      by_cases hg : x[i] > x[i + 1]
      · rw [if_pos hg]
        simp only [Bool.false_eq_true, false_iff]
        intro hall
        exact absurd (hall i (by omega) (by omega)) (not_le.2 hg)
      · rw [if_neg hg]
        refine hb.trans ?_
        constructor
        · intro h m hm hlt
          rcases Nat.lt_succ_iff_lt_or_eq.1 hlt with h' | rfl
          · exact h m hm h'
          · exact not_lt.1 hg
        · intro h m hm hlt
          exact h m hm (by omega))
  obtain ⟨b, e, hb⟩ := this
  refine ⟨b, e, hb.trans ⟨fun h => ?_, fun h i hi _ => ?_⟩⟩
  · rw [List.pairwise_iff_getElem]
    intro i j hi hj hij
    have key : ∀ d (hd : i + d < x.length), x[i] ≤ x[i + d] := by
      intro d
      induction d with
      | zero => intro _; exact le_refl _
      | succ d ih => intro hd; exact (ih (by omega)).trans (h (i + d) hd (by omega))
    have := key (j - i) (by omega)
    simpa only [show i + (j - i) = j by omega] using this
  · exact sorted_le h (by omega) hi

/-- **C149 (violation).** An empty vector is read. -/
theorem trend_sorted_violation : isSorted [] = .ub "read out of range" := rfl

/-- **C149 (lower bound).** In a sorted vector the place is the first one if the number is not above the first element, and else the
last one with an element that is not above the number. -/
theorem trend_lower {x : List ℝ} (hs : x.Pairwise (· ≤ ·)) (hx : 0 < x.length) (x0 : ℝ) :
    ∃ r, lowerBound x x0 = .ok r ∧ ∃ h : r < x.length, (x0 ≤ x[0] → r = 0) ∧
      (x[0] < x0 → x[r] ≤ x0 ∧ ∀ k (hk : k < x.length), r < k → x0 < x[k]) := by
  unfold lowerBound
  rw [rd_ok hx, Res.monad_bind_eq, Res.bind_ok]
  by_cases h0 : x0 ≤ x[0]
  · rw [if_pos h0]
    exact ⟨0, rfl, hx, fun _ => rfl, fun h => absurd h (not_lt.2 h0)⟩
  · have hl : x.length - 1 < x.length := by omega
    rw [if_neg h0, rd_ok hl, Res.monad_bind_eq, Res.bind_ok]
    by_cases h1 : x0 ≥ x[x.length - 1]
    · rw [if_pos h1]
      exact ⟨_, rfl, hl, fun h => absurd h h0, fun _ => ⟨h1, fun k hk hlt => absurd hlt (by omega)⟩⟩
    · rw [if_neg h1]
      have hlt : 0 < x.length - 1 := by
        by_contra hc
        have e : x.length - 1 = 0 := by omega
        simp only [e] at h1
        exact h1 (not_le.1 h0).le
      obtain ⟨r, e, hr, r1, r2⟩ := lowerLoop_spec hlt hl (not_le.1 h0).le (not_le.1 h1)
      exact ⟨r, e, by omega, fun h => absurd h h0, fun _ => ⟨r1, fun k hk hlt => r2.trans_le (sorted_le hs hlt hk)⟩⟩

/-- **C149 (upper bound).** In a sorted vector the place is the first one if the number is not above the first element, the last one if
it is not below the last element, and else the first one with an element that is not below the number. -/
theorem trend_upper {x : List ℝ} (hs : x.Pairwise (· ≤ ·)) (hx : 0 < x.length) (x0 : ℝ) :
    ∃ r, upperBound x x0 = .ok r ∧ ∃ h : r < x.length, (x0 ≤ x[0] → r = 0) ∧ (x[0] < x0 → x[x.length - 1] ≤ x0 → r = x.length - 1) ∧
      (x[0] < x0 → x0 < x[x.length - 1] → x0 ≤ x[r] ∧ ∀ k (hk : k < x.length), k < r → x[k] < x0) := by
  unfold upperBound
  rw [rd_ok hx, Res.monad_bind_eq, Res.bind_ok]
  by_cases h0 : x0 ≤ x[0]
  · rw [if_pos h0]
    exact ⟨0, rfl, hx, fun _ => rfl, fun h => absurd h (not_lt.2 h0), fun h => absurd h (not_lt.2 h0)⟩
  · have hl : x.length - 1 < x.length := by omega
    rw [if_neg h0, rd_ok hl, Res.monad_bind_eq, Res.bind_ok]
    by_cases h1 : x0 ≥ x[x.length - 1]
    · rw [if_pos h1]
      exact ⟨_, rfl, hl, fun h => absurd h h0, fun _ _ => rfl, fun _ h => absurd h (not_lt.2 h1)⟩
    · rw [if_neg h1]
      have hlt : 0 < x.length - 1 := by
        by_contra hc
        have e : x.length - 1 = 0 := by omega
        simp only [e] at h1
        exact h1 (not_le.1 h0).le
      obtain ⟨r, e, hr, r1, r2⟩ := upperLoop_spec hlt hl (not_le.1 h0) (not_le.1 h1).le
      exact ⟨r + 1, e, hr, fun h => absurd h h0, fun _ h => absurd h h1,
        fun _ _ => ⟨r2, fun k hk hlt => (sorted_le hs (by omega) (by omega : r < x.length)).trans_lt r1⟩⟩

/-- **C149 (windows).** If the elements are different, all that are between two numbers are between the two places. -/
theorem trend_window {x : List ℝ} (hs : x.Pairwise (· < ·)) (hx : 0 < x.length) {a b : ℝ} {lo up : ℕ} (hlo : lowerBound x a = .ok lo)
    (hup : upperBound x b = .ok up) {k : ℕ} (hk : k < x.length) (ha : a ≤ x[k]) (hb : x[k] ≤ b) : lo ≤ k ∧ k ≤ up := by
  have hs' : x.Pairwise (· ≤ ·) := hs.imp le_of_lt
  have lt : ∀ {i j : ℕ} (hij : i < j) (hj : j < x.length), x[i]'(hij.trans hj) < x[j] := fun hij hj =>
    List.pairwise_iff_getElem.1 hs _ _ _ hj hij
  obtain ⟨r, e, hr, l1, l2⟩ := trend_lower hs' hx a
  obtain ⟨s, e', hs'', u1, u2, u3⟩ := trend_upper hs' hx b
  rw [hlo] at e
  rw [hup] at e'
  injection e with e
  injection e' with e'
  subst e e'
  constructor
  · by_contra hc
    push Not at hc
    rcases le_or_gt a x[0] with h | h
    · have := l1 h; omega
    · have := (l2 h).1
      have := lt hc hr
      linarith
  · by_contra hc
    push Not at hc
    rcases le_or_gt b x[0] with h | h
    · have := u1 h
      have := lt (show 0 < k by omega) hk
      linarith
    · rcases le_or_gt x[x.length - 1] b with h' | h'
      · have := u2 h h'; omega
      · have := (u3 h h').1
        have := lt hc hk
        linarith

/-- **C149 (violation, windows).** With equal elements some between the numbers are left out: the first of two at the lower end, the
second of two at the upper end, and all but the first if all are equal. -/
theorem trend_window_violation : lowerBound [0, 1, 1, 2] 1 = .ok 2 ∧ upperBound [0, 1, 1, 2] 1 = .ok 1 ∧ upperBound [1, 1] 1 = .ok 0 := by
  refine ⟨?_, ?_, ?_⟩
  · obtain ⟨r, e, h, -, h2⟩ := trend_lower (x := [0, 1, 1, 2]) (by simp) (by simp) 1
    obtain ⟨a, b⟩ := h2 (by norm_num)
    rw [e]
    simp only [List.length_cons, List.length_nil] at h
    have : r = 0 ∨ r = 1 ∨ r = 2 ∨ r = 3 := by omega
    rcases this with rfl | rfl | rfl | rfl
    · exact absurd (b 1 (by simp) (by decide)) (by norm_num)
    · exact absurd (b 2 (by simp) (by decide)) (by norm_num)
    · rfl
    · exact absurd a (by norm_num)
  · obtain ⟨r, e, h, -, -, h3⟩ := trend_upper (x := [0, 1, 1, 2]) (by simp) (by simp) 1
    obtain ⟨a, b⟩ := h3 (by norm_num) (by norm_num)
    rw [e]
    simp only [List.length_cons, List.length_nil] at h
    have : r = 0 ∨ r = 1 ∨ r = 2 ∨ r = 3 := by omega
    rcases this with rfl | rfl | rfl | rfl
    · exact absurd a (by norm_num)
    · rfl
    · exact absurd (b 1 (by simp) (by decide)) (by norm_num)
    · exact absurd (b 1 (by simp) (by decide)) (by norm_num)
  · obtain ⟨r, e, h, h1, -⟩ := trend_upper (x := [1, 1]) (by simp) (by simp) 1
    rw [e, h1 (by simp)]

open Classical

namespace TrendKit

theorem mem_zip_range {α : Type} {x : List α} {v : α} {k : ℕ} (h : (v, k) ∈ x.zip (List.range x.length)) : x[k]? = some v := by
  obtain ⟨i, hi, e⟩ := List.mem_iff_getElem.1 h
  rw [List.getElem_zip, List.getElem_range] at e
  simp only [Prod.mk.injEq] at e
  obtain ⟨rfl, rfl⟩ := e
  rw [List.length_zip] at hi
  rw [List.getElem?_eq_getElem (by omega)]

theorem pairLe_trans (a b c : ℝ × ℕ) (h : decide (pairLe a b) = true) (g : decide (pairLe b c) = true) : decide (pairLe a c) = true := by
  refine decide_eq_true ?_
  rcases of_decide_eq_true h with h | ⟨h, h'⟩ <;> rcases of_decide_eq_true g with g | ⟨g, g'⟩
  · exact .inl (h.trans g)
  · exact .inl (g ▸ h)
  · exact .inl (h ▸ g)
  · exact .inr ⟨h.trans g, h'.trans g'⟩

theorem pairLe_total (a b : ℝ × ℕ) : (decide (pairLe a b) || decide (pairLe b a)) = true := by
  rw [Bool.or_eq_true]
  rcases lt_trichotomy a.1 b.1 with h | h | h
  · exact .inl (decide_eq_true (.inl h))
  · rcases le_total a.2 b.2 with g | g
    · exact .inl (decide_eq_true (.inr ⟨h, g⟩))
    · exact .inr (decide_eq_true (.inr ⟨h.symm, g⟩))
  · exact .inr (decide_eq_true (.inl h))

theorem pairLeN_trans (a b c : ℕ × ℕ) (h : decide (pairLeN a b) = true) (g : decide (pairLeN b c) = true) : decide (pairLeN a c) = true := by
  refine decide_eq_true ?_
  have h := of_decide_eq_true h
  have g := of_decide_eq_true g
  unfold pairLeN at *
  omega

theorem pairLeN_total (a b : ℕ × ℕ) : (decide (pairLeN a b) || decide (pairLeN b a)) = true := by
  rw [Bool.or_eq_true]
  have : pairLeN a b ∨ pairLeN b a := by unfold pairLeN; omega
  exact this.imp (fun h => decide_eq_true h) fun h => decide_eq_true h

theorem nodup_place {l : List ℕ} (nd : l.Nodup) {i j k : ℕ} (hi : l[i]? = some k) (hj : l[j]? = some k) : i = j := by
  obtain ⟨h1, e1⟩ := List.getElem?_eq_some_iff.1 hi
  obtain ⟨h2, e2⟩ := List.getElem?_eq_some_iff.1 hj
  exact (List.Nodup.getElem_inj_iff nd).1 (e1.trans e2.symm)

end TrendKit

open TrendKit in
/-- **C149 (sorting).** The numbers are sorted; the places are a permutation, lead to the numbers, and keep the order of equal ones;
the ranks are the inverse of the places. -/
theorem trend_sort (x : List ℝ) :
    (sortOrderAndRank x).1.Pairwise (· ≤ ·) ∧ (sortOrderAndRank x).1.length = x.length ∧
    (sortOrderAndRank x).2.1.Perm (List.range x.length) ∧ (sortOrderAndRank x).2.2.length = x.length ∧
    (∀ i k : ℕ, (sortOrderAndRank x).2.1[i]? = some k → (sortOrderAndRank x).1[i]? = x[k]? ∧ (sortOrderAndRank x).2.2[k]? = some i) ∧
    ∀ i j : ℕ, i < j → ∀ k m : ℕ, (sortOrderAndRank x).2.1[i]? = some k → (sortOrderAndRank x).2.1[j]? = some m → x[k]? = x[m]? → k < m := by
  unfold sortOrderAndRank
  simp only
  set s := (x.zip (List.range x.length)).mergeSort fun a b => decide (pairLe a b) with hs
  set q := ((s.map Prod.snd).zip (List.range x.length)).mergeSort fun a b => decide (pairLeN a b) with hq
  have ps : s.Perm (x.zip (List.range x.length)) := List.mergeSort_perm _ _
  have pq : q.Perm ((s.map Prod.snd).zip (List.range x.length)) := List.mergeSort_perm _ _
  have ss : s.Pairwise fun a b => decide (pairLe a b) = true := List.pairwise_mergeSort pairLe_trans pairLe_total _
  have sq : q.Pairwise fun a b => decide (pairLeN a b) = true := List.pairwise_mergeSort pairLeN_trans pairLeN_total _
  have ls : s.length = x.length := by rw [ps.length_eq, List.length_zip, List.length_range, min_self]
  have lq : q.length = x.length := by rw [pq.length_eq, List.length_zip, List.length_map, ls, List.length_range, min_self]
  have po : (s.map Prod.snd).Perm (List.range x.length) := by
    have := ps.map Prod.snd
    rwa [List.map_snd_zip (by rw [List.length_range])] at this
  have nd : (s.map Prod.snd).Nodup := po.nodup_iff.2 List.nodup_range
  have pf : (q.map Prod.fst).Perm (List.range x.length) := by
    have := pq.map Prod.fst
    rw [List.map_fst_zip (by rw [List.length_range, List.length_map, ls])] at this
    exact this.trans po
  have ef : q.map Prod.fst = List.range x.length := by
    refine List.Perm.eq_of_pairwise (le := (· ≤ ·)) (fun a b _ _ h1 h2 => le_antisymm h1 h2) ?_ ?_ pf
    · rw [List.pairwise_map]
      exact sq.imp fun h => by
        have := of_decide_eq_true h
        unfold pairLeN at this
        omega
    · exact List.pairwise_le_range
  refine ⟨?_, by rw [List.length_map, ls], po, by rw [List.length_map, lq], ?_, ?_⟩
  · rw [List.pairwise_map]
    exact ss.imp fun h => by
      rcases of_decide_eq_true h with h | h
      · exact h.le
      · exact h.1.le
  · intro i k hk
    rw [List.getElem?_map, Option.map_eq_some_iff] at hk
    obtain ⟨⟨v, k'⟩, e, rfl⟩ := hk
    constructor
    · rw [List.getElem?_map, e]
      exact (mem_zip_range (ps.subset (List.mem_of_getElem? e))).symm
    · have hkn : k' < x.length := by
        have : k' ∈ s.map Prod.snd := List.mem_map.2 ⟨_, List.mem_of_getElem? e, rfl⟩
        exact List.mem_range.1 (po.subset this)
      have hfst : (q.map Prod.fst)[k']? = some k' := by
        rw [ef, List.getElem?_range hkn]
      rw [List.getElem?_map, Option.map_eq_some_iff] at hfst
      obtain ⟨⟨a, b⟩, eq, ha⟩ := hfst
      simp only at ha
      subst ha
      have mem := pq.subset (List.mem_of_getElem? eq)
      have lo : (s.map Prod.snd).length = x.length := by rw [List.length_map, ls]
      have hb : (s.map Prod.snd)[b]? = some a := by
        rw [← lo] at mem
        exact mem_zip_range mem
      have hi : (s.map Prod.snd)[i]? = some a := by rw [List.getElem?_map, e]; rfl
      have hbi : b = i := nodup_place nd hb hi
      rw [List.getElem?_map, eq, ← hbi]
      rfl
  · intro i j hij k m hk hm hkm
    rw [List.getElem?_map, Option.map_eq_some_iff] at hk hm
    obtain ⟨⟨v, k'⟩, e, rfl⟩ := hk
    obtain ⟨⟨v', m'⟩, e', rfl⟩ := hm
    have h1 := mem_zip_range (ps.subset (List.mem_of_getElem? e))
    have h2 := mem_zip_range (ps.subset (List.mem_of_getElem? e'))
    simp only at hkm
    rw [h1, h2] at hkm
    injection hkm with hkm
    obtain ⟨hi, ei⟩ := List.getElem?_eq_some_iff.1 e
    obtain ⟨hj, ej⟩ := List.getElem?_eq_some_iff.1 e'
    have := of_decide_eq_true (List.pairwise_iff_getElem.1 ss i j hi hj hij)
    rw [ei, ej] at this
    have le : k' ≤ m' := by
      rcases this with h | h
      · simp only at h; linarith
      · exact h.2
    refine lt_of_le_of_ne le fun he => ?_
    have g1 : (s.map Prod.snd)[i]? = some k' := by rw [List.getElem?_map, e]; rfl
    have g2 : (s.map Prod.snd)[j]? = some k' := by rw [List.getElem?_map, e']; exact congrArg some he.symm
    have := nodup_place nd g1 g2
    omega

/-- The places in a sorted vector, and a list with equal numbers. -/
theorem trend_search_example : [(0 : ℝ), 1, 3].Pairwise (· < ·) ∧ (∃ b, isSorted [(0 : ℝ), 1, 3] = .ok b ∧ b = true) ∧
    (sortOrderAndRank [3, 1]).1.length = 2 := by
  have h : [(0 : ℝ), 1, 3].Pairwise (· < ·) := by norm_num
  obtain ⟨b, e, hb⟩ := trend_sorted (x := [(0 : ℝ), 1, 3]) (by simp)
  exact ⟨h, ⟨b, e, hb.2 (h.imp le_of_lt)⟩, (trend_sort [3, 1]).2.1⟩

end Verif
