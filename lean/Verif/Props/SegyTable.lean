import Verif.Model.SegyValues
import Verif.Lemmas.Outcome
import Mathlib.Data.List.Nodup
import Mathlib.Data.List.Perm.Basic
import Mathlib.Data.List.Pairwise
import Mathlib.Tactic.IntervalCases

/-!
# C157: the table of traces is as before after writing
-/

namespace Verif

namespace SegyValues

/-- The order by index is a strict weak order. -/
theorem segy_sort_index :
    (∀ a, sortIndex a a = false) ∧ (∀ a b c, sortIndex a b = true → sortIndex b c = true → sortIndex a c = true) ∧
      ∀ a b c, sortIndex a b = false → sortIndex b c = false → sortIndex a c = false := by
  refine ⟨?_, ?_, ?_⟩
  · rintro (_ | a) <;> simp [sortIndex]
  · rintro (_ | a) (_ | b) (_ | c) <;> simp [sortIndex]
    omega
  · rintro (_ | a) (_ | b) (_ | c) <;> simp [sortIndex]
    omega

/-- The order by inline, crossline and index is a strict weak order, with the empty places last. -/
theorem segy_sort_ilxl :
    (∀ a, sortILXL a a = false) ∧ (∀ a b c, sortILXL a b = true → sortILXL b c = true → sortILXL a c = true) ∧
      (∀ a b c, sortILXL a b = false → sortILXL b c = false → sortILXL a c = false) ∧
      (∀ a, sortILXL (some a) none = true) := by
  refine ⟨?_, ?_, ?_, ?_⟩
  · rintro (_ | ⟨a, b, c⟩) <;> simp [sortILXL]
  · rintro (_ | ⟨a, b, c⟩) (_ | ⟨d, e, f⟩) (_ | ⟨g, h, i⟩) <;> simp [sortILXL]
    omega
  · rintro (_ | ⟨a, b, c⟩) (_ | ⟨d, e, f⟩) (_ | ⟨g, h, i⟩) <;> simp [sortILXL]
    intro h1 h2 h3 h4
    omega
  · rintro ⟨a, b, c⟩; rfl

/-- A list sorted by index has the empty places first. -/
theorem sorted_form (s : List (Option ℕ)) (h : s.Pairwise (fun a b => sortIndex b a = false)) :
    ∃ (m : ℕ) (L : List ℕ), s = List.replicate m none ++ L.map some := by
  induction s with
  | nil => exact ⟨0, [], rfl⟩
  | cons a l ih =>
    obtain ⟨h1, h2⟩ := List.pairwise_cons.1 h
    obtain ⟨m, L, e⟩ := ih h2
    cases a with
    | none => exact ⟨m + 1, L, by rw [e, List.replicate_succ]; rfl⟩
    | some a =>
      cases m with
      | zero => exact ⟨0, a :: L, by rw [e]; rfl⟩
      | succ m =>
        have := h1 none (by rw [e, List.replicate_succ]; simp)
        simp [sortIndex] at this

/-- What the loop keeps: the first `p` traces are at their places, the others where sorting put them, and nothing else. -/
structure Kept (m p : ℕ) (L : List ℕ) (T : List (Option ℕ)) : Prop where
  len : T.length = m + L.length
  put : ∀ q v, q < p → L[q]? = some v → T[v]? = some (some v)
  rest : ∀ q v, p ≤ q → L[q]? = some v → T[m + q]? = some (some v)
  only : ∀ k v, T[k]? = some (some v) → (k = v ∧ ∃ q, q < p ∧ L[q]? = some v) ∨ ∃ q, p ≤ q ∧ k = m + q ∧ L[q]? = some v

theorem gaps {L : List ℕ} (h : L.Pairwise (· < ·)) {p q : ℕ} (hpq : p ≤ q) (hq : q < L.length) : L[p] + (q - p) ≤ L[q] := by
  induction q with
  | zero =>
    have : p = 0 := by omega
    subst this; simp
  | succ q ih =>
    rcases Nat.lt_or_ge q p with h1 | h1
    · have : p = q + 1 := by omega
      subst this; simp
    · have h2 := ih h1 (by omega)
      have h3 := List.pairwise_iff_getElem.1 h q (q + 1) (by omega) hq (by omega)
      omega

theorem restore_rest (m : ℕ) (L : List ℕ) (hs : L.Pairwise (· < ·)) (hb : ∀ v ∈ L, v < m + L.length) :
    ∀ n p T, p + n = L.length → Kept m p L T →
      ∃ T', restoreFrom n (m + p) T = .ok T' ∧ T'.length = m + L.length ∧
        (∀ v ∈ L, T'[v]? = some (some v)) ∧ ∀ k v, T'[k]? = some (some v) → k = v ∧ v ∈ L := by
  intro n
  induction n with
  | zero =>
    intro p T hp hk
    refine ⟨T, rfl, hk.len, ?_, ?_⟩
    · intro v hv
      obtain ⟨q, hq, e⟩ := List.mem_iff_getElem.1 hv
      exact hk.put q v (by omega) (by rw [List.getElem?_eq_getElem hq, e])
    · intro k v hv
      rcases hk.only k v hv with ⟨e, q, -, hq⟩ | ⟨q, h1, -, hq⟩
      · exact ⟨e, List.mem_of_getElem? hq⟩
      · have := (List.getElem?_eq_some_iff.1 hq).1
        omega
  | succ n ih =>
    intro p T hp hk
    have hpl : p < L.length := by omega
    have hrd : rd T (m + p) = .ok (some L[p]) := by
      rw [rd_eq_ok]
      exact hk.rest p _ le_rfl (List.getElem?_eq_getElem hpl)
    simp only [restoreFrom]
    rw [Res.monad_bind_eq, hrd, Res.bind_ok]
    simp only
    by_cases hi : m + p > L[p]
    · rw [if_pos hi, Res.monad_bind_eq, wr_ok (by rw [hk.len]; omega), Res.bind_ok, Res.monad_bind_eq,
        wr_ok (by rw [List.length_set, hk.len]; omega), Res.bind_ok, Nat.add_assoc]
      apply ih (p + 1) _ (by omega)
      have get : ∀ k, ((T.set L[p] (some L[p])).set (m + p) none)[k]? =
          if m + p = k then some none else if L[p] = k then some (some L[p]) else T[k]? := by
        intro k
        rw [List.getElem?_set, List.getElem?_set]
        split_ifs with h1 h2 h3 h4
        · rfl
        · exfalso; rw [List.length_set, hk.len] at h2; omega
        · rfl
        · exfalso; rw [hk.len] at h4; omega
        · rfl
      refine ⟨by simp [hk.len], ?_, ?_, ?_⟩
      · intro q v hq hv
        obtain ⟨hql, ev⟩ := List.getElem?_eq_some_iff.1 hv
        rw [get]
        have hle : v ≤ L[p] := by
          have := gaps hs (show q ≤ p by omega) hpl
          omega
        rw [if_neg (by omega)]
        by_cases e : L[p] = v
        · rw [if_pos e, e]
        · rw [if_neg e]
          refine hk.put q v ?_ hv
          by_contra hq'
          have : q = p := by omega
          subst this
          exact e ev
      · intro q v hq hv
        rw [get, if_neg (by omega), if_neg (by omega)]
        exact hk.rest q v (by omega) hv
      · intro k v hv
        rw [get] at hv
        split_ifs at hv with h1 h2
        · cases hv
        · cases hv
          exact Or.inl ⟨h2.symm, p, by omega, List.getElem?_eq_getElem hpl⟩
        · rcases hk.only k v hv with ⟨e, q, hq, hL⟩ | ⟨q, hq, e, hL⟩
          · exact Or.inl ⟨e, q, by omega, hL⟩
          · refine Or.inr ⟨q, ?_, e, hL⟩
            by_contra hq'
            have : q = p := by omega
            subst this
            exact h1 e.symm
    · rw [if_neg hi]
      refine ⟨T, rfl, hk.len, ?_, ?_⟩
      · intro v hv
        obtain ⟨q, hq, e⟩ := List.mem_iff_getElem.1 hv
        rcases Nat.lt_or_ge q p with h1 | h1
        · exact hk.put q v h1 (by rw [List.getElem?_eq_getElem hq, e])
        · have h2 := gaps hs h1 hq
          have h3 := gaps hs (show q ≤ L.length - 1 by omega) (by omega)
          have h4 := hb _ (List.getElem_mem (show L.length - 1 < L.length by omega))
          have : v = m + q := by omega
          have h5 := hk.rest q v h1 (by rw [List.getElem?_eq_getElem hq, e])
          rwa [← this] at h5
      · intro k v hv
        rcases hk.only k v hv with ⟨e, q, -, hq⟩ | ⟨q, h1, e, hq⟩
        · exact ⟨e, List.mem_of_getElem? hq⟩
        · refine ⟨?_, List.mem_of_getElem? hq⟩
          obtain ⟨hql, ev⟩ := List.getElem?_eq_some_iff.1 hq
          have h2 := gaps hs h1 hql
          have h3 := gaps hs (show q ≤ L.length - 1 by omega) (by omega)
          have h4 := hb _ (List.getElem_mem (show L.length - 1 < L.length by omega))
          omega

theorem restore_empty (L : List ℕ) : ∀ m i n T, (∀ k, i ≤ k → k < i + m → T[k]? = some none) →
    restoreFrom (m + n) i T = restoreFrom n (i + m) T := by
  intro m
  induction m with
  | zero => intro i n T _; simp
  | succ m ih =>
    intro i n T h
    rw [show m + 1 + n = (m + n) + 1 by omega]
    simp only [restoreFrom]
    rw [Res.monad_bind_eq, rd_eq_ok.2 (h i le_rfl (by omega)), Res.bind_ok]
    simp only
    rw [ih (i + 1) n T (fun k h1 h2 => h k (by omega) (by omega)), show i + 1 + m = i + (m + 1) by omega]

/-- Whatever way the sort orders the table by index, the loop after it gives the table back as it was, with each trace at its place. -/
theorem segy_table_restored (ts s : List (Option ℕ)) (hix : ∀ k v : ℕ, ts[k]? = some (some v) → v = k)
    (hp : s.Perm ts) (hs : s.Pairwise (fun a b => sortIndex b a = false)) : restore s = .ok ts := by
  obtain ⟨m, L, rfl⟩ := sorted_form s hs
  have hmem : ∀ v, v ∈ L ↔ ts[v]? = some (some v) := by
    intro v
    have h1 : some v ∈ List.replicate m none ++ L.map some ↔ v ∈ L := by simp
    rw [← h1, hp.mem_iff]
    constructor
    · intro h
      obtain ⟨k, hk⟩ := List.mem_iff_getElem?.1 h
      rwa [← hix k v hk] at hk
    · exact fun h => List.mem_of_getElem? h
  have hlen : m + L.length = ts.length := by
    have := hp.length_eq
    simpa using this
  have hnd : L.Nodup := by
    have h1 : (ts.filterMap id).Nodup := by
      rw [List.nodup_iff_pairwise_ne]
      rw [List.pairwise_filterMap]
      rw [List.pairwise_iff_getElem]
      intro i j hi hj hij a ha b hb e
      simp only [id] at ha hb
      have h1 := hix i a (by rw [List.getElem?_eq_getElem hi, ha])
      have h2 := hix j b (by rw [List.getElem?_eq_getElem hj, hb])
      omega
    have h2 := (hp.filterMap id).nodup_iff.2 h1
    have h3 : (List.replicate m (none : Option ℕ) ++ L.map some).filterMap id = L := by
      simp [List.filterMap_map]
    rwa [h3] at h2
  have hsl : L.Pairwise (· < ·) := by
    have h1 := (List.pairwise_append.1 hs).2.1
    rw [List.pairwise_map] at h1
    rw [List.pairwise_iff_getElem] at h1 ⊢
    intro i j hi hj hij
    have h2 := h1 i j hi hj hij
    simp [sortIndex] at h2
    have h3 : L[i] ≠ L[j] := by
      intro e
      have := (List.Nodup.getElem_inj_iff hnd).1 e
      omega
    omega
  have hb : ∀ v ∈ L, v < m + L.length := by
    intro v hv
    have := (List.getElem?_eq_some_iff.1 ((hmem v).1 hv)).1
    omega
  unfold restore
  rw [show (List.replicate m (none : Option ℕ) ++ L.map some).length = m + L.length by simp, restore_empty L]
  · rw [Nat.zero_add]
    obtain ⟨T, e, hl, h1, h2⟩ := restore_rest m L hsl hb L.length 0 (List.replicate m none ++ L.map some) (by omega) (by
      refine ⟨by simp, by intro q v hq; omega, ?_, ?_⟩
      · intro q v _ hv
        rw [List.getElem?_append_right (by simp)]
        simp [hv]
      · intro k v hk
        right
        rcases Nat.lt_or_ge k m with hkm | hkm
        · rw [List.getElem?_append_left (by simpa using hkm)] at hk
          simp [hkm] at hk
        · rw [List.getElem?_append_right (by simpa using hkm)] at hk
          refine ⟨k - m, by omega, by omega, ?_⟩
          simpa using hk)
    rw [Nat.add_zero] at e
    rw [e]
    congr 1
    apply List.ext_getElem?
    intro k
    rcases Nat.lt_or_ge k ts.length with hk | hk
    · have hkT : k < T.length := by omega
      rw [List.getElem?_eq_getElem hk, List.getElem?_eq_getElem hkT]
      congr 1
      rcases hT : T[k] with _ | v
      · rcases hts : ts[k] with _ | w
        · rfl
        · exfalso
          have h3 : ts[k]? = some (some w) := by rw [List.getElem?_eq_getElem hk, hts]
          have h4 := hix k w h3
          subst h4
          have h5 := h1 w ((hmem w).2 h3)
          rw [List.getElem?_eq_getElem hkT, hT] at h5
          cases h5
      · obtain ⟨e1, e2⟩ := h2 k v (by rw [List.getElem?_eq_getElem hkT, hT])
        subst e1
        have h3 := (hmem k).1 e2
        rw [List.getElem?_eq_getElem hk] at h3
        exact (Option.some.inj h3).symm
    · rw [List.getElem?_eq_none hk, List.getElem?_eq_none (by omega)]
  · intro k _ hk
    rw [List.getElem?_append_left (by simpa using hk)]
    rw [List.getElem?_replicate, if_pos (by omega)]

/-- A case: a table with two empty places. -/
theorem segy_table_example : restore [none, none, some 0, some 2, some 4] = .ok [some 0, none, some 2, none, some 4] := by
  apply segy_table_restored
  · intro k v h
    have hk := (List.getElem?_eq_some_iff.1 h).1
    simp only [List.length_cons, List.length_nil] at hk
    interval_cases k <;> simp_all
  · decide
  · decide

end SegyValues

end Verif
