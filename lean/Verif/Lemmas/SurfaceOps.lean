import Verif.Lemmas.Surface
import Mathlib.Algebra.BigOperators.Group.List.Basic

/-! Helper lemmas: loops over the nodes of a surface. -/

namespace Verif

/-- A loop that replaces each element by a function of the old one. -/
theorem forRange_mapIdx (d : List ℝ) (body : ℕ → List ℝ → Res (List ℝ)) (f : ℕ → ℝ → ℝ)
    (hb : ∀ (i : ℕ) (e : List ℝ) (h : i < d.length), e.length = d.length → e[i]? = some d[i] →
      body i e = .ok (e.set i (f i d[i]))) :
    forRange 0 d.length body d = .ok (d.mapIdx f) := by
  obtain ⟨e, he, hI⟩ := forRange_sat
    (fun k e => e.length = d.length ∧ ∀ j (h : j < d.length),
      e[j]? = some (if j < k then f j d[j] else d[j]))
    (Nat.zero_le d.length) (body := body) (s := d) ⟨rfl, fun j h => by simp⟩
    (by
      rintro i e - hi ⟨hl, hI⟩
      have hei := hI i hi
      rw [if_neg (lt_irrefl i)] at hei
      rw [hb i e hi hl hei]
      rw [Res.sat_ok]
      refine ⟨by rw [List.length_set, hl], fun j hj => ?_⟩
      rw [List.getElem?_set]
      by_cases hij : i = j
      · subst hij
        rw [if_pos rfl, if_pos (by omega), if_pos (Nat.lt_succ_self _)]
      · rw [if_neg hij, hI j hj]
        by_cases h : j < i
        · rw [if_pos h, if_pos (by omega)]
        · rw [if_neg h, if_neg (by omega)])
  rw [he]
  congr 1
  apply List.ext_getElem?
  intro j
  rw [List.getElem?_mapIdx]
  by_cases hj : j < d.length
  · rw [hI.2 j hj, if_pos hj, List.getElem?_eq_getElem hj]; rfl
  · rw [List.getElem?_eq_none (by rw [hI.1]; omega), List.getElem?_eq_none (by omega)]; rfl

theorem set_self {d : List ℝ} {i : ℕ} {a : ℝ} (h : d[i]? = some a) : d.set i a = d := by
  apply List.ext_getElem?
  intro j
  rw [List.getElem?_set]
  by_cases hij : i = j
  · subst hij
    have hi : i < d.length := by
      by_contra hc
      rw [List.getElem?_eq_none (by omega)] at h
      cases h
    rw [if_pos rfl, if_pos hi, h]
  · rw [if_neg hij]

namespace RegSurf

theorem mapValid_eq (s : RegSurf) (f : ℝ → ℝ) :
    s.mapValid f = .ok { s with grid := { s.grid with
      data := s.grid.data.map fun v => if v = s.missing then s.missing else f v } } := by
  unfold mapValid
  rw [forRange_mapIdx s.grid.data _ (fun _ v => if v = s.missing then s.missing else f v)]
  · have : s.grid.data.mapIdx (fun _ v => if v = s.missing then s.missing else f v)
        = s.grid.data.map fun v => if v = s.missing then s.missing else f v := by
      rw [List.mapIdx_eq_iff]
      intro i
      rw [List.getElem?_map]
    rw [this]; rfl
  · intro i e h hl he
    simp only [Res.monad_bind_eq]
    rw [rd_eq_ok.2 he, Res.bind_ok]
    by_cases hm : s.grid.data[i] = s.missing
    · rw [if_neg (not_not.mpr hm), if_pos hm, set_self (by rw [he, hm])]
    · rw [if_pos hm, if_neg hm, wr_ok (by omega)]

theorem assign_eq (s : RegSurf) (c : ℝ) :
    s.assign c = .ok { s with grid := { s.grid with
      data := List.replicate s.grid.data.length c } } := by
  unfold assign
  rw [forRange_mapIdx s.grid.data _ (fun _ _ => c)]
  · have : s.grid.data.mapIdx (fun _ _ => c) = List.replicate s.grid.data.length c := by
      rw [List.mapIdx_eq_iff]
      intro i
      rw [List.getElem?_replicate]
      by_cases h : i < s.grid.data.length
      · rw [if_pos h, List.getElem?_eq_getElem h]; rfl
      · rw [if_neg h, List.getElem?_eq_none (by omega)]; rfl
    rw [this]; rfl
  · intro i e h hl _
    rw [wr_ok (by omega)]

/-- What the loop of `Min` and `Max` has found after `k` nodes; `lt` is the order. -/
def Best (m : ℝ) (d : List ℝ) (lt : ℝ → ℝ → Prop) (k : ℕ) (st : ℝ × ℕ) : Prop :=
  d[st.2]? = some st.1 ∧ (st.2 = 0 ∨ st.2 < k) ∧
  (st.1 = m → st.2 = 0 ∧ ∀ j, j < k → ∀ v, d[j]? = some v → v = m) ∧
  (st.1 ≠ m → ∀ j, j < k → ∀ v, d[j]? = some v → v ≠ m →
    ¬ lt v st.1 ∧ (j < st.2 → lt st.1 v))

theorem best_loop (m : ℝ) (d : List ℝ) (lt : ℝ → ℝ → Prop) [∀ a b, Decidable (lt a b)]
    (hirr : ∀ a, ¬ lt a a) (htr : ∀ a b c, lt a b → lt b c → lt a c)
    (htot : ∀ a b, ¬ lt a b → ¬ lt b a → a = b) {z0 : ℝ} (h0 : d[0]? = some z0)
    (body : ℕ → ℝ × ℕ → Res (ℝ × ℕ))
    (hb : ∀ i st z, d[i]? = some z →
      body i st = if (st.1 = m ∨ lt z st.1) ∧ z ≠ m then .ok (z, i) else .ok st) :
    (forRange 0 d.length body (z0, 0)).Sat (Best m d lt d.length) := by
  refine forRange_sat (Best m d lt) (Nat.zero_le _) ?_ ?_
  · exact ⟨h0, Or.inl rfl, fun _ => ⟨rfl, fun j hj => by omega⟩, fun _ j hj => by omega⟩
  · rintro i st - hi ⟨h1, hpos, h2, h3⟩
    have hz : d[i]? = some d[i] := List.getElem?_eq_getElem hi
    rw [hb i st d[i] hz]
    generalize d[i] = z at *
    have hsplit : ∀ j, j < i + 1 → j < i ∨ j = i := by intro j hj; omega
    by_cases hc : (st.1 = m ∨ lt z st.1) ∧ z ≠ m
    · rw [if_pos hc, Res.sat_ok]
      refine ⟨hz, Or.inr (Nat.lt_succ_self i), fun h => absurd h hc.2, fun _ j hj v hv hvm => ?_⟩
      rcases hsplit j hj with h | h
      · by_cases hm : st.1 = m
        · exact absurd ((h2 hm).2 j h v hv) hvm
        · have hlt : lt z st.1 := hc.1.resolve_left hm
          obtain ⟨a, -⟩ := h3 hm j h v hv hvm
          have hzv : lt z v := by
            by_cases e : lt st.1 v
            · exact htr _ _ _ hlt e
            · rw [htot v st.1 a e]; exact hlt
          exact ⟨fun h' => hirr z (htr _ _ _ hzv h'), fun _ => hzv⟩
      · subst h
        rw [hz] at hv
        obtain rfl := Option.some.inj hv
        exact ⟨hirr _, fun h => absurd h (lt_irrefl j)⟩
    · rw [if_neg hc, Res.sat_ok]
      refine ⟨h1, hpos.imp id (fun h => by omega), fun hm => ⟨(h2 hm).1, fun j hj v hv => ?_⟩, fun hm j hj v hv hvm => ?_⟩
      · rcases hsplit j hj with h | h
        · exact (h2 hm).2 j h v hv
        · subst h
          rw [hz] at hv
          obtain rfl := Option.some.inj hv
          by_contra hzm
          exact hc ⟨Or.inl hm, hzm⟩
      · rcases hsplit j hj with h | h
        · exact h3 hm j h v hv hvm
        · subst h
          rw [hz] at hv
          obtain rfl := Option.some.inj hv
          have hnl : ¬ lt z st.1 := fun h => hc ⟨Or.inr h, hvm⟩
          exact ⟨hnl, fun hlt => by omega⟩

end RegSurf

end Verif
