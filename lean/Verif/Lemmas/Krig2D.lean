import Verif.Model.Krig2D
import Verif.Lemmas.Kriging
import Verif.Lemmas.Grid
import Verif.Lemmas.Loop

/-! Helper lemmas for kriging in two dimensions. -/

namespace Verif

/-! ### Data at nodes -/

/-- The location of a datum. -/
def Datum.loc (e : Datum) : ℤ × ℤ := (e.i, e.j)

/-- `addData` by recursion. -/
noncomputable def insData (i j : ℤ) (v : ℝ) : List Datum → List Datum
  | [] => [⟨i, j, v, 1⟩]
  | e :: d => if e.i = i ∧ e.j = j then { e with count := e.count + 1, value := e.value + v } :: d
    else e :: insData i j v d

theorem addData_eq (d : List Datum) (i j : ℤ) {v : ℝ} (hv : v ≠ 99999) : addData d i j v = insData i j v d := by
  unfold addData
  rw [if_pos (by norm_num; exact hv)]
  induction d with
  | nil => rfl
  | cons e d ih =>
    rw [List.findIdx?_cons, insData]
    by_cases h : e.i = i ∧ e.j = j
    · rw [if_pos (by simpa using h), if_pos h]
      rfl
    · rw [if_neg (by simpa using h), if_neg h, ← ih]
      cases List.findIdx? (fun e : Datum => decide (e.i = i ∧ e.j = j)) d <;> rfl

theorem addData_missing (d : List Datum) (i j : ℤ) : addData d i j 99999 = d := by
  unfold addData
  rw [if_neg (by norm_num)]

/-- The sum of the values at a location. -/
noncomputable def totAt (d : List Datum) (p : ℤ × ℤ) : ℝ := ((d.filter fun e => e.loc = p).map Datum.value).sum

/-- The sum of the counts at a location. -/
def cntAt (d : List Datum) (p : ℤ × ℤ) : ℤ := ((d.filter fun e => e.loc = p).map Datum.count).sum

theorem totAt_ins (i j : ℤ) (v : ℝ) (d : List Datum) (p : ℤ × ℤ) :
    totAt (insData i j v d) p = totAt d p + if (i, j) = p then v else 0 := by
  unfold totAt
  induction d with
  | nil => 
    by_cases h : (i, j) = p <;> simp [insData, Datum.loc, h]
  | cons e d ih =>
    rw [insData]
    split
    · rename_i h
      by_cases hp : (i, j) = p
      · have he : e.loc = p := by rw [← hp, ← h.1, ← h.2]; rfl
        have he' : ({ e with count := e.count + 1, value := e.value + v } : Datum).loc = p := he
        rw [List.filter_cons_of_pos (by simpa using he'), List.filter_cons_of_pos (by simpa using he), if_pos hp]
        simp only [List.map_cons, List.sum_cons]
        ring
      · have he : ¬ e.loc = p := by rw [← Ne, ← h.1, ← h.2] at hp; exact hp
        have he' : ¬ ({ e with count := e.count + 1, value := e.value + v } : Datum).loc = p := he
        rw [List.filter_cons_of_neg (by simpa using he'), List.filter_cons_of_neg (by simpa using he), if_neg hp,
          add_zero]
    · rw [List.filter_cons, List.filter_cons]
      split
      · simp only [List.map_cons, List.sum_cons]
        rw [ih]
        ring
      · exact ih

theorem cntAt_ins (i j : ℤ) (v : ℝ) (d : List Datum) (p : ℤ × ℤ) :
    cntAt (insData i j v d) p = cntAt d p + if (i, j) = p then 1 else 0 := by
  unfold cntAt
  induction d with
  | nil => 
    by_cases h : (i, j) = p <;> simp [insData, Datum.loc, h]
  | cons e d ih =>
    rw [insData]
    split
    · rename_i h
      by_cases hp : (i, j) = p
      · have he : e.loc = p := by rw [← hp, ← h.1, ← h.2]; rfl
        have he' : ({ e with count := e.count + 1, value := e.value + v } : Datum).loc = p := he
        rw [List.filter_cons_of_pos (by simpa using he'), List.filter_cons_of_pos (by simpa using he), if_pos hp]
        simp only [List.map_cons, List.sum_cons]
        ring
      · have he : ¬ e.loc = p := by rw [← Ne, ← h.1, ← h.2] at hp; exact hp
        have he' : ¬ ({ e with count := e.count + 1, value := e.value + v } : Datum).loc = p := he
        rw [List.filter_cons_of_neg (by simpa using he'), List.filter_cons_of_neg (by simpa using he), if_neg hp,
          add_zero]
    · rw [List.filter_cons, List.filter_cons]
      split
      · simp only [List.map_cons, List.sum_cons]
        rw [ih]
        ring
      · exact ih

/-- The locations after an addition. -/
theorem locs_ins (i j : ℤ) (v : ℝ) (d : List Datum) :
    (insData i j v d).map Datum.loc = if (i, j) ∈ d.map Datum.loc then d.map Datum.loc else d.map Datum.loc ++ [(i, j)] := by
  induction d with
  | nil => rfl
  | cons e d ih =>
    rw [insData]
    split
    · rename_i h
      rw [if_pos (by rw [List.map_cons, ← h.1, ← h.2]; exact List.mem_cons_self)]
      rfl
    · rename_i h
      have he : (i, j) ≠ e.loc := by
        intro h'
        exact h ⟨(congrArg Prod.fst h').symm, (congrArg Prod.snd h').symm⟩
      rw [List.map_cons, List.map_cons, ih]
      by_cases hm : (i, j) ∈ d.map Datum.loc
      · rw [if_pos hm, if_pos (List.mem_cons_of_mem _ hm)]
      · rw [if_neg hm, if_neg (by rw [List.mem_cons]; tauto)]
        rfl

theorem locs_ins_nodup {i j : ℤ} {v : ℝ} {d : List Datum} (h : (d.map Datum.loc).Nodup) :
    ((insData i j v d).map Datum.loc).Nodup := by
  rw [locs_ins]
  split
  · exact h
  · rename_i hm
    exact List.nodup_append.2 ⟨h, List.nodup_singleton _, by
      intro a ha b hb
      rw [List.mem_singleton] at hb
      rintro rfl
      exact hm (hb ▸ ha)⟩

/-- At distinct locations a datum is all there is at its location. -/
theorem at_eq {d : List Datum} (h : (d.map Datum.loc).Nodup) {e : Datum} (he : e ∈ d) :
    d.filter (fun f => f.loc = e.loc) = [e] := by
  induction d with
  | nil => simp at he
  | cons f d ih =>
    rw [List.map_cons, List.nodup_cons] at h
    rcases List.mem_cons.1 he with rfl | he'
    · rw [List.filter_cons_of_pos (by simp)]
      congr 1
      rw [List.filter_eq_nil_iff]
      intro g hg
      rw [decide_eq_true_iff]
      intro hgl
      exact h.1 (List.mem_map.2 ⟨g, hg, hgl⟩)
    · rw [List.filter_cons_of_neg]
      · exact ih h.2 he'
      · rw [decide_eq_true_iff]
        intro hfl
        exact h.1 (List.mem_map.2 ⟨e, he', hfl.symm⟩)

theorem totAt_self {d : List Datum} (h : (d.map Datum.loc).Nodup) {e : Datum} (he : e ∈ d) : totAt d e.loc = e.value := by
  unfold totAt
  rw [at_eq h he]
  simp

theorem cntAt_self {d : List Datum} (h : (d.map Datum.loc).Nodup) {e : Datum} (he : e ∈ d) : cntAt d e.loc = e.count := by
  unfold cntAt
  rw [at_eq h he]
  simp

/-- Additions one after the other. -/
theorem addAll_inv (L : List ((ℤ × ℤ) × ℝ)) (d : List Datum) (hd : (d.map Datum.loc).Nodup) :
    let r := L.foldl (fun d p => addData d p.1.1 p.1.2 p.2) d
    (r.map Datum.loc).Nodup ∧
    (∀ p, p ∈ r.map Datum.loc ↔ p ∈ d.map Datum.loc ∨ ∃ q ∈ L, q.1 = p ∧ q.2 ≠ 99999) ∧
    (∀ p, totAt r p = totAt d p + ((L.filter fun q => q.1 = p ∧ q.2 ≠ 99999).map Prod.snd).sum) ∧
    ∀ p, cntAt r p = cntAt d p + (L.filter fun q => q.1 = p ∧ q.2 ≠ 99999).length := by
  induction L generalizing d with
  | nil => exact ⟨hd, by simp, by simp, by simp⟩
  | cons q L ih =>
    dsimp only
    rw [List.foldl_cons]
    by_cases hq : q.2 = 99999
    · rw [hq, addData_missing]
      obtain ⟨h1, h2, h3, h4⟩ := ih d hd
      refine ⟨h1, fun p => ?_, fun p => ?_, fun p => ?_⟩
      · rw [h2]
        constructor
        · rintro (h | ⟨a, ha, hb⟩)
          · exact .inl h
          · exact .inr ⟨a, List.mem_cons_of_mem _ ha, hb⟩
        · rintro (h | ⟨a, ha, hb, hc⟩)
          · exact .inl h
          · rcases List.mem_cons.1 ha with rfl | ha
            · exact absurd hq hc
            · exact .inr ⟨a, ha, hb, hc⟩
      · rw [h3, List.filter_cons_of_neg (by simp [hq])]
      · rw [h4, List.filter_cons_of_neg (by simp [hq])]
    · rw [addData_eq _ _ _ hq]
      obtain ⟨h1, h2, h3, h4⟩ := ih (insData q.1.1 q.1.2 q.2 d) (locs_ins_nodup hd)
      refine ⟨h1, fun p => ?_, fun p => ?_, fun p => ?_⟩
      · rw [h2, locs_ins]
        have hm : p ∈ (if (q.1.1, q.1.2) ∈ d.map Datum.loc then d.map Datum.loc else d.map Datum.loc ++ [(q.1.1, q.1.2)])
            ↔ p ∈ d.map Datum.loc ∨ q.1 = p := by
          split
          · rename_i h
            exact ⟨.inl, fun h' => h'.elim id fun e => e ▸ h⟩
          · rw [List.mem_append, List.mem_singleton]
            exact or_congr Iff.rfl eq_comm
        rw [hm, or_assoc]
        refine or_congr Iff.rfl ?_
        constructor
        · rintro (h | ⟨a, ha, hb⟩)
          · exact ⟨q, List.mem_cons_self, h, hq⟩
          · exact ⟨a, List.mem_cons_of_mem _ ha, hb⟩
        · rintro ⟨a, ha, hb, hc⟩
          rcases List.mem_cons.1 ha with rfl | ha
          · exact .inl hb
          · exact .inr ⟨a, ha, hb, hc⟩
      · rw [h3, totAt_ins, List.filter_cons]
        by_cases hp : q.1 = p
        · rw [if_pos hp, if_pos (by simp [hp, hq])]
          simp only [List.map_cons, List.sum_cons]
          ring
        · rw [if_neg hp, if_neg (by simp [hp]), add_zero]
      · rw [h4, cntAt_ins, List.filter_cons]
        by_cases hp : q.1 = p
        · rw [if_pos hp, if_pos (by simp [hp, hq])]
          rw [List.length_cons]
          push_cast
          ring
        · rw [if_neg hp, if_neg (by simp [hp]), add_zero]

theorem findMean_locs (d : List Datum) : (findMeanValues d).map Datum.loc = d.map Datum.loc := by
  unfold findMeanValues
  rw [List.map_map]
  rfl

end Verif
