import Verif.Model.Well
import Verif.Lemmas.Outcome
import Mathlib.Data.List.Lex
import Mathlib.Data.Char
import Mathlib.Data.Finset.Card
import Mathlib.Data.Finset.Dedup

/-!
# C132: the logs of wells
-/

namespace Verif

namespace LogMap
variable {V : Type}

theorem find_cons (p : LogName × V) (m : LogMap V) (n : LogName) :
    LogMap.find (p :: m) n = if n = p.1 then some p.2 else m.find n := by
  unfold find
  rw [List.lookup_cons]
  by_cases h : n = p.1
  · rw [if_pos h, beq_iff_eq.2 h]
  · rw [if_neg h, beq_eq_false_iff_ne.2 h]

theorem find_set (m : LogMap V) (n n' : LogName) (v : V) :
    (m.set n v).find n' = if n' = n then some v else m.find n' := by
  induction m with
  | nil => exact find_cons (n, v) [] n'
  | cons p m ih =>
    unfold set
    by_cases h : n = p.1
    · rw [if_pos h, find_cons, find_cons, ← h]
      by_cases h' : n' = n
      · rw [if_pos h', if_pos h']
      · rw [if_neg h', if_neg h', if_neg h']
    · rw [if_neg h]
      by_cases h2 : n < p.1
      · rw [if_pos h2, find_cons]
      · rw [if_neg h2, find_cons, find_cons, ih]
        by_cases h' : n' = n
        · rw [if_pos h', if_neg (by rw [h']; exact h), if_pos h']
        · rw [if_neg h', if_neg h']

theorem find_erase (m : LogMap V) (n n' : LogName) :
    (m.erase n).find n' = if n' = n then none else m.find n' := by
  induction m with
  | nil => rw [show LogMap.find ([] : LogMap V) n' = none from rfl, ite_self]; rfl
  | cons p m ih =>
    unfold erase at ih ⊢
    rw [List.filter_cons]
    by_cases h : p.1 = n
    · rw [if_neg (by simpa using h), ih, find_cons, h]
      by_cases h' : n' = n
      · rw [if_pos h', if_pos h']
      · rw [if_neg h', if_neg h', if_neg h']
    · rw [if_pos (by simpa using h), find_cons, find_cons, ih]
      by_cases h' : n' = n
      · rw [if_pos h', if_pos h', if_neg (by rw [h']; exact Ne.symm h)]
      · rw [if_neg h', if_neg h']

/-- The names are in strict order. -/
def Sorted (m : LogMap V) : Prop := m.Pairwise fun p q => p.1 < q.1

theorem mem_set {m : LogMap V} {n : LogName} {v : V} {q : LogName × V} (h : q ∈ m.set n v) :
    q = (n, v) ∨ q ∈ m := by
  induction m with
  | nil => left; simpa [set] using h
  | cons p m ih =>
    unfold set at h
    split_ifs at h with h1 h2
    · rcases List.mem_cons.1 h with h | h
      · exact Or.inl h
      · exact Or.inr (List.mem_cons_of_mem _ h)
    · rcases List.mem_cons.1 h with h | h
      · exact Or.inl h
      · exact Or.inr h
    · rcases List.mem_cons.1 h with h | h
      · right; rw [h]; exact List.mem_cons_self
      · rcases ih h with h | h
        · exact Or.inl h
        · exact Or.inr (List.mem_cons_of_mem _ h)

theorem sorted_set {m : LogMap V} (hm : m.Sorted) (n : LogName) (v : V) : (m.set n v).Sorted := by
  induction m with
  | nil => exact List.pairwise_singleton _ _
  | cons p m ih =>
    obtain ⟨hp, hm'⟩ := List.pairwise_cons.1 hm
    unfold set
    split_ifs with h1 h2
    · refine List.pairwise_cons.2 ⟨fun q hq => ?_, hm'⟩
      show n < q.1
      rw [h1]
      exact hp q hq
    · refine List.pairwise_cons.2 ⟨fun q hq => ?_, hm⟩
      show n < q.1
      rcases List.mem_cons.1 hq with rfl | hq
      · exact h2
      · exact lt_trans h2 (hp q hq)
    · refine List.pairwise_cons.2 ⟨fun q hq => ?_, ih hm'⟩
      rcases mem_set hq with rfl | hq
      · exact lt_of_le_of_ne (not_lt.1 h2) (Ne.symm h1)
      · exact hp q hq

theorem sorted_erase {m : LogMap V} (hm : m.Sorted) (n : LogName) : (m.erase n).Sorted :=
  List.Pairwise.filter _ hm

theorem sorted_nodup {m : LogMap V} (hm : m.Sorted) : (m.map Prod.fst).Nodup := by
  unfold List.Nodup
  rw [List.pairwise_map]
  exact hm.imp fun h => ne_of_lt h

theorem find_isSome (m : LogMap V) (n : LogName) :
    (m.find n).isSome = true ↔ n ∈ m.map Prod.fst := by
  induction m with
  | nil => simp [find]
  | cons p m ih =>
    rw [find_cons, List.map_cons, List.mem_cons, ← ih]
    by_cases h : n = p.1
    · rw [if_pos h]
      simp [h]
    · rw [if_neg h]
      simp [h]

end LogMap

open LogMap in
/-- **C132, logs are kept by name.** Adding and removing a log, and writing a value: the log or
value asked for, all others as before. -/
theorem well_cont_logs (w : Well) (n n' : LogName) (log : List ℝ) :
    (w.addContLog n log).getContLog n' = (if n' = n then .ok log else w.getContLog n') ∧
    (w.addContLog n log).hasContLog n' = (decide (n' = n) || w.hasContLog n') ∧
    (w.removeContLog n).hasContLog n' = (!decide (n' = n) && w.hasContLog n') ∧
    (n' ≠ n → (w.removeContLog n).getContLog n' = w.getContLog n') ∧
    ((w.addContLog n log).disc = w.disc ∧ (w.removeContLog n).disc = w.disc) := by
  unfold Well.addContLog Well.removeContLog Well.getContLog Well.hasContLog
  dsimp only
  rw [find_set, find_erase]
  by_cases h : n' = n
  · subst h
    simp [Well.found]
  · simp [h]

open LogMap in
/-- **C132, the same for discrete logs.** -/
theorem well_disc_logs (w : Well) (n n' : LogName) (log : List ℤ) :
    (w.addDiscLog n log).getDiscLog n' = (if n' = n then .ok log else w.getDiscLog n') ∧
    (w.addDiscLog n log).hasDiscLog n' = (decide (n' = n) || w.hasDiscLog n') ∧
    (w.removeDiscLog n).hasDiscLog n' = (!decide (n' = n) && w.hasDiscLog n') ∧
    (n' ≠ n → (w.removeDiscLog n).getDiscLog n' = w.getDiscLog n') ∧
    ((w.addDiscLog n log).cont = w.cont ∧ (w.removeDiscLog n).cont = w.cont) := by
  unfold Well.addDiscLog Well.removeDiscLog Well.getDiscLog Well.hasDiscLog
  dsimp only
  rw [find_set, find_erase]
  by_cases h : n' = n
  · subst h
    simp [Well.found]
  · simp [h]

theorem log_rd_set {α : Type} (l : List α) (i j : ℕ) (v : α) (hi : i < l.length) :
    rd (l.set i v) j = if j = i then .ok v else rd l j := by
  unfold rd
  rw [List.getElem?_set]
  by_cases h : i = j
  · subst h
    rw [if_pos rfl, if_pos hi, if_pos rfl]
  · rw [if_neg h, if_neg (Ne.symm h)]

open LogMap in
/-- **C132, values.** Writing a value of a log changes this value only. -/
theorem well_set_value (w : Well) (n : LogName) (i : ℕ) :
    (∀ (log : List ℝ) (v : ℝ), w.getContLog n = .ok log → i < log.length →
      ∃ w', w.setContValue v i n = .ok w' ∧ w'.disc = w.disc ∧ ∀ n' i',
        w'.getContValue i' n' = if n' = n ∧ i' = i then .ok v else w.getContValue i' n') ∧
    (∀ (log : List ℤ) (v : ℤ), w.getDiscLog n = .ok log → i < log.length →
      ∃ w', w.setDiscValue v i n = .ok w' ∧ w'.cont = w.cont ∧ ∀ n' i',
        w'.getDiscValue i' n' = if n' = n ∧ i' = i then .ok v else w.getDiscValue i' n') := by
  constructor
  · intro log v h hi
    refine ⟨{ w with cont := w.cont.set n (log.set i v) }, ?_, rfl, fun n' i' => ?_⟩
    · unfold Well.setContValue wr
      rw [h, Res.monad_bind_eq, Res.bind_ok, if_pos hi]
      rfl
    · unfold Well.getContValue Well.getContLog at *
      dsimp only
      rw [find_set]
      by_cases hn : n' = n
      · subst hn
        rw [if_pos rfl, h]
        simp only [Well.found, Res.monad_bind_eq, Res.bind_ok, true_and]
        exact log_rd_set _ _ _ _ hi
      · rw [if_neg hn, if_neg (fun hc => hn hc.1)]
  · intro log v h hi
    refine ⟨{ w with disc := w.disc.set n (log.set i v) }, ?_, rfl, fun n' i' => ?_⟩
    · unfold Well.setDiscValue wr
      rw [h, Res.monad_bind_eq, Res.bind_ok, if_pos hi]
      rfl
    · unfold Well.getDiscValue Well.getDiscLog at *
      dsimp only
      rw [find_set]
      by_cases hn : n' = n
      · subst hn
        rw [if_pos rfl, h]
        simp only [Well.found, Res.monad_bind_eq, Res.bind_ok, true_and]
        exact log_rd_set _ _ _ _ hi
      · rw [if_neg hn, if_neg (fun hc => hn hc.1)]

/-- The wells that calls of the functions lead to from a well without logs. -/
inductive Well.Reachable : Well → Prop
  | named (name : LogName) (r : ℝ) (i : ℤ) : Reachable (.named name r i)
  | addC {w} (h : Reachable w) (n : LogName) (log : List ℝ) : Reachable (w.addContLog n log)
  | addD {w} (h : Reachable w) (n : LogName) (log : List ℤ) : Reachable (w.addDiscLog n log)
  | remC {w} (h : Reachable w) (n : LogName) : Reachable (w.removeContLog n)
  | remD {w} (h : Reachable w) (n : LogName) : Reachable (w.removeDiscLog n)
  | setC {w w'} (h : Reachable w) (v : ℝ) (i : ℕ) (n : LogName)
      (e : w.setContValue v i n = .ok w') : Reachable w'
  | setD {w w'} (h : Reachable w) (v : ℤ) (i : ℕ) (n : LogName)
      (e : w.setDiscValue v i n = .ok w') : Reachable w'
  | upper {w w'} (h : Reachable w) (e : w.makeLogsUppercase = .ok w') : Reachable w'
  | miss {w w'} (h : Reachable w) (v : ℝ) (e : w.setMissing v = .ok w') : Reachable w'

open LogMap

theorem upperLogs_sorted {V : Type} (m out r : LogMap V) (ho : out.Sorted)
    (e : Well.upperLogs m out = .ok r) : r.Sorted := by
  induction m generalizing out with
  | nil =>
    unfold Well.upperLogs at e
    cases e
    exact ho
  | cons p m ih =>
    unfold Well.upperLogs at e
    rw [Res.monad_bind_eq, Res.bind_eq_ok] at e
    obtain ⟨u, -, e⟩ := e
    exact ih _ (sorted_set ho _ _) e

theorem Well.Reachable.sorted {w : Well} (h : w.Reachable) : w.cont.Sorted ∧ w.disc.Sorted := by
  induction h with
  | named => exact ⟨List.Pairwise.nil, List.Pairwise.nil⟩
  | addC _ n log ih => exact ⟨sorted_set ih.1 _ _, ih.2⟩
  | addD _ n log ih => exact ⟨ih.1, sorted_set ih.2 _ _⟩
  | remC _ n ih => exact ⟨sorted_erase ih.1 _, ih.2⟩
  | remD _ n ih => exact ⟨ih.1, sorted_erase ih.2 _⟩
  | setC _ v i n e ih =>
    unfold Well.setContValue at e
    simp only [Res.monad_bind_eq, Res.bind_eq_ok] at e
    obtain ⟨l, -, l', -, e⟩ := e
    cases e
    exact ⟨sorted_set ih.1 _ _, ih.2⟩
  | setD _ v i n e ih =>
    unfold Well.setDiscValue at e
    simp only [Res.monad_bind_eq, Res.bind_eq_ok] at e
    obtain ⟨l, -, l', -, e⟩ := e
    cases e
    exact ⟨ih.1, sorted_set ih.2 _ _⟩
  | upper _ e ih =>
    unfold Well.makeLogsUppercase at e
    simp only [Res.monad_bind_eq, Res.bind_eq_ok] at e
    obtain ⟨d, hd, c, hc, e⟩ := e
    cases e
    exact ⟨upperLogs_sorted _ _ _ List.Pairwise.nil hc, upperLogs_sorted _ _ _ List.Pairwise.nil hd⟩
  | miss _ v e ih =>
    unfold Well.setMissing at e
    simp only [Res.monad_bind_eq, Res.bind_eq_ok] at e
    obtain ⟨i, -, e⟩ := e
    cases e
    exact ih

/-- **C132, numbers of logs.** After any sequence of calls, `GetNContLog` is the number of
continuous logs, and `GetNlog` that of all logs. -/
theorem well_count {w : Well} (h : w.Reachable) :
    ∃ C D : Finset LogName, (∀ n, n ∈ C ↔ w.hasContLog n = true) ∧
      (∀ n, n ∈ D ↔ w.hasDiscLog n = true) ∧ w.getNContLog = C.card ∧
      w.getNlog = C.card + D.card := by
  obtain ⟨hc, hd⟩ := h.sorted
  refine ⟨(w.cont.map Prod.fst).toFinset, (w.disc.map Prod.fst).toFinset, fun n => ?_, fun n => ?_,
    ?_, ?_⟩
  · rw [List.mem_toFinset]; exact (find_isSome _ _).symm
  · rw [List.mem_toFinset]; exact (find_isSome _ _).symm
  · rw [List.toFinset_card_of_nodup (sorted_nodup hc), List.length_map]; rfl
  · rw [List.toFinset_card_of_nodup (sorted_nodup hc),
      List.toFinset_card_of_nodup (sorted_nodup hd), List.length_map, List.length_map]; rfl

theorem upperLogs_find {V : Type} (m : LogMap V) (up : LogName → LogName)
    (hu : ∀ n ∈ m.map Prod.fst, uppercase n = .ok (up n))
    (hinj : ∀ n ∈ m.map Prod.fst, ∀ n' ∈ m.map Prod.fst, up n = up n' → n = n')
    (hm : (m.map Prod.fst).Nodup) (out : LogMap V) :
    ∃ r, Well.upperLogs m out = .ok r ∧
      (∀ n ∈ m.map Prod.fst, r.find (up n) = m.find n) ∧
      (∀ u, (∀ n ∈ m.map Prod.fst, up n ≠ u) → r.find u = out.find u) := by
  induction m generalizing out with
  | nil => exact ⟨out, rfl, fun n hn => by simp at hn, fun u _ => rfl⟩
  | cons p m ih =>
    rw [List.map_cons, List.nodup_cons] at hm
    obtain ⟨r, hr, h1, h2⟩ := ih (fun n hn => hu n (by rw [List.map_cons]; exact List.mem_cons_of_mem _ hn))
      (fun n hn n' hn' => hinj n (by rw [List.map_cons]; exact List.mem_cons_of_mem _ hn) n'
        (by rw [List.map_cons]; exact List.mem_cons_of_mem _ hn')) hm.2 (out.set (up p.1) p.2)
    have hp : p.1 ∈ (p :: m).map Prod.fst := by rw [List.map_cons]; exact List.mem_cons_self
    refine ⟨r, ?_, fun n hn => ?_, fun u hu' => ?_⟩
    · unfold Well.upperLogs
      rw [hu p.1 hp, Res.monad_bind_eq, Res.bind_ok, hr]
    · rw [find_cons]
      rw [List.map_cons, List.mem_cons] at hn
      by_cases h : n = p.1
      · rw [if_pos h, h, h2 (up p.1), find_set, if_pos rfl]
        intro n' hn' he
        have := hinj n' (by rw [List.map_cons]; exact List.mem_cons_of_mem _ hn') p.1 hp he
        exact hm.1 (this ▸ hn')
      · rw [if_neg h]
        exact h1 n (hn.resolve_left h)
    · rw [h2 u (fun n hn => hu' n (by rw [List.map_cons]; exact List.mem_cons_of_mem _ hn)),
        find_set, if_neg (Ne.symm (hu' p.1 hp))]

/-- **C132, upper case.** If no two names become equal, `MakeLogsUppercase` gives every log its
name in upper case, and there are no other logs. -/
theorem well_uppercase_partial {w : Well} (h : w.Reachable) (up : LogName → LogName)
    (hu : ∀ n, w.hasContLog n = true ∨ w.hasDiscLog n = true → uppercase n = .ok (up n))
    (hc : ∀ n n', w.hasContLog n = true → w.hasContLog n' = true → up n = up n' → n = n')
    (hd : ∀ n n', w.hasDiscLog n = true → w.hasDiscLog n' = true → up n = up n' → n = n') :
    ∃ w', w.makeLogsUppercase = .ok w' ∧
      (∀ n, w.hasContLog n = true → w'.getContLog (up n) = w.getContLog n) ∧
      (∀ n, w.hasDiscLog n = true → w'.getDiscLog (up n) = w.getDiscLog n) ∧
      (∀ u, w'.hasContLog u = true → ∃ n, w.hasContLog n = true ∧ up n = u) ∧
      (∀ u, w'.hasDiscLog u = true → ∃ n, w.hasDiscLog n = true ∧ up n = u) := by
  obtain ⟨sc, sd⟩ := h.sorted
  have mc : ∀ n, n ∈ w.cont.map Prod.fst ↔ w.hasContLog n = true := fun n => (find_isSome _ _).symm
  have md : ∀ n, n ∈ w.disc.map Prod.fst ↔ w.hasDiscLog n = true := fun n => (find_isSome _ _).symm
  obtain ⟨d, ed, d1, d2⟩ := upperLogs_find w.disc up (fun n hn => hu n (Or.inr ((md n).1 hn)))
    (fun n hn n' hn' => hd n n' ((md n).1 hn) ((md n').1 hn')) (sorted_nodup sd) []
  obtain ⟨c, ec, c1, c2⟩ := upperLogs_find w.cont up (fun n hn => hu n (Or.inl ((mc n).1 hn)))
    (fun n hn n' hn' => hc n n' ((mc n).1 hn) ((mc n').1 hn')) (sorted_nodup sc) []
  refine ⟨{ w with disc := d, cont := c }, ?_, fun n hn => ?_, fun n hn => ?_, fun u hu => ?_,
    fun u hu => ?_⟩
  · unfold Well.makeLogsUppercase
    rw [ed, Res.monad_bind_eq, Res.bind_ok, ec]
    rfl
  · unfold Well.getContLog
    rw [← c1 n ((mc n).2 hn)]
  · unfold Well.getDiscLog
    rw [← d1 n ((md n).2 hn)]
  · by_contra hne
    have : c.find u = none := c2 u (fun n hn he => hne ⟨n, (mc n).1 hn, he⟩)
    unfold Well.hasContLog at hu
    rw [this] at hu
    exact absurd hu (by simp)
  · by_contra hne
    have : d.find u = none := d2 u (fun n hn he => hne ⟨n, (md n).1 hn, he⟩)
    unfold Well.hasDiscLog at hu
    rw [this] at hu
    exact absurd hu (by simp)

/-- **C132, upper case, two names that become equal.** One of the logs is lost. -/
theorem well_uppercase_violation :
    ∃ w w' : Well, w.Reachable ∧ w.makeLogsUppercase = .ok w' ∧
      w.getContLog "GR".toList = .ok [1] ∧ w.getContLog "gr".toList = .ok [2] ∧
      w.getNContLog = 2 ∧ w'.getNContLog = 1 ∧ w'.getContLog "GR".toList = .ok [2] := by
  refine ⟨((Well.named [] (-999) (-999)).addContLog "GR".toList [1]).addContLog "gr".toList [2], _,
    ((Well.Reachable.named _ _ _).addC _ _).addC _ _, rfl, rfl, rfl, rfl, rfl, rfl⟩

/-- **C132, values that are not there.** Unlike the documentation says, asking for the value of a
log that is not there, or after its end, does not give the missing value: it is undefined. So is
asking a new well whether it is deviated, and for the number of its data. -/
theorem well_value_violation (w : Well) (n : LogName) (i : ℕ) :
    (w.hasContLog n = false → ∃ s, w.getContValue i n = .ub s) ∧
    (w.hasDiscLog n = false → ∃ s, w.getDiscValue i n = .ub s) ∧
    (∀ log, w.getContLog n = .ok log → log.length ≤ i → ∃ s, w.getContValue i n = .ub s) ∧
    (∀ log, w.getDiscLog n = .ok log → log.length ≤ i → ∃ s, w.getDiscValue i n = .ub s) ∧
    (∀ r k, (∃ s, (Well.named n r k).isDeviated = .ub s) ∧
      ∃ s, (Well.named n r k).getNData = .ub s) := by
  refine ⟨fun h => ?_, fun h => ?_, fun log h hi => ?_, fun log h hi => ?_,
    fun r k => ⟨⟨_, rfl⟩, ⟨_, rfl⟩⟩⟩
  · unfold Well.hasContLog at h
    have h' : w.cont.find n = none := by
      cases e : w.cont.find n
      · rfl
      · rw [e] at h; simp at h
    unfold Well.getContValue Well.getContLog
    rw [h']
    exact ⟨_, rfl⟩
  · unfold Well.hasDiscLog at h
    have h' : w.disc.find n = none := by
      cases e : w.disc.find n
      · rfl
      · rw [e] at h; simp at h
    unfold Well.getDiscValue Well.getDiscLog
    rw [h']
    exact ⟨_, rfl⟩
  · unfold Well.getContValue rd
    rw [h, Res.monad_bind_eq, Res.bind_ok, List.getElem?_eq_none hi]
    exact ⟨_, rfl⟩
  · unfold Well.getDiscValue rd
    rw [h, Res.monad_bind_eq, Res.bind_ok, List.getElem?_eq_none hi]
    exact ⟨_, rfl⟩

/-- **C132, the codes for missing values.** `SetMissing` sets both codes, the one for discrete logs
to the integer part. -/
theorem well_setMissing (w : Well) (v : ℝ) (k : ℤ) (hk : -2 ^ 31 < k ∧ k < 2 ^ 31 - 1)
    (hv : (0 ≤ v ∧ (k : ℝ) ≤ v ∧ v < k + 1) ∨ (v < 0 ∧ (k : ℝ) - 1 < v ∧ v ≤ k)) :
    ∃ w', w.setMissing v = .ok w' ∧ (∀ x, w'.isMissingC x ↔ x = v) ∧
      (∀ m, w'.isMissingD m ↔ m = k) ∧ w'.cont = w.cont ∧ w'.disc = w.disc := by
  have e : truncZ v = k := by
    unfold truncZ
    rcases hv with ⟨h0, h1, h2⟩ | ⟨h0, h1, h2⟩
    · rw [if_pos h0, Int.floor_eq_iff]; exact ⟨h1, h2⟩
    · rw [if_neg (not_le.2 h0), Int.ceil_eq_iff]; exact ⟨h1, h2⟩
  refine ⟨{ w with rmissing := v, imissing := k }, ?_, fun x => Iff.rfl, fun m => Iff.rfl, rfl, rfl⟩
  unfold Well.setMissing toInt32
  rw [e, if_pos (by constructor <;> omega)]
  rfl

/-- **C132, what else is told about a well.** Whether it is deviated and the number of its data are
what they were set to last; setting one leaves the other and the logs as they were. -/
theorem well_told (w : Well) (b : Bool) (n : ℕ) :
    (w.setDeviated b).isDeviated = .ok b ∧ (w.setNumberOfData n).getNData = .ok n ∧
    (w.setDeviated b).getNData = w.getNData ∧
    (w.setNumberOfData n).isDeviated = w.isDeviated ∧
    ∀ k, (w.setDeviated b).getContLog k = w.getContLog k ∧
      (w.setDeviated b).getDiscLog k = w.getDiscLog k ∧
      (w.setNumberOfData n).getContLog k = w.getContLog k ∧
      (w.setNumberOfData n).getDiscLog k = w.getDiscLog k :=
  ⟨rfl, rfl, rfl, rfl, fun _ => ⟨rfl, rfl, rfl, rfl⟩⟩

/-- A concrete case: a well with two logs, one of them with values. -/
example : ∃ w : Well, w.Reachable ∧ w.getContLog ['x'] = .ok [1, 2] ∧
    w.getDiscLog ['f'] = .ok [3] ∧ w.hasContLog ['y'] = false :=
  ⟨((Well.named [] (-999) (-999)).addContLog ['x'] [1, 2]).addDiscLog ['f'] [3],
    ((Well.Reachable.named _ _ _).addC _ _).addD _ _, rfl, rfl, rfl⟩

end Verif
