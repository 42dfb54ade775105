import Verif.Model.PadAnalyzer
import Verif.Lemmas.EmpiricalSum

/-! Helper lemmas for the convergence analysis and the padding analyzer. -/

namespace Verif.Py

open Spec

/-! ### Loops with and without the convergence analysis -/

/-- Without the differences the loop is the one without convergence analysis. -/
theorem convLoop_fst (E : Ev) (res : ℝ) (refs : List (ℕ × ℕ × ℕ)) (step : ℤ) (truth : List ℝ)
    (i : ℕ) (grids : List Arr3) (sum : List (Option ℝ)) (n : List ℕ) (ds : List (List (Option ℝ))) :
    (E.convLoop res refs step truth i grids sum n ds).bind (fun r => .ok (r.1, r.2.1))
      = E.simLoop res refs grids sum n := by
  induction grids generalizing i sum n ds with
  | nil => simp [Ev.convLoop, Ev.simLoop, Res.bind_ok]
  | cons g grids ih =>
    rw [Ev.convLoop, Ev.simLoop]
    simp only [Res.monad_bind_eq, Res.bind_assoc]
    congr 1
    funext r
    exact ih _ _ _ _

theorem simLoop_append (E : Ev) (res : ℝ) (refs : List (ℕ × ℕ × ℕ)) (l₁ l₂ : List Arr3)
    (sum : List (Option ℝ)) (n : List ℕ) :
    E.simLoop res refs (l₁ ++ l₂) sum n
      = (E.simLoop res refs l₁ sum n).bind fun r => E.simLoop res refs l₂ r.1 r.2 := by
  induction l₁ generalizing sum n with
  | nil => simp [Ev.simLoop, Res.bind_ok]
  | cons g l ih =>
    rw [List.cons_append, Ev.simLoop, Ev.simLoop]
    simp only [Res.monad_bind_eq, Res.bind_assoc]
    congr 1
    funext r
    exact ih _ _

/-- The differences that are fed: one for every number of a field that the step divides. -/
theorem convLoop_deltas {E : Ev} {res : ℝ} {refs : List (ℕ × ℕ × ℕ)} {step : ℤ} {truth : List ℝ}
    {i : ℕ} {grids : List Arr3} {sum sum' : List (Option ℝ)} {n n' : List ℕ}
    {ds ds' : List (List (Option ℝ))}
    (h : E.convLoop res refs step truth i grids sum n ds = .ok (sum', n', ds')) :
    ∃ P : ℕ → List (Option ℝ),
      (∀ k ≤ grids.length, ∃ nk, E.simLoop res refs (grids.take k) sum n = .ok (P k, nk)) ∧
      ds' = ds ++ ((List.range grids.length).filter fun k =>
          decide (0 < step ∧ ((i + k : ℕ) : ℤ) % step = 0)).map fun k =>
            feedDelta ((P (k + 1)).map fun a => nanDiv a (i + k + 1)) truth := by
  induction grids generalizing i sum n ds with
  | nil =>
    simp only [Ev.convLoop, Res.ok.injEq, Prod.mk.injEq] at h
    refine ⟨fun _ => sum, fun k hk => ⟨n, ?_⟩, by simp [h.2.2]⟩
    simp [Ev.simLoop]
  | cons g grids ih =>
    rw [Ev.convLoop] at h
    simp only [Res.monad_bind_eq] at h
    obtain ⟨⟨mean, count⟩, e1, h⟩ := Res.bind_eq_ok.1 h
    simp only at h
    obtain ⟨P, hP, hd⟩ := ih h
    obtain ⟨Q, Q0, QS⟩ : ∃ Q : ℕ → List (Option ℝ), Q 0 = sum ∧ ∀ k, Q (k + 1) = P k :=
      ⟨fun k => k.casesOn sum P, rfl, fun _ => rfl⟩
    refine ⟨Q, fun k hk => ?_, ?_⟩
    · cases k with
      | zero => exact ⟨n, by simp [Ev.simLoop, Q0]⟩
      | succ k =>
        obtain ⟨nk, e⟩ := hP k (by simpa using hk)
        refine ⟨nk, ?_⟩
        rw [List.take_succ_cons, Ev.simLoop, e1, QS]
        simp only [Res.monad_bind_eq, Res.bind_ok]
        exact e
    · have h0 : P 0 = List.zipWith nanAdd sum (List.zipWith nanDiv mean count) := by
        obtain ⟨nk, e⟩ := hP 0 (by simp)
        simp only [List.take_zero, Ev.simLoop, Res.ok.injEq, Prod.mk.injEq] at e
        exact e.1.symm
      rw [hd, List.length_cons, List.range_succ_eq_map, List.filter_cons]
      have hmap : (List.filter (fun k => decide (0 < step ∧ ((i + k : ℕ) : ℤ) % step = 0))
            (List.map Nat.succ (List.range grids.length)))
          = (List.filter (fun k => decide (0 < step ∧ ((i + 1 + k : ℕ) : ℤ) % step = 0))
            (List.range grids.length)).map Nat.succ := by
        rw [List.filter_map]
        congr 1
        refine List.filter_congr fun k _ => ?_
        simp only [Function.comp]
        rw [show i + k.succ = i + 1 + k by omega]
      rw [hmap]
      have hrest : ∀ k : ℕ, feedDelta ((P (k + 1)).map fun a => nanDiv a (i + 1 + k + 1)) truth
          = feedDelta ((Q (k.succ + 1)).map fun a => nanDiv a (i + k.succ + 1)) truth := by
        intro k
        rw [QS, show i + k.succ + 1 = i + 1 + k + 1 by omega]
      simp only [add_zero]
      by_cases hc : 0 < step ∧ (i : ℤ) % step = 0
      · rw [if_pos hc, if_pos (by simpa using hc)]
        simp only [List.append_assoc, List.map_cons, List.map_map, List.singleton_append, QS, h0,
          add_zero]
        congr 2
        exact List.map_congr_left fun k _ => (hrest k).trans (by rw [QS]; rfl)
      · rw [if_neg hc, if_neg (by simpa using hc), List.map_map]
        congr 1
        exact List.map_congr_left fun k _ => hrest k

theorem filter_multiples {t : ℕ} (ht : 0 < t) (N : ℕ) :
    (List.range N).filter (fun k => decide (k % t = 0))
      = (List.range ((N + t - 1) / t)).map fun m => m * t := by
  induction N with
  | zero =>
    rw [show (0 + t - 1) / t = 0 from Nat.div_eq_of_lt (by omega)]
    rfl
  | succ N ih =>
    rw [List.range_succ, List.filter_append, ih]
    have e1 : (N + 1 + t - 1) / t = N / t + 1 := by
      rw [show N + 1 + t - 1 = N + t by omega, Nat.add_div_right _ ht]
    rw [e1]
    by_cases h : N % t = 0
    · have e2 : (N + t - 1) / t = N / t := by
        obtain ⟨q, rfl⟩ := Nat.dvd_of_mod_eq_zero h
        rw [Nat.mul_div_cancel_left _ ht, show t * q + t - 1 = (t - 1) + t * q by omega,
          Nat.add_mul_div_left _ _ ht, Nat.div_eq_of_lt (by omega), zero_add]
      rw [e2, List.range_succ, List.map_append]
      have e3 : N / t * t = N := Nat.div_mul_cancel (Nat.dvd_of_mod_eq_zero h)
      simp [h, e3]
    · have e2 : (N + t - 1) / t = N / t + 1 := by
        have hm := Nat.div_add_mod N t
        have hl := Nat.mod_lt N ht
        have : N + t - 1 = (N % t - 1) + t * (N / t + 1) := by
          rw [mul_add]
          omega
        rw [this, Nat.add_mul_div_left _ _ ht, Nat.div_eq_of_lt (by omega), zero_add]
      rw [e2]
      simp [h]

/-! ### Lengths -/

theorem padZero_length {α : Type} {z : α} {n : ℕ} {l r : List α} (h : padZero z n l = .ok r) :
    r.length = n := by
  unfold padZero at h
  split_ifs at h with hl
  simp only [Res.ok.injEq] at h
  rw [← h]
  simp only [List.length_append, List.length_replicate]
  omega

theorem refLoop_length {E : Ev} {res : ℝ} {grid : Arr3} {refs : List (ℕ × ℕ × ℕ)}
    {mean mean' : List (Option ℝ)} {count count' : List ℕ}
    (h : E.refLoop res grid refs mean count = .ok (mean', count')) :
    mean'.length = mean.length ∧ count'.length = count.length := by
  induction refs generalizing mean count with
  | nil =>
    simp only [Ev.refLoop, Res.ok.injEq, Prod.mk.injEq] at h
    rw [h.1, h.2]
    exact ⟨rfl, rfl⟩
  | cons r refs ih =>
    rw [Ev.refLoop] at h
    simp only [Res.monad_bind_eq] at h
    obtain ⟨⟨means, edges⟩, -, h⟩ := Res.bind_eq_ok.1 h
    simp only at h
    obtain ⟨m, em, h⟩ := Res.bind_eq_ok.1 h
    obtain ⟨c, ec, h⟩ := Res.bind_eq_ok.1 h
    obtain ⟨h1, h2⟩ := ih h
    rw [h1, h2, List.length_zipWith, List.length_zipWith, padZero_length em, padZero_length ec]
    simp

theorem simLoop_length {E : Ev} {res : ℝ} {refs : List (ℕ × ℕ × ℕ)} {grids : List Arr3}
    {sum sum' : List (Option ℝ)} {n n' : List ℕ}
    (h : E.simLoop res refs grids sum n = .ok (sum', n')) : sum'.length = sum.length := by
  induction grids generalizing sum n with
  | nil =>
    simp only [Ev.simLoop, Res.ok.injEq, Prod.mk.injEq] at h
    rw [h.1]
  | cons g grids ih =>
    rw [Ev.simLoop] at h
    simp only [Res.monad_bind_eq] at h
    obtain ⟨⟨mean, count⟩, e1, h⟩ := Res.bind_eq_ok.1 h
    simp only at h
    obtain ⟨h1, h2⟩ := refLoop_length e1
    rw [ih h, List.length_zipWith, List.length_zipWith, h1, h2]
    simp

/-! ### The distances do not depend on the field -/

/-- The same grid. -/
def SameGrid (E E' : Ev) : Prop :=
  E'.nx = E.nx ∧ E'.dx = E.dx ∧ E'.ny = E.ny ∧ E'.dy = E.dy ∧ E'.nz = E.nz ∧ E'.dz = E.dz

theorem calculateDeltas_dists {E E' : Ev} (hE : SameGrid E E') {g g' : Arr3} {ref : Option (ℕ × ℕ × ℕ)}
    {d d' x x' : List ℝ} (h : E.calculateDeltas g ref = .ok (d, x))
    (h' : E'.calculateDeltas g' ref = .ok (d', x')) : d = d' := by
  obtain ⟨a1, a2, a3, a4, a5, a6⟩ := hE
  unfold Ev.calculateDeltas at h h'
  rw [a1, a2, a3, a4, a5, a6] at h'
  simp only [Res.monad_bind_eq] at h h'
  obtain ⟨a, -, h⟩ := Res.bind_eq_ok.1 h
  obtain ⟨a', -, h'⟩ := Res.bind_eq_ok.1 h'
  split at h
  · simp at h
  · rename_i p hp
    rw [hp] at h'
    simp only at h'
    obtain ⟨q, e, h⟩ := Res.bind_eq_ok.1 h
    obtain ⟨q', e', h'⟩ := Res.bind_eq_ok.1 h'
    obtain ⟨_, -, h⟩ := Res.bind_eq_ok.1 h
    obtain ⟨_, -, h'⟩ := Res.bind_eq_ok.1 h'
    obtain ⟨_, -, h⟩ := Res.bind_eq_ok.1 h
    obtain ⟨_, -, h'⟩ := Res.bind_eq_ok.1 h'
    rw [e] at e'
    simp only [Res.ok.injEq, Prod.mk.injEq] at h h' e'
    rw [← h.1, ← h'.1, e']

theorem binnedMean_edges {x v v' : List ℝ} {n : ℤ} {m m' : List (Option ℝ)} {e e' : List ℝ}
    (h : binnedMean x v n = .ok (m, e)) (h' : binnedMean x v' n = .ok (m', e')) : e = e' := by
  unfold binnedMean at h h'
  split_ifs at h h'
  simp only [Res.monad_bind_eq] at h h'
  obtain ⟨lo, e1, h⟩ := Res.bind_eq_ok.1 h
  obtain ⟨lo', e1', h'⟩ := Res.bind_eq_ok.1 h'
  obtain ⟨hi, e2, h⟩ := Res.bind_eq_ok.1 h
  obtain ⟨hi', e2', h'⟩ := Res.bind_eq_ok.1 h'
  rw [e1] at e1'
  rw [e2] at e2'
  simp only [Res.ok.injEq, Prod.mk.injEq] at h h' e1' e2'
  rw [← h.2, ← h'.2, e1', e2']

theorem midpoints_same {E E' : Ev} (hE : SameGrid E E') {res : ℝ} {g g' : Arr3} {m m' : List ℝ}
    (h : E.midpoints res g = .ok m) (h' : E'.midpoints res g' = .ok m') : m = m' := by
  unfold Ev.midpoints at h h'
  simp only [Res.monad_bind_eq] at h h'
  obtain ⟨⟨a, ed⟩, e1, h⟩ := Res.bind_eq_ok.1 h
  obtain ⟨⟨a', ed'⟩, e1', h'⟩ := Res.bind_eq_ok.1 h'
  simp only at h h'
  suffices ed = ed' by
    subst this
    rw [h] at h'
    simpa using h'
  unfold Ev.binnedStatistics at e1 e1'
  simp only [Res.monad_bind_eq] at e1 e1'
  obtain ⟨⟨d, x⟩, e2, e1⟩ := Res.bind_eq_ok.1 e1
  obtain ⟨⟨d', x'⟩, e2', e1'⟩ := Res.bind_eq_ok.1 e1'
  have := calculateDeltas_dists hE e2 e2'
  subst this
  simp only at e1 e1'
  obtain ⟨M, e3, e1⟩ := Res.bind_eq_ok.1 e1
  obtain ⟨M', e3', e1'⟩ := Res.bind_eq_ok.1 e1'
  rw [e3] at e3'
  simp only [Res.ok.injEq] at e3'
  subst e3'
  split_ifs at e1 e1' <;> exact binnedMean_edges e1 e1'

theorem midpoints_unique {E : Ev} {res : ℝ} {g g' : Arr3} {m m' : List ℝ}
    (h : E.midpoints res g = .ok m) (h' : E.midpoints res g' = .ok m') : m = m' :=
  midpoints_same ⟨rfl, rfl, rfl, rfl, rfl, rfl⟩ h h'

/-! ### The padding analyzer -/

theorem pyOr_ne {α : Type} [Zero α] (x : Option α) {d : α} (hd : d ≠ 0) : pyOr x d ≠ 0 := by
  unfold pyOr
  split
  · exact hd
  · split_ifs with h
    · exact hd
    · exact h

theorem PadArgs.cells_ne (a : PadArgs) : a.cells ≠ 0 := pyOr_ne _ (by norm_num)

theorem PadArgs.length_ne (a : PadArgs) : a.length ≠ 0 := pyOr_ne _ (by norm_num)

theorem createVariograms_grid {r : ℝ} {p : ℤ} {k : ℤ} {d : ℝ} {n : ℕ} {L : ℝ} {t : TypeArg} {E : Ev}
    (h : createVariograms r p k d n L t = .ok E) :
    (k = 1 ∧ variogram t (r * L) (-1.0) (-1.0) 0.0 0.0 1.5 = .ok E.v ∧
        E = ⟨E.v, n, d, 1, 0, 1, 0, p, p, p⟩) ∨
      (k = 2 ∧ variogram t (r * L) (r * L) (-1.0) 0.0 0.0 1.5 = .ok E.v ∧
        E = ⟨E.v, n, d, n, d, 1, 0, p, p, p⟩) := by
  unfold createVariograms at h
  split_ifs at h with h1 h2
  · simp only [Res.monad_bind_eq] at h
    obtain ⟨v, e, h⟩ := Res.bind_eq_ok.1 h
    simp only [Res.ok.injEq] at h
    subst h
    exact Or.inl ⟨h1, e, rfl⟩
  · simp only [Res.monad_bind_eq] at h
    obtain ⟨v, e, h⟩ := Res.bind_eq_ok.1 h
    simp only [Res.ok.injEq] at h
    subst h
    exact Or.inr ⟨h2, e, rfl⟩

theorem createVariograms_same {r r' : ℝ} {p p' : ℤ} {k : ℤ} {d : ℝ} {n : ℕ} {L : ℝ} {t : TypeArg}
    {E E' : Ev} (h : createVariograms r p k d n L t = .ok E)
    (h' : createVariograms r' p' k d n L t = .ok E') : SameGrid E E' := by
  rcases createVariograms_grid h with ⟨h1, -, h2⟩ | ⟨h1, -, h2⟩ <;>
    rcases createVariograms_grid h' with ⟨h3, -, h4⟩ | ⟨h3, -, h4⟩
  · rw [h2, h4]
    exact ⟨rfl, rfl, rfl, rfl, rfl, rfl⟩
  · omega
  · omega
  · rw [h2, h4]
    exact ⟨rfl, rfl, rfl, rfl, rfl, rfl⟩

theorem simulateMany_mem {E : Ev} {S : Setup} {e : ℕ → Env} {k n : ℕ} {s s' : Random}
    {gs : List Arr3} (h : E.simulateMany S e k n s = .ok (gs, s')) :
    gs.length = n ∧ ∀ g ∈ gs, ∃ i t t', E.simulate S (e i) t = .ok (g, t') := by
  induction n generalizing k s s' gs with
  | zero =>
    simp only [Ev.simulateMany, Res.ok.injEq, Prod.mk.injEq] at h
    rw [← h.1]
    simp
  | succ n ih =>
    rw [Ev.simulateMany] at h
    simp only [Res.monad_bind_eq] at h
    obtain ⟨⟨g, s1⟩, e1, h⟩ := Res.bind_eq_ok.1 h
    simp only at h
    obtain ⟨⟨gs', s2⟩, e2, h⟩ := Res.bind_eq_ok.1 h
    simp only [Res.ok.injEq, Prod.mk.injEq] at h
    obtain ⟨h1, h2⟩ := ih e2
    rw [← h.1]
    refine ⟨by simp [h1], fun g' hg => ?_⟩
    rcases List.mem_cons.1 hg with rfl | hg
    · exact ⟨k, s, s1, e1⟩
    · exact h2 g' hg

/-- What an estimate is made of. -/
theorem analyze_spec {a : PadArgs} {S : Setup} {e : ℕ → Env} {r : ℝ} {p : ℤ} {s s' : Random}
    {est : Estimated} (h : a.analyze S e r p s = .ok (est, s')) :
    ∃ E first second grids, createVariograms r p a.dims a.d a.cells a.length a.vtype = .ok E ∧
      (∀ g ∈ first :: second :: grids, ∃ i t t', E.simulate S (e i) t = .ok (g, t')) ∧
      grids.length = a.fields.toNat ∧
      E.estimateConv a.dr [(0, 0, 0)] (10 : ℕ) first second grids = .ok est := by
  unfold PadArgs.analyze at h
  simp only [Res.monad_bind_eq] at h
  obtain ⟨E, e1, h⟩ := Res.bind_eq_ok.1 h
  simp only [Ev.pickReferencePoints, Res.bind_ok] at h
  unfold Ev.estimateWith at h
  simp only [Res.monad_bind_eq] at h
  obtain ⟨⟨first, s1⟩, e2, h⟩ := Res.bind_eq_ok.1 h
  obtain ⟨⟨second, s2⟩, e3, h⟩ := Res.bind_eq_ok.1 h
  obtain ⟨⟨grids, s3⟩, e4, h⟩ := Res.bind_eq_ok.1 h
  obtain ⟨q, e5, h⟩ := Res.bind_eq_ok.1 h
  simp only [Res.ok.injEq, Prod.mk.injEq] at h
  obtain ⟨h1, h2⟩ := simulateMany_mem e4
  refine ⟨E, first, second, grids, e1, fun g hg => ?_, h1, ?_⟩
  · rcases List.mem_cons.1 hg with rfl | hg
    · exact ⟨0, _, _, e2⟩
    · rcases List.mem_cons.1 hg with rfl | hg
      · exact ⟨1, _, _, e3⟩
      · exact h2 g hg
  · rw [← h.1]
    exact e5

/-- Where the row of a job is stored. -/
def jobKey (nr : ℕ) (x : (ℝ × ℕ) × (ℤ × ℕ)) : ℕ := x.2.2 * nr + x.1.2

theorem mem_jobs {ranges : List ℝ} {pads : List ℤ} {r : ℝ} {i : ℕ} {p : ℤ} {j : ℕ} :
    ((r, i), (p, j)) ∈ jobs ranges pads ↔ ranges[i]? = some r ∧ pads[j]? = some p := by
  unfold jobs
  simp only [List.mem_flatMap, List.mem_map, Prod.mk.injEq, Prod.exists, List.mem_zipIdx_iff_getElem?]
  constructor
  · rintro ⟨a, b, h1, c, d, h2, ⟨rfl, rfl⟩, rfl, rfl⟩
    exact ⟨h1, h2⟩
  · rintro ⟨h1, h2⟩
    exact ⟨r, i, h1, p, j, h2, ⟨rfl, rfl⟩, rfl, rfl⟩

theorem jobs_nodup (ranges : List ℝ) (pads : List ℤ) :
    ((jobs ranges pads).map (jobKey ranges.length)).Nodup := by
  have h1 : (jobs ranges pads).map (fun x => (x.1.2, x.2.2))
      = (List.range ranges.length).product (List.range pads.length) := by
    unfold jobs List.product
    rw [List.map_flatMap]
    have e1 : ranges.zipIdx.map Prod.snd = List.range ranges.length := by
      rw [List.zipIdx_map_snd, List.range_eq_range']
    have e2 : pads.zipIdx.map Prod.snd = List.range pads.length := by
      rw [List.zipIdx_map_snd, List.range_eq_range']
    rw [← e1, ← e2, List.flatMap_map]
    refine List.flatMap_congr fun x _ => ?_
    rw [List.map_map, List.map_map]
    rfl
  have h2 : (jobs ranges pads).map (jobKey ranges.length)
      = ((jobs ranges pads).map fun x => (x.1.2, x.2.2)).map fun y : ℕ × ℕ =>
          y.2 * ranges.length + y.1 := by
    rw [List.map_map]
    rfl
  rw [h2, h1]
  refine List.Nodup.map_on ?_ (List.nodup_range.product List.nodup_range)
  rintro ⟨i, j⟩ hx ⟨i', j'⟩ hy h
  simp only [List.pair_mem_product, List.mem_range] at hx hy h
  have hi : i = i' := by
    have := congrArg (· % ranges.length) h
    simp only [Nat.mul_add_mod_self_right, Nat.mod_eq_of_lt hx.1, Nat.mod_eq_of_lt hy.1] at this
    exact this
  subst hi
  have : j * ranges.length = j' * ranges.length := by omega
  rw [Nat.eq_of_mul_eq_mul_right (by omega) this]

theorem storeRow_ok {rows rows' : List (List (Option ℝ))} {k w : ℕ} {row : List (Option ℝ)}
    (h : storeRow rows k w row = .ok rows') :
    rows'.length = rows.length ∧ (∀ m, m ≠ k → rows'[m]? = rows[m]?) ∧
      (row.length = w → rows'[k]? = some row) := by
  have key : ∀ x : List (Option ℝ), wr rows k x = .ok rows' →
      rows'.length = rows.length ∧ (∀ m, m ≠ k → rows'[m]? = rows[m]?) ∧ rows'[k]? = some x := by
    intro x hx
    unfold wr at hx
    split_ifs at hx with hk
    simp only [Res.ok.injEq] at hx
    subst hx
    refine ⟨by simp, fun m hm => ?_, ?_⟩
    · rw [List.getElem?_set_ne (Ne.symm hm)]
    · rw [List.getElem?_set_self hk]
  unfold storeRow at h
  split_ifs at h with h1 h2
  · obtain ⟨a, b, c⟩ := key _ h
    exact ⟨a, b, fun _ => c⟩
  · obtain ⟨a, b, c⟩ := key _ h
    exact ⟨a, b, fun hw => absurd hw h1⟩

theorem loop_spec {a : PadArgs} {S : Setup} {e : ℕ → ℕ → Env} {w k : ℕ}
    {js : List ((ℝ × ℕ) × (ℤ × ℕ))} {rows rows' : List (List (Option ℝ))} {s s' : Random}
    (hn : (js.map (jobKey a.ranges.length)).Nodup)
    (h : a.loop S e w k js rows s = .ok (rows', s')) :
    rows'.length = rows.length ∧
    (∀ m, m ∉ js.map (jobKey a.ranges.length) → rows'[m]? = rows[m]?) ∧
    ∀ x ∈ js, ∃ q t t' est last, a.analyze S (e q) x.1.1 x.2.1 t = .ok (est, t') ∧
      est.deltas.getLast? = some last ∧
      (last.length = w → rows'[jobKey a.ranges.length x]? = some last) := by
  induction js generalizing k rows s with
  | nil =>
    simp only [PadArgs.loop, Res.ok.injEq, Prod.mk.injEq] at h
    rw [h.1]
    simp
  | cons x js ih =>
    obtain ⟨⟨r, i⟩, ⟨p, j⟩⟩ := x
    rw [PadArgs.loop] at h
    simp only [Res.monad_bind_eq] at h
    obtain ⟨⟨est, s1⟩, e1, h⟩ := Res.bind_eq_ok.1 h
    obtain ⟨last, e2, h⟩ := Res.bind_eq_ok.1 h
    obtain ⟨rows1, e3, h⟩ := Res.bind_eq_ok.1 h
    rw [List.map_cons, List.nodup_cons] at hn
    obtain ⟨h1, h2, h3⟩ := ih hn.2 h
    obtain ⟨g1, g2, g3⟩ := storeRow_ok e3
    refine ⟨h1.trans g1, fun m hm => ?_, fun y hy => ?_⟩
    · rw [List.map_cons, List.mem_cons, not_or] at hm
      rw [h2 m hm.2, g2 m hm.1]
    · rcases List.mem_cons.1 hy with rfl | hy
      · refine ⟨k, s, s1, est, last, e1, ?_, fun hw => ?_⟩
        · unfold pyLast at e2
          split at e2
          · simp at e2
          · rename_i z hz
            simp only [Res.ok.injEq] at e2
            rw [hz, e2]
        · rw [h2 _ hn.1]
          exact g3 hw
      · exact h3 y hy

end Verif.Py
