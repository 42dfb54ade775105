import Verif.Lemmas.TrendKit
import Mathlib.Algebra.BigOperators.Group.List.Basic

/-!
# C151: means, variances and bins
-/

namespace Verif

open Classical

namespace TrendKit

/-- The numbers that are not missing. -/
noncomputable def present (l : List ℝ) : List ℝ := l.filter fun v => decide (v ≠ missing)

theorem present_append (l m : List ℝ) : present (l ++ m) = present l ++ present m := List.filter_append _ _

theorem present_cons_of_ne {v : ℝ} (h : v ≠ missing) (l : List ℝ) : present (v :: l) = v :: present l :=
  List.filter_cons_of_pos (by exact decide_eq_true h)

theorem present_cons_missing (l : List ℝ) : present (missing :: l) = present l :=
  List.filter_cons_of_neg (by simp)

theorem addLog {log : List ℝ} (s : ℝ × ℕ) :
    forRange 0 log.length (addBlock log) s = .ok (s.1 + (present log).sum, s.2 + (present log).length) := by
  obtain ⟨r, e, hr⟩ := forRange_sat (lo := 0) (hi := log.length)
    (fun i (t : ℝ × ℕ) => t = (s.1 + (present (log.take i)).sum, s.2 + (present (log.take i)).length)) (by omega)
    (body := addBlock log) (s := s) (by simp [present]) (by
      rintro i t _ hi rfl
      unfold addBlock
      rw [rd_ok hi, Res.monad_bind_eq, Res.bind_ok]
      refine ⟨_, rfl, ?_⟩
      rw [List.take_succ_eq_append_getElem hi, present_append]
      by_cases hv : log[i] ≠ missing
      · rw [if_pos hv, present_cons_of_ne hv]
        simp [present]
        constructor
        · ring
        · omega
      · rw [if_neg hv]
        rw [not_not] at hv
        rw [hv, present_cons_missing]
        simp [present])
  rw [e, hr, List.take_length]

theorem addWells_spec {n : ℕ} : ∀ (logs : List (List ℝ)) (s : ℝ × ℕ), (∀ l ∈ logs, l.length = n ∨ l = []) →
    addWells n logs s = .ok (s.1 + (present logs.flatten).sum, s.2 + (present logs.flatten).length)
  | [], s, _ => by simp [addWells, present]
  | log :: logs, s, h => by
    have ih := fun s => addWells_spec logs s fun l hl => h l (List.mem_cons_of_mem _ hl)
    unfold addWells
    rw [List.flatten_cons, present_append]
    by_cases hl : log.length > 0
    · rw [if_pos hl]
      have e : n = log.length := by
        rcases h log List.mem_cons_self with h | h
        · exact h.symm
        · simp [h] at hl
      rw [e, addLog, Res.monad_bind_eq, Res.bind_ok, ← e, ih]
      simp only [List.sum_append, List.length_append]
      congr 2
      · ring
      · omega
    · rw [if_neg hl, ih]
      have e : log = [] := List.length_eq_zero_iff.1 (by omega)
      simp [e, present]

end TrendKit

open TrendKit

/-- **C151 (constant trend).** If all logs are as long as the first or empty, the trend is the mean of the numbers that are not missing,
and 0 if there is none. -/
theorem trend_constant {log : List ℝ} {logs : List (List ℝ)} (h : ∀ l ∈ logs, l.length = log.length ∨ l = []) (t : ℝ) :
    constantTrend (log :: logs) t = .ok (if present (log :: logs).flatten = [] then 0
      else (present (log :: logs).flatten).sum / (present (log :: logs).flatten).length) := by
  have e := addWells_spec (n := log.length) (log :: logs) (0, 0) (by
    intro l hl
    rcases List.mem_cons.1 hl with rfl | hl
    · exact .inl rfl
    · exact h l hl)
  unfold constantTrend
  simp only
  rw [e, Res.monad_bind_eq, Res.bind_ok]
  simp only [zero_add]
  by_cases hp : present (log :: logs).flatten = []
  · rw [if_pos hp, hp, if_neg (by simp)]
    simp
  · have hlen := List.length_pos_iff.2 hp
    rw [if_neg hp, if_pos hlen, fdiv_ok]
    exact_mod_cast hlen.ne'

/-- Without logs the trend is as it was. -/
theorem trend_constant_none (t : ℝ) : constantTrend [] t = .ok t := rfl

/-- Two logs with a missing number. -/
theorem trend_constant_example : constantTrend [[1, missing], [], [3, 5]] 0 = .ok 3 := by
  rw [trend_constant (by simp)]
  have h : ∀ v : ℝ, 0 ≤ v → v ≠ missing := fun v hv hc => by rw [hc] at hv; norm_num [missing] at hv
  have e : present ([[1, missing], [], [3, 5]] : List (List ℝ)).flatten = [1, 3, 5] := by
    show present [1, missing, 3, 5] = _
    rw [present_cons_of_ne (h 1 (by norm_num)), present_cons_missing, present_cons_of_ne (h 3 (by norm_num)),
      present_cons_of_ne (h 5 (by norm_num))]
    rfl
  rw [e, if_neg (by simp)]
  norm_num

/-- **C151 (violation, constant trend).** If the first log is empty no log is used; a longer log is cut; a shorter log is read beyond
its end. -/
theorem trend_constant_violation : constantTrend [[], [1]] 0 = .ok 0 ∧ constantTrend [[1], [3, 80]] 0 = .ok 2 ∧
    (∃ m, constantTrend [[1, 1], [3]] 0 = .ub m) := by
  have h : ∀ v : ℝ, 0 ≤ v → v ≠ missing := fun v hv hc => by rw [hc] at hv; norm_num [missing] at hv
  have h1 := h 1 (by norm_num)
  have h3 := h 3 (by norm_num)
  refine ⟨?_, ?_, ?_⟩
  · simp [constantTrend, addWells, forRange, forN]
  · simp [constantTrend, addWells, forRange, forN, addBlock, rd, h1, h3, fdiv]
    norm_num
  · simp [constantTrend, addWells, forRange, forN, addBlock, rd, h1, h3]

namespace TrendKit

theorem addSquare_spec : ∀ (x : List ℝ) (s : ℝ × ℝ × ℕ), x.foldl addSquare s =
    (s.1 + (present x).sum, s.2.1 + ((present x).map fun v => v * v).sum, s.2.2 + (present x).length)
  | [], s => by simp [present]
  | v :: x, s => by
    rw [List.foldl_cons, addSquare_spec x]
    unfold addSquare
    by_cases hv : v ≠ missing
    · rw [if_pos hv, present_cons_of_ne hv]
      simp only [List.sum_cons, List.map_cons, List.length_cons, Prod.mk.injEq]
      exact ⟨by ring, by ring, by omega⟩
    · rw [if_neg hv]
      rw [not_not] at hv
      rw [hv, present_cons_missing]

theorem sum_sq_dev (m : ℝ) : ∀ l : List ℝ, (l.map fun v => (v - m) * (v - m)).sum =
    (l.map fun v => v * v).sum - 2 * m * l.sum + l.length * (m * m)
  | [] => by simp
  | v :: l => by
    simp only [List.map_cons, List.sum_cons, List.length_cons, sum_sq_dev m l]
    push_cast
    ring

end TrendKit

/-- **C151 (variance).** With 2 to 46341 numbers that are not missing the result is the sum of the squared distances from the mean
divided by one less than their number. -/
theorem trend_variance {x : List ℝ} (h2 : 2 ≤ (present x).length) (hmax : (present x).length ≤ 46341) :
    variance x = .ok (((present x).map fun v => (v - (present x).sum / (present x).length) * (v - (present x).sum / (present x).length)).sum
      / ((present x).length - 1)) := by
  unfold variance
  simp only [addSquare_spec, zero_add]
  set n := (present x).length with hn
  have hov : ¬ ((n : ℤ) * ((n : ℤ) - 1) > 2147483647) := by
    have : (n : ℤ) ≤ 46341 := by omega
    have : (2 : ℤ) ≤ n := by omega
    nlinarith
  have hn2 : (2 : ℝ) ≤ n := by exact_mod_cast h2
  have n0 : (n : ℝ) ≠ 0 := by linarith
  have n1 : (n : ℝ) - 1 ≠ 0 := by linarith
  rw [if_neg hov]
  push_cast
  rw [fdiv_ok n1, Res.monad_bind_eq, Res.bind_ok, fdiv_ok (mul_ne_zero n0 n1), Res.monad_bind_eq, Res.bind_ok, sum_sq_dev, ← hn]
  congr 1
  field_simp
  ring

/-- **C151 (violation, variance).** With 46342 numbers or more that are not missing a product of the number overflows an `int`. -/
theorem trend_variance_violation {x : List ℝ} (h : 46342 ≤ (present x).length) : variance x = .ub "integer overflow" := by
  unfold variance
  simp only [addSquare_spec, zero_add]
  rw [if_pos]
  have : (46342 : ℤ) ≤ ((present x).length : ℤ) := by omega
  nlinarith

/-- **C151 (violation, variance).** With one number that is not missing, or none, 0 is divided by 0. -/
theorem trend_variance_few {x : List ℝ} (h : (present x).length ≤ 1) : variance x = .nonfinite "division by zero" := by
  unfold variance
  simp only [addSquare_spec, zero_add]
  have : (present x).length = 0 ∨ (present x).length = 1 := by omega
  rcases this with h | h <;> rw [h] <;> norm_num [fdiv]

/-- Vectors that meet the hypotheses. -/
theorem trend_variance_example : variance [1, missing, 3] = .ok 2 ∧ variance (List.replicate 46342 0) = .ub "integer overflow" ∧
    variance [1] = .nonfinite "division by zero" := by
  have h : ∀ v : ℝ, 0 ≤ v → v ≠ missing := fun v hv hc => by rw [hc] at hv; norm_num [missing] at hv
  have e : present [1, missing, 3] = [1, 3] := by
    rw [present_cons_of_ne (h 1 (by norm_num)), present_cons_missing, present_cons_of_ne (h 3 (by norm_num))]
    rfl
  refine ⟨?_, ?_, ?_⟩
  · rw [trend_variance (by rw [e]; simp) (by rw [e]; simp), e]
    norm_num
  · refine trend_variance_violation ?_
    unfold present
    rw [List.filter_eq_self.2 (by
      intro a ha
      rw [List.eq_of_mem_replicate ha]
      exact decide_eq_true (h 0 (le_refl _))), List.length_replicate]
  · refine trend_variance_few ?_
    rw [present_cons_of_ne (h 1 (by norm_num))]
    simp [present]

namespace TrendKit

/-- The weights and sums in the bins are given by two functions. -/
def Acc (n : ℕ) (s : List ℝ × List ℝ) (F G : ℕ → ℝ) : Prop :=
  s.1.length = n ∧ s.2.length = n ∧ ∀ k, k < n → s.1[k]? = some (F k) ∧ s.2[k]? = some (G k)

theorem addTo_spec {a : List ℝ} {n : ℕ} {F : ℕ → ℝ} (hl : a.length = n) (h : ∀ k, k < n → a[k]? = some (F k)) {j : ℕ} (hj : j < n) (v : ℝ) :
    ∃ a', addTo a j v = .ok a' ∧ a'.length = n ∧ ∀ k, k < n → a'[k]? = some (F k + if k = j then v else 0) := by
  unfold addTo
  rw [rd_eq_ok.2 (h j hj), Res.monad_bind_eq, Res.bind_ok, wr_ok (by omega)]
  refine ⟨_, rfl, by rw [List.length_set, hl], fun k hk => ?_⟩
  by_cases e : k = j
  · subst e
    rw [List.getElem?_set_self (by omega), if_pos rfl]
  · rw [List.getElem?_set_ne (by omega), if_neg e, add_zero, h k hk]

theorem addBin_spec {n : ℕ} {s : List ℝ × List ℝ} {F G : ℕ → ℝ} (h : Acc n s F G) {j : ℕ} (hj : j < n) (w y : ℝ) :
    ∃ s', addBin j w y s = .ok s' ∧ Acc n s' (fun k => F k + if k = j then w else 0) (fun k => G k + if k = j then w * y else 0) := by
  obtain ⟨l1, l2, hs⟩ := h
  obtain ⟨a, e, h1, h2⟩ := addTo_spec l1 (fun k hk => (hs k hk).1) hj w
  obtain ⟨b, e', h3, h4⟩ := addTo_spec l2 (fun k hk => (hs k hk).2) hj (w * y)
  unfold addBin
  rw [e, Res.monad_bind_eq, Res.bind_ok, e']
  exact ⟨_, rfl, h1, h3, fun k hk => ⟨h2 k hk, h4 k hk⟩⟩

/-- The part of an observation at `x` in a bin with centre `c`, for bins with distance `h`. -/
noncomputable def share (x c h : ℝ) : ℝ := max (1 - |x - c| / h) 0

theorem hat_share (x c h : ℝ) : hat x c (1 / h) = share x c h := by
  unfold hat share
  rw [mul_one_div]

theorem share_far {x c h : ℝ} (hh : 0 < h) (hf : h ≤ |x - c|) : share x c h = 0 := by
  unfold share
  rw [max_eq_right]
  have : 1 ≤ |x - c| / h := by rw [le_div_iff₀ hh]; linarith
  linarith

theorem Acc.congr {n : ℕ} {s : List ℝ × List ℝ} {F G F' G' : ℕ → ℝ} (h : Acc n s F G) (hF : ∀ k, k < n → F k = F' k)
    (hG : ∀ k, k < n → G k = G' k) : Acc n s F' G' :=
  ⟨h.1, h.2.1, fun k hk => by rw [← hF k hk, ← hG k hk]; exact h.2.2 k hk⟩

/-- The places that are not a little inside an end of the grid. -/
def Clear (g : List ℝ) (x : ℝ) : Prop :=
  ∀ (hn : 0 < g.length), x ≤ g[0] ∨ (g[0] + 1e-5 ≤ x ∧ x ≤ g[g.length - 1] - 1e-5) ∨ g[g.length - 1] ≤ x

theorem binOne_spec {g : List ℝ} {a h : ℝ} (hg : IsGrid g a h) (hh : 0 < h) (hn : 2 ≤ g.length) (hn' : g.length ≤ 2 ^ 64)
    (hw : g[0] + 1e-5 ≤ g[g.length - 1]) {x : ℝ} (hc : Clear g x) (y : ℝ) {s : List ℝ × List ℝ} {F G : ℕ → ℝ} (hs : Acc g.length s F G) :
    ∃ s', binOne g g[0] g[g.length - 1] (1 / h) x y s = .ok s' ∧
      Acc g.length s' (fun k => F k + share x (a + k * h) h) (fun k => G k + share x (a + k * h) h * y) := by
  have g0 : g[0] = a := by rw [hg]; simp
  have gl : g[g.length - 1] = a + (g.length - 1 : ℕ) * h := hg _ _
  have dist : ∀ {i j : ℕ}, i < j → (i : ℝ) * h + h ≤ j * h := by
    intro i j hij
    have : (i : ℝ) + 1 ≤ j := by exact_mod_cast hij
    nlinarith
  unfold binOne
  by_cases hl : x < g[0] + 1e-5
  · have hx : x ≤ a := by
      rcases hc (by omega) with h' | h' | h'
      · rwa [g0] at h'
      · linarith [h'.1]
      · linarith
    rw [if_pos hl, rd_ok (show 0 < g.length by omega), Res.monad_bind_eq, Res.bind_ok, hat_share]
    obtain ⟨s', e, h'⟩ := addBin_spec hs (show 0 < g.length by omega) (share x g[0] h) y
    have val : ∀ k, (if k = 0 then share x g[0] h else 0) = share x (a + k * h) h := by
      intro k
      by_cases e : k = 0
      · rw [if_pos e, e, g0]; simp
      · rw [if_neg e, share_far hh]
        have := dist (Nat.pos_of_ne_zero e)
        rw [abs_sub_comm, abs_of_nonneg (by push_cast at this; linarith)]
        push_cast at this
        linarith
    refine ⟨s', e, h'.congr (fun k _ => by rw [val]) (fun k _ => ?_)⟩
    rw [← val]
    split_ifs <;> ring
  · rw [if_neg hl]
    by_cases hu : x > g[g.length - 1] - 1e-5
    · have hx : a + (g.length - 1 : ℕ) * h ≤ x := by
        rcases hc (by omega) with h' | h' | h'
        · linarith
        · linarith [h'.2]
        · rwa [gl] at h'
      rw [if_pos hu, rd_ok (show g.length - 1 < g.length by omega), Res.monad_bind_eq, Res.bind_ok, hat_share]
      obtain ⟨s', e, h'⟩ := addBin_spec hs (show g.length - 1 < g.length by omega) (share x g[g.length - 1] h) y
      have val : ∀ k, k < g.length → (if k = g.length - 1 then share x g[g.length - 1] h else 0) = share x (a + k * h) h := by
        intro k hk
        by_cases e : k = g.length - 1
        · rw [if_pos e, e, gl]
        · rw [if_neg e, share_far hh]
          have := dist (show k < g.length - 1 by omega)
          rw [abs_of_nonneg (by linarith)]
          linarith
      refine ⟨s', e, h'.congr (fun k hk => by rw [val k hk]) (fun k hk => ?_)⟩
      rw [← val k hk]
      split_ifs <;> ring
    · rw [if_neg hu]
      have h1 : a + 1e-5 ≤ x := by rw [← g0]; exact not_lt.1 hl
      have h2 : x ≤ a + (g.length - 1 : ℕ) * h - 1e-5 := by rw [← gl]; exact not_lt.1 hu
      obtain ⟨j, hj, j1, j2⟩ := exists_cell hg hh hn (x := x) (by linarith) (by linarith)
      have ej : g[j] = a + j * h := hg _ _
      rw [hg] at j1 j2
      have hf : floorSize ((x - g[0]) * (1 / h)) = .ok j := by rw [g0]; exact floorSize_ok hh (by omega) j1 j2
      push_cast at j2
      have wt : hat x g[j] (1 / h) = 1 - (x - (a + j * h)) / h := by
        rw [ej]; exact hat_ok hh j1 (by linarith)
      rw [hf, Res.monad_bind_eq, Res.bind_ok, rd_ok (show j < g.length by omega), Res.monad_bind_eq, Res.bind_ok, wt]
      obtain ⟨s1, e1, a1⟩ := addBin_spec hs (show j < g.length by omega) (1 - (x - (a + j * h)) / h) y
      obtain ⟨s2, e2, a2⟩ := addBin_spec a1 hj (1 - (1 - (x - (a + j * h)) / h)) y
      rw [e1, Res.monad_bind_eq, Res.bind_ok, e2]
      have val : ∀ k, (if k = j then 1 - (x - (a + j * h)) / h else 0) + (if k = j + 1 then 1 - (1 - (x - (a + j * h)) / h) else 0) =
          share x (a + k * h) h := by
        intro k
        by_cases c1 : k = j
        · rw [if_pos c1, if_neg (by omega), c1, add_zero, ← wt, ej, hat_share]
        · rw [if_neg c1, zero_add]
          by_cases c2 : k = j + 1
          · rw [if_pos c2, c2]
            unfold share
            push_cast
            rw [abs_sub_comm, abs_of_nonneg (by linarith), max_eq_left]
            · field_simp; ring
            · have : (a + (j + 1) * h - x) / h ≤ 1 := by rw [div_le_one hh]; linarith
              linarith
          · rw [if_neg c2, share_far hh]
            rcases Nat.lt_or_gt_of_ne c1 with hlt | hgt
            · have := dist hlt
              rw [abs_of_nonneg (by linarith)]
              linarith
            · have := dist (show j + 1 < k by omega)
              push_cast at this
              rw [abs_sub_comm, abs_of_nonneg (by linarith)]
              linarith
      refine ⟨s2, rfl, a2.congr (fun k _ => by rw [← val]; ring) (fun k _ => ?_)⟩
      rw [← val]
      split_ifs <;> ring

theorem binAll_spec {g : List ℝ} {a h : ℝ} (hg : IsGrid g a h) (hh : 0 < h) (hn : 2 ≤ g.length) (hn' : g.length ≤ 2 ^ 64)
    (hw : g[0] + 1e-5 ≤ g[g.length - 1]) : ∀ (ps : List (ℝ × ℝ)) {s : List ℝ × List ℝ} {F G : ℕ → ℝ}, (∀ p ∈ ps, Clear g p.1) →
    Acc g.length s F G → ∃ s', binAll g g[0] g[g.length - 1] (1 / h) ps s = .ok s' ∧
      Acc g.length s' (fun k => F k + (ps.map fun p => share p.1 (a + k * h) h).sum)
        (fun k => G k + (ps.map fun p => share p.1 (a + k * h) h * p.2).sum)
  | [], s, F, G, _, hs => ⟨s, rfl, hs.congr (fun k _ => by simp) fun k _ => by simp⟩
  | p :: ps, s, F, G, hc, hs => by
    obtain ⟨s1, e1, a1⟩ := binOne_spec hg hh hn hn' hw (hc p List.mem_cons_self) p.2 hs
    obtain ⟨s2, e2, a2⟩ := binAll_spec hg hh hn hn' hw ps (fun q hq => hc q (List.mem_cons_of_mem _ hq)) a1
    unfold binAll
    rw [e1, Res.monad_bind_eq, Res.bind_ok, e2]
    refine ⟨s2, rfl, a2.congr (fun k _ => ?_) fun k _ => ?_⟩ <;> simp only [List.map_cons, List.sum_cons] <;> ring

end TrendKit

/-- **C151 (bins).** On a regular grid, if no observation is inside an end of the grid by less than `1e-5`: the weight of a bin is the
sum of the parts of the observations in it, where the part falls linearly from 1 at its centre to 0 at the next centres; the number of
the bin is the mean of the observations with these parts, or missing if the weight is 0. -/
theorem trend_bins {g : List ℝ} {a h : ℝ} (hg : IsGrid g a h) (hh : 0 < h) (hn : 2 ≤ g.length) (hn' : g.length ≤ 2 ^ 64)
    (hw : g[0] + 1e-5 ≤ g[g.length - 1]) {ps : List (ℝ × ℝ)} (hc : ∀ p ∈ ps, Clear g p.1) :
    ∃ m w, bin1D ps g = .ok (m, w) ∧ m.length = g.length ∧ w.length = g.length ∧ ∀ k (hk : k < g.length),
      w[k]? = some (ps.map fun p => share p.1 g[k] h).sum ∧
      ((ps.map fun p => share p.1 g[k] h).sum = 0 → m[k]? = some missing) ∧
      ((ps.map fun p => share p.1 g[k] h).sum ≠ 0 →
        m[k]? = some ((ps.map fun p => share p.1 g[k] h * p.2).sum / (ps.map fun p => share p.1 g[k] h).sum)) := by
  have e1 : g[1] - g[0] = h := by rw [hg, hg]; simp
  unfold bin1D
  rw [rd_ok (show 0 < g.length by omega), Res.monad_bind_eq, Res.bind_ok, rd_ok (show g.length - 1 < g.length by omega),
    Res.monad_bind_eq, Res.bind_ok, rd_ok (show 1 < g.length by omega), Res.monad_bind_eq, Res.bind_ok, e1,
    fdiv_ok hh.ne', Res.monad_bind_eq, Res.bind_ok]
  obtain ⟨s, e, hl, hl', hs⟩ := binAll_spec hg hh hn hn' hw ps (s := (List.replicate g.length 0, List.replicate g.length 0))
    (F := fun _ => 0) (G := fun _ => 0) hc ⟨List.length_replicate, List.length_replicate, fun k hk => by
      simp [List.getElem?_replicate, hk]⟩
  rw [e, Res.monad_bind_eq, Res.bind_ok]
  refine ⟨_, _, rfl, by rw [List.length_zipWith, hl, hl', min_self], hl, fun k hk => ?_⟩
  obtain ⟨h1, h2⟩ := hs k hk
  simp only [zero_add, ← hg k hk] at h1 h2
  refine ⟨h1, fun h0 => ?_, fun h0 => ?_⟩ <;>
    rw [List.getElem?_zipWith, h1, h2] <;> simp only [meanOf]
  · rw [if_neg (not_not.2 h0)]
  · rw [if_pos h0]

/-- Two observations between two bins. -/
theorem trend_bins_example : ∃ m w, bin1D [(1 / 4, 4), (1 / 2, 10)] [0, 1] = .ok (m, w) ∧ w[0]? = some (5 / 4) ∧ m[0]? = some (32 / 5) := by
  have hg : IsGrid [(0 : ℝ), 1] 0 1 := by
    intro k hk
    simp only [List.length_cons, List.length_nil] at hk
    have : k = 0 ∨ k = 1 := by omega
    rcases this with rfl | rfl <;> simp
  obtain ⟨m, w, e, -, -, h⟩ := trend_bins hg one_pos (by simp) (by norm_num) (by norm_num) (ps := [(1 / 4, 4), (1 / 2, 10)]) (by
    intro p hp _
    simp only [List.mem_cons, List.not_mem_nil, or_false] at hp
    rcases hp with rfl | rfl <;> exact .inr (.inl (by norm_num)))
  obtain ⟨h1, -, h3⟩ := h 0 (by simp)
  have s1 : share (1 / 4) 0 1 = 3 / 4 := by unfold share; rw [abs_of_nonneg (by norm_num), max_eq_left (by norm_num)]; norm_num
  have s2 : share (1 / 2) 0 1 = 1 / 2 := by unfold share; rw [abs_of_nonneg (by norm_num), max_eq_left (by norm_num)]; norm_num
  have hsum : ([((1 / 4 : ℝ), (4 : ℝ)), (1 / 2, 10)].map fun p => share p.1 0 1).sum = 5 / 4 := by simp [s1, s2] ; norm_num [s1, s2]
  have hsum' : ([((1 / 4 : ℝ), (4 : ℝ)), (1 / 2, 10)].map fun p => share p.1 0 1 * p.2).sum = 8 := by simp; norm_num [s1, s2]
  simp only [List.getElem_cons_zero, hsum, hsum'] at h1 h3
  refine ⟨m, w, e, h1, ?_⟩
  rw [h3 (by norm_num)]
  norm_num

/-- **C151 (violation, bins).** The part of an observation just inside the end that belongs to the next bin is lost: the weights of the
bins for one observation in the grid have a sum below 1. -/
theorem trend_bins_violation : bin1D [(1e-6, 4)] [0, 1] = .ok ([4, missing], [1 - 1e-6, 0]) := by
  have e : hat 1e-6 0 (1 / (1 - 0)) = 1 - 1e-6 := by
    unfold hat
    rw [abs_of_nonneg (by norm_num), max_eq_left (by norm_num)]
    norm_num
  have e1 : (1e-6 : ℝ) < 0 + 1e-5 := by norm_num
  have e2 : binOne [0, 1] 0 1 (1 / (1 - 0)) 1e-6 4 ([0, 0], [0, 0]) = .ok ([0 + (1 - 1e-6), 0], [0 + (1 - 1e-6) * 4, 0]) := by
    unfold binOne
    rw [if_pos e1, rd_ok (show 0 < [(0 : ℝ), 1].length by simp), Res.monad_bind_eq, Res.bind_ok, List.getElem_cons_zero, e]
    rfl
  have e3 : fdiv 1 (1 - 0) = .ok (1 / (1 - 0)) := fdiv_ok (by norm_num)
  show (fdiv 1 (1 - 0)).bind _ = _
  rw [e3, Res.bind_ok]
  show ((binOne [0, 1] 0 1 (1 / (1 - 0)) 1e-6 4 ([0, 0], [0, 0])).bind fun s' => Res.ok s').bind _ = _
  rw [e2, Res.bind_ok]
  show Res.ok ([meanOf (0 + (1 - 1e-6)) (0 + (1 - 1e-6) * 4), meanOf 0 0], [0 + (1 - 1e-6), 0]) = _
  unfold meanOf
  rw [if_pos (by norm_num), if_neg (by simp)]
  norm_num

end Verif
