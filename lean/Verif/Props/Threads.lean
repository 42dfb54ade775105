import Verif.Lemmas.Threads
import Verif.Lemmas.KnownLung
import Mathlib.Tactic.IntervalCases

/-!
# Concurrent calls

C44: what calls from several threads draw from the generator.
-/

namespace Verif.Threads

open Dsfmt Spec.Mt

variable {σ : Type} {X L : ℕ → W128}

/-- One call alone gets the next words of the generator. -/
theorem call_alone (hX : DsfmtSeq X L) (b : Build) (c : ℕ → Client σ) (t n : ℕ) {ts : ℕ → Thread σ}
    {s : ℕ → σ} (hr : Rest ts s) {p : ℕ} {d : Dsfmt} (h : Pos X L p d) :
    (run b c (List.replicate (4 * n) t) ts d).Sat fun r =>
      Rest r.1 (Function.update s t (fed (c t) (s t) (section_ X p n))) ∧
      Pos X L (p + taken (c t) (s t) (section_ X p n)) r.2 := by
  induction n generalizing ts s p d with
  | zero =>
    show (Res.ok (ts, d)).Sat _
    rw [Res.sat_ok]
    simp only [section_, List.range_zero, List.map_nil, fed, taken, Function.update_eq_self]
    exact ⟨hr, h⟩
  | succ n ih =>
    cases hd : (c t).done (s t)
    · rw [show 4 * (n + 1) = 4 + 4 * n by ring, List.replicate_add, run_append]
      refine (draw_alone hX b c hr h t hd).bind fun r hr1 => ?_
      refine (ih hr1.1 hr1.2).mono fun r' hr2 => ?_
      simp only [Function.update_self, Function.update_idem] at hr2
      simp only [section_succ, fed, taken, hd, Bool.false_eq_true, if_false]
      rwa [show p + (taken (c t) ((c t).next (s t) (word X p)) (section_ X (p + 1) n) + 1)
        = p + 1 + taken (c t) ((c t).next (s t) (word X p)) (section_ X (p + 1) n) by ring]
    · rw [idle b c hr d _ t hd, Res.sat_ok]
      simp only [fed_done hd, Function.update_eq_self]
      exact ⟨hr, h⟩

/-- **C44, calls that do not overlap.** If the first call is over before the second begins, the first
gets the next words of the generator and the second the words after those. -/
theorem calls_sequential (hX : DsfmtSeq X L) (b : Build) (c : ℕ → Client σ) {t u : ℕ} (htu : t ≠ u)
    (n m : ℕ) {ts : ℕ → Thread σ} {s : ℕ → σ} (hr : ∀ t, ts t = ⟨.check, s t⟩) {p : ℕ} {d : Dsfmt}
    (h : Pos X L p d) :
    (run b c (List.replicate (4 * n) t ++ List.replicate (4 * m) u) ts d).Sat fun r =>
      (r.1 t).st = fed (c t) (s t) (section_ X p n) ∧
      (r.1 u).st = fed (c u) (s u)
        (section_ X (p + taken (c t) (s t) (section_ X p n)) m) := by
  rw [run_append]
  refine (call_alone hX b c t n hr h).bind fun r hr1 => ?_
  refine (call_alone hX b c u m hr1.1 hr1.2).mono fun r' hr2 => ?_
  rw [hr2.1 t, hr2.1 u]
  simp only [Function.update_self, Function.update_of_ne htu, Function.update_of_ne htu.symm]
  exact ⟨trivial, trivial⟩

/-- **C44, refuted.** If two calls take turns, both get the same words: each gets the words it would
have got alone. So two calls with the same arguments give the same result, whatever they compute. -/
theorem calls_overlapping_refuted (hX : DsfmtSeq X L) (b : Build) (c : ℕ → Client σ) (n : ℕ)
    {ts : ℕ → Thread σ} {s : ℕ → σ} (hr : ∀ t, ts t = ⟨.check, s t⟩) {p : ℕ} {d : Dsfmt}
    (h : Pos X L p d) :
    (run b c (List.replicate n [0, 1, 0, 1, 0, 1, 0, 1]).flatten ts d).Sat fun r =>
      (r.1 0).st = fed (c 0) (s 0) (section_ X p n) ∧
      (r.1 1).st = fed (c 1) (s 1) (section_ X p n) := by
  have n01 : (0 : ℕ) ≠ 1 := by omega
  induction n generalizing ts s p d with
  | zero =>
    show (Res.ok (ts, d)).Sat _
    rw [Res.sat_ok]
    simp [section_, fed, hr]
  | succ n ih =>
    rw [List.replicate_succ, List.flatten_cons, run_append]
    cases hd0 : (c 0).done (s 0) <;> cases hd1 : (c 1).done (s 1)
    · refine (draw_lockstep hX b c hr h hd0 hd1).bind fun r hr1 => ?_
      refine (ih hr1.1 hr1.2).mono fun r' hr2 => ?_
      simp only [section_succ, fed, hd0, hd1, Bool.false_eq_true, if_false]
      simpa using hr2
    · have e : run b c [0, 1, 0, 1, 0, 1, 0, 1] ts d = run b c [0, 0, 0, 0] ts d := by
        rw [run_filter_idle b c hd1 _ (hr 1)]
        rfl
      rw [e]
      refine (draw_alone hX b c hr h 0 hd0).bind fun r hr1 => ?_
      refine (ih hr1.1 hr1.2).mono fun r' hr2 => ?_
      simp only [section_succ, fed, hd0, hd1, Bool.false_eq_true, if_false, if_true]
      simp only [Function.update_self, Function.update_of_ne n01.symm] at hr2
      rwa [(fed_done hd1 _).1] at hr2
    · have e : run b c [0, 1, 0, 1, 0, 1, 0, 1] ts d = run b c [1, 1, 1, 1] ts d := by
        rw [run_filter_idle b c hd0 _ (hr 0)]
        rfl
      rw [e]
      refine (draw_alone hX b c hr h 1 hd1).bind fun r hr1 => ?_
      refine (ih hr1.1 hr1.2).mono fun r' hr2 => ?_
      simp only [section_succ, fed, hd0, hd1, Bool.false_eq_true, if_false, if_true]
      simp only [Function.update_self, Function.update_of_ne n01] at hr2
      rwa [(fed_done hd0 _).1] at hr2
    · have e : run b c [0, 1, 0, 1, 0, 1, 0, 1] ts d = .ok (ts, d) := by
        iterate 4 rw [run_cons_idle b c (hr 0) hd0, run_cons_idle b c (hr 1) hd1]
        rfl
      rw [e, Res.bind_ok]
      refine (ih hr h).mono fun r' hr2 => ?_
      rwa [(fed_done hd0 _).1, (fed_done hd1 _).1] at hr2 ⊢

/-- A concrete case: after seeding with 0 two threads can both draw the same first number, which
happens in neither order of the two draws. -/
theorem calls_overlapping_witness (b : Build) :
    ∃ sched r, run b (fun _ => collect 1) sched (fun _ => ⟨.check, []⟩) ⟨seedState 0, 382⟩ = .ok r ∧
      (r.1 0).st = [4607320143500780570#64] ∧ (r.1 1).st = [4607320143500780570#64] ∧
      ∀ n m r', (run b (fun _ => collect 1) (List.replicate (4 * n) 0 ++ List.replicate (4 * m) 1)
          (fun _ => ⟨.check, []⟩) ⟨seedState 0, 382⟩ = .ok r' ∨
        run b (fun _ => collect 1) (List.replicate (4 * n) 1 ++ List.replicate (4 * m) 0)
          (fun _ => ⟨.check, []⟩) ⟨seedState 0, 382⟩ = .ok r') →
        ¬((r'.1 0).st = (r.1 0).st ∧ (r'.1 1).st = (r.1 1).st) := by
  obtain ⟨X, L, hX, hw, hp, h12⟩ := Dsfmt.admissible_pos (Dsfmt.seed_admissible 0)
  have hp : Pos X L 382 ⟨seedState 0, 382⟩ := hp
  have ht := (Known.seedOuts_tracks 0 hX hw).take 4
  rw [Known.seedOuts_0] at ht
  have w0 : word X 382 = 4607320143500780570#64 := ht.1.symm
  have w1 : word X 383 = 4608142317466048832#64 := ht.2.1.symm
  obtain ⟨r, e, h0, h1⟩ := calls_overlapping_refuted hX b (fun _ => collect 1) 1
    (ts := fun _ => ⟨.check, []⟩) (s := fun _ => []) (fun _ => rfl) hp
  have e1 : fed (collect 1) [] (section_ X 382 1) = [word X 382] := by
    simp [section_, fed, collect]
  rw [e1, w0] at h0 h1
  refine ⟨_, r, e, h0, h1, ?_⟩
  have key : ∀ n m, fed (collect 1) [] (section_ X 382 n) = [word X 382] →
      fed (collect 1) [] (section_ X (382 + taken (collect 1) [] (section_ X 382 n)) m)
        = [word X 382] → False := by
    intro n m h2 h3
    cases n with
    | zero => simp [section_, fed] at h2
    | succ n =>
      have e2 : taken (collect 1) [] (section_ X 382 (n + 1)) = 1 := by
        have hd : (collect 1).done [word X 382] = true := by simp [collect]
        rw [section_succ, taken, if_neg (by simp [collect])]
        show taken (collect 1) [word X 382] _ + 1 = 1
        rw [(fed_done hd _).2]
      rw [e2] at h3
      cases m with
      | zero => simp [section_, fed] at h3
      | succ m =>
        have hd : (collect 1).done [word X 383] = true := by simp [collect]
        rw [section_succ, fed, if_neg (by simp [collect])] at h3
        have h3 : fed (collect 1) [word X 383] _ = [word X 382] := h3
        rw [(fed_done hd _).1, w0, w1] at h3
        exact absurd h3 (by decide)
  rintro n m r' (h2 | h2) ⟨h3, h4⟩
  · obtain ⟨r'', e', h5, h6⟩ := calls_sequential hX b (fun _ => collect 1) (t := 0) (u := 1)
      (by omega) n m (ts := fun _ => ⟨.check, []⟩) (s := fun _ => []) (fun _ => rfl) hp
    obtain rfl : r' = r'' := by rw [h2] at e'; exact Res.ok.inj e'
    rw [h0, h5, ← w0] at h3
    rw [h1, h6, ← w0] at h4
    exact key n m h3 h4
  · obtain ⟨r'', e', h5, h6⟩ := calls_sequential hX b (fun _ => collect 1) (t := 1) (u := 0)
      (by omega) n m (ts := fun _ => ⟨.check, []⟩) (s := fun _ => []) (fun _ => rfl) hp
    obtain rfl : r' = r'' := by rw [h2] at e'; exact Res.ok.inj e'
    rw [h1, h5, ← w0] at h4
    rw [h0, h6, ← w0] at h3
    exact key n m h4 h3

/-- **C44, refuted further.** Just before the array is used up, two threads can both see that there is
one number left; the second then gets the lung word, which is not one of the generator's numbers. -/
theorem calls_draw_lung (b : Build) (c : ℕ → Client σ) {ts : ℕ → Thread σ} {s : ℕ → σ}
    (hr : ∀ t, ts t = ⟨.check, s t⟩) (h0 : (c 0).done (s 0) = false) (h1 : (c 1).done (s 1) = false)
    {d : Dsfmt} (hl : d.status.length = 192) (hi : d.idx = 381) {lung : W128}
    (hlung : d.status[191]? = some lung) :
    (run b c [0, 1, 0, 0, 0, 1, 1, 1] ts d).Sat fun r => (r.1 1).st = (c 1).next (s 1) lung.u0 := by
  have n01 : (0 : ℕ) ≠ 1 := by omega
  have n10 : (1 : ℕ) ≠ 0 := by omega
  have hi' : d.idx < 382 := by omega
  obtain ⟨w, hw⟩ : ∃ w, rd64 d.status 381 = .ok w := by
    unfold rd64
    rw [rd_ok (by omega)]
    exact ⟨_, rfl⟩
  have hw2 : rd64 d.status 382 = .ok lung.u0 := by
    unfold rd64
    rw [show 382 / 2 = 191 by norm_num, rd_eq_ok.2 hlung]
    rfl
  simp only [run, hr 0, hr 1, Res.bind_ok, upd_self, Function.update_of_ne n10,
    Function.update_of_ne n01, check_inside b h0 hi', check_inside b h1 hi']
  simp only [step, Res.bind_ok, upd_self, Function.update_of_ne n10, Function.update_of_ne n01, hi,
    hw, hw2, Res.sat_ok]

/-- With four threads the read can be past the state. -/
theorem calls_past_state (b : Build) (c : ℕ → Client σ) {ts : ℕ → Thread σ} {s : ℕ → σ}
    (hr : ∀ t, ts t = ⟨.check, s t⟩) (hd : ∀ t, t < 4 → (c t).done (s t) = false)
    {d : Dsfmt} (hl : d.status.length = 192) (hi : d.idx = 381) :
    ∃ m, run b c [0, 1, 2, 3, 0, 0, 1, 1, 2, 2, 3, 3, 3] ts d = .ub m := by
  have hi' : d.idx < 382 := by omega
  have hw2 : rd64 d.status 384 = .ub "read out of range" := by
    unfold rd64 rd
    rw [List.getElem?_eq_none (by omega)]
    rfl
  refine ⟨"read out of range", ?_⟩
  have n (i j : ℕ) (h : i ≠ j) : ∀ (f : ℕ → Thread σ) (x : Thread σ), Function.update f j x i = f i :=
    fun f x => Function.update_of_ne h _ _
  simp only [run, hr, Res.bind_ok, upd_self, n 1 0 (by omega), n 2 0 (by omega), n 3 0 (by omega),
    n 0 1 (by omega), n 2 1 (by omega), n 3 1 (by omega), n 0 2 (by omega), n 1 2 (by omega),
    n 3 2 (by omega), n 0 3 (by omega), n 1 3 (by omega), n 2 3 (by omega),
    check_inside b (hd 0 (by omega)) hi', check_inside b (hd 1 (by omega)) hi',
    check_inside b (hd 2 (by omega)) hi', check_inside b (hd 3 (by omega)) hi']
  simp only [step, Res.bind_ok, upd_self, n 1 0 (by omega), n 2 0 (by omega), n 3 0 (by omega),
    n 0 1 (by omega), n 2 1 (by omega), n 3 1 (by omega), n 0 2 (by omega), n 1 2 (by omega),
    n 3 2 (by omega), n 0 3 (by omega), n 1 3 (by omega), n 2 3 (by omega), hi, hw2, Res.bind_ub]

/-- Both situations occur. After seeding with 5 and 381 draws of one thread, a second thread can draw a
number whose value as a uniform number is above 10^200. -/
theorem calls_draw_lung_witness (b : Build) :
    ∃ sched r w x, run b (fun t => if t = 0 then endless else collect 1) sched
        (fun _ => ⟨.check, []⟩) ⟨seedState 5, 382⟩ = .ok r ∧
      (r.1 1).st = [w] ∧ f64Val w = .ok x ∧ (10 : ℝ) ^ 200 < x := by
  obtain ⟨X, L, hX, hw, hp, h12⟩ := Dsfmt.admissible_pos (Dsfmt.seed_admissible 5)
  have hp : Pos X L 382 ⟨seedState 5, 382⟩ := hp
  have hL : (L 191).u0 = 0x6c340c6c157372e7#64 := by
    have := Known.seedLung_5
    rw [Known.seedLung_eq 5 hX hw] at this
    simpa using this
  let c : ℕ → Client (List (BitVec 64)) := fun t => if t = 0 then endless else collect 1
  have hc0 : c 0 = endless := rfl
  have hc1 : c 1 = collect 1 := rfl
  obtain ⟨d1, e1, hw1, -⟩ := genRandAll_win hX b hw
  have l1 : d1.status.length = 192 := hw1.len
  obtain ⟨w, hw'⟩ : ∃ w, rd64 d1.status 0 = .ok w := by
    unfold rd64
    rw [rd_ok (by omega)]
    exact ⟨_, rfl⟩
  have e2 : run b c [0, 0, 0, 0] (fun _ => ⟨.check, []⟩) ⟨seedState 5, 382⟩
      = .ok (Function.update (fun _ => ⟨.check, []⟩) 0 ⟨.check, [w]⟩, { d1 with idx := 1 }) := by
    have e0 : step b endless ⟨.check, []⟩ ⟨seedState 5, 382⟩
        = .ok (⟨.load, []⟩, { d1 with idx := 0 }) := by
      simp only [step, endless, Bool.false_eq_true, if_false]
      rw [if_pos (show n64 ≤ 382 from le_refl _), e1]
      rfl
    simp only [run, hc0, e0, Res.bind_ok, upd_self]
    simp only [step, Res.bind_ok, hw', Function.update_idem, endless]
    simp
  obtain ⟨ts', y, e3, h3⟩ := draws_inside b c 0 (fun _ => rfl) 380
    (ts := Function.update (fun _ => ⟨.check, []⟩) 0 ⟨.check, [w]⟩)
    (s := Function.update (fun _ => []) 0 [w]) (d := { d1 with idx := 1 })
    (fun u => by
      by_cases hu : u = 0
      · subst hu; simp
      · simp [Function.update_of_ne hu]) l1 (by simp)
  obtain ⟨r, e4, h4⟩ := calls_draw_lung b c h3 rfl (by
      rw [hc1]
      simp [Function.update, collect]) (d := { d1 with idx := 1 + 380 }) l1 rfl
    (lung := L 191) hw1.lung
  refine ⟨[0, 0, 0, 0] ++ (List.replicate (4 * 380) 0 ++ [0, 1, 0, 0, 0, 1, 1, 1]), r,
    0x6c340c6c157372e7#64, 2 ^ ((1731 : ℤ) - 1023) * (1 + 0x40c6c157372e7 / 2 ^ 52), ?_, ?_, ?_, ?_⟩
  · rw [run_append, e2, Res.bind_ok, run_append, e3, Res.bind_ok]
    exact e4
  · rw [h4, hL, hc1]
    simp [Function.update, collect]
  · have h1 : ((0x6c340c6c157372e7#64).extractLsb' 52 11).toNat = 1731 := by decide
    have h2 : ((0x6c340c6c157372e7#64).extractLsb' 0 52).toNat = 0x40c6c157372e7 := by decide
    have h3 : (0x6c340c6c157372e7#64).getLsbD 63 = false := by decide
    unfold f64Val
    simp only [h1, h2, h3]
    norm_num
  · have a : (10 : ℝ) ^ 200 ≤ (10 ^ 3) ^ 67 := by
      rw [← pow_mul]
      exact pow_le_pow_right₀ (by norm_num) (by norm_num)
    have a2 : ((10 : ℝ) ^ 3) ^ 67 ≤ (2 ^ 10) ^ 67 := pow_le_pow_left₀ (by norm_num) (by norm_num) _
    have a3 : ((2 : ℝ) ^ 10) ^ 67 ≤ 2 ^ ((1731 : ℤ) - 1023) := by
      rw [← pow_mul, show ((1731 : ℤ) - 1023) = ((708 : ℕ) : ℤ) by norm_num, zpow_natCast]
      exact pow_le_pow_right₀ (by norm_num) (by norm_num)
    have a4 : (0 : ℝ) < 2 ^ ((1731 : ℤ) - 1023) := by positivity
    have a5 : (1 : ℝ) < 1 + 0x40c6c157372e7 / 2 ^ 52 := by norm_num
    calc (10 : ℝ) ^ 200 ≤ 2 ^ ((1731 : ℤ) - 1023) := a.trans (a2.trans a3)
      _ < _ := lt_mul_of_one_lt_right a4 a5

/-- **C44, separate generators.** Threads that have a generator each do not interfere: in every
schedule each gets exactly what it gets if it takes its turns alone. -/
theorem calls_own_generators (b : Build) (c : ℕ → Client σ) (sched : List ℕ)
    (s s' : ℕ → Thread σ × Dsfmt) :
    runOwn b c sched s = .ok s' ↔ ∀ t, alone b (c t) (sched.count t) (s t) = .ok (s' t) := by
  induction sched generalizing s with
  | nil =>
    simp only [runOwn, List.count_nil, alone, Res.ok.injEq]
    exact funext_iff
  | cons u sched ih =>
    rw [runOwn, Res.bind_eq_ok]
    constructor
    · rintro ⟨r, e, h⟩ t
      have := (ih _).1 h t
      by_cases hu : u = t
      · subst hu
        rw [Function.update_self] at this
        rw [List.count_cons_self, alone, e, Res.bind_ok, this]
      · rw [Function.update_of_ne (Ne.symm hu)] at this
        rw [List.count_cons_of_ne hu, this]
    · intro h
      have hu := h u
      rw [List.count_cons_self, alone, Res.bind_eq_ok] at hu
      obtain ⟨r, e, hr⟩ := hu
      refine ⟨r, e, (ih _).2 fun t => ?_⟩
      by_cases ht : t = u
      · subst ht; rw [Function.update_self, hr]
      · rw [Function.update_of_ne ht, ← h t, List.count_cons_of_ne (Ne.symm ht)]

/-- Three threads with generators of their own finish one draw each in any schedule that gives each of
them four turns. -/
example (b : Build) (d : ℕ → Dsfmt) (hd : ∀ t, Admissible (d t)) (sched : List ℕ)
    (hs : ∀ t, t < 3 → sched.count t = 4) (hn : ∀ t, 3 ≤ t → sched.count t = 0) :
    ∃ s', runOwn b (fun _ => collect 1) sched (fun t => (⟨.check, []⟩, d t)) = .ok s' := by
  have : ∀ t, ∃ x, alone b (collect 1) (sched.count t) (⟨.check, []⟩, d t) = .ok x := by
    intro t
    by_cases ht : t < 3
    · obtain ⟨X, L, hX, hw, hp, h12⟩ := Dsfmt.admissible_pos (hd t)
      obtain ⟨d', e, h', hi⟩ := check_pos hX b (c := collect 1) (s := []) (by simp [collect]) hp
      obtain ⟨e2, h2⟩ := pos_bump h' hi
      rw [hs t ht]
      simp only [alone, e, Res.bind_ok]
      simp only [step, Res.bind_ok, e2]
      exact ⟨_, rfl⟩
    · rw [hn t (by omega)]
      exact ⟨_, rfl⟩
  choose x hx using this
  exact ⟨x, (calls_own_generators b _ sched _ x).2 hx⟩

end Verif.Threads
