import Verif.Lemmas.ThreadsSim
import Verif.Props.Threads
import Verif.Props.ApiRun

/-!
# Concurrent simulations

C44 for calls of `simulate` and `advanced.simulate`. Threads take turns as in Model/Threads. A call is
followed while there is a seed; it takes words of the generator until it can return.
-/

namespace Verif.Threads

open Dsfmt Spec.Mt

theorem section_add (X : ℕ → W128) (p n m : ℕ) :
    section_ X p (n + m) = section_ X p n ++ section_ X (p + n) m := by
  unfold section_
  rw [List.range_add, List.map_append, List.map_map]
  congr 1
  apply List.map_congr_left
  intro i _
  simp only [Function.comp]
  congr 1
  omega

/-- A call that keeps its words and can return once it has `k` of them takes `k` words. -/
theorem fed_count (c : Client (List (BitVec 64))) (hc : ∀ l w, c.next l w = l ++ [w])
    (X : ℕ → W128) {p k : ℕ} (hk : ∀ n, c.done (section_ X p n) = decide (k ≤ n)) (n : ℕ) (hn : k ≤ n) :
    fed c [] (section_ X p n) = section_ X p k ∧ taken c [] (section_ X p n) = k := by
  have key : ∀ m j, j + m = n → j ≤ k →
      fed c (section_ X p j) (section_ X (p + j) m) = section_ X p k ∧
      taken c (section_ X p j) (section_ X (p + j) m) = k - j := by
    intro m
    induction m with
    | zero =>
      intro j hj hjk
      obtain rfl : j = k := by omega
      simp [section_, fed, taken]
    | succ m ih =>
      intro j hj hjk
      rw [section_succ]
      rcases Nat.lt_or_ge j k with h | h
      · have hd : c.done (section_ X p j) = false := by rw [hk]; simp; omega
        have hs : section_ X p j ++ [word X (p + j)] = section_ X p (j + 1) := by
          rw [section_add X p j 1]
          simp [section_]
        obtain ⟨h1, h2⟩ := ih (j + 1) (by omega) h
        simp only [fed, taken, hd, Bool.false_eq_true, if_false, hc, hs]
        rw [show p + j + 1 = p + (j + 1) by omega, h1, h2]
        exact ⟨rfl, by omega⟩
      · have hd : c.done (section_ X p j) = true := by rw [hk]; simp; omega
        obtain rfl : j = k := by omega
        simp [fed, taken, hd]
  have := key n 0 (by omega) (Nat.zero_le k)
  simpa [section_] using this

/-- What a call that returns does when offered words of the generator. -/
theorem client_fed {X L : ℕ → W128} (hX : DsfmtSeq X L) (a : SimArgs) (S : Setup) (e : Env)
    {s s' : Random} (hs : s.isInitialized = true) {p : ℕ} (hp : Pos X L p s.dsfmt) {out : List ℝ}
    (h : a.call S e s = .ok (out, s')) :
    ∃ k, Pos X L (p + k) s'.dsfmt ∧ s'.isInitialized = true ∧ ∀ n, k ≤ n →
      a.Returns S e (fed (a.client S e) [] (section_ X p n)) out ∧
      taken (a.client S e) [] (section_ X p n) = k := by
  obtain ⟨k, h1, h2, h3, h4⟩ := advancedSimulate_words hX a S e hs hp h
  have hk : ∀ n, (a.client S e).done (section_ X p n) = decide (k ≤ n) := by
    intro n
    rcases Nat.lt_or_ge n k with hn | hn
    · have : ¬ ∃ out, a.Returns S e (section_ X p n) out := by
        rintro ⟨o, r, hr⟩
        exact h4 n hn _ hr
      simp [SimArgs.client, this, hn]
    · have : ∃ out, a.Returns S e (section_ X p n) out := ⟨_, _, h3 n hn⟩
      simp [SimArgs.client, this, hn]
  refine ⟨k, h1, by rw [h2]; exact hs, fun n hn => ?_⟩
  obtain ⟨f1, f2⟩ := fed_count (a.client S e) (fun _ _ => rfl) X hk n hn
  exact ⟨by rw [f1]; exact ⟨_, h3 k le_rfl⟩, f2⟩

/-- Two simulations that do not overlap: the first returns what it returns in the state at the start,
the second what it returns in the state the first leaves. -/
theorem simulate_sequential (S : Setup) (a : ℕ → SimArgs) (e : ℕ → Env) {s s0 s1 : Random}
    (hs : s.isInitialized = true) (had : Admissible s.dsfmt) {out0 out1 : List ℝ}
    (h0 : (a 0).call S (e 0) s = .ok (out0, s0)) (h1 : (a 1).call S (e 1) s0 = .ok (out1, s1)) :
    ∃ N, ∀ n m, N ≤ n → N ≤ m →
      (run S.b (fun t => (a t).client S (e t)) (List.replicate (4 * n) 0 ++ List.replicate (4 * m) 1)
        (fun _ => ⟨.check, []⟩) s.dsfmt).Sat fun r =>
        (a 0).Returns S (e 0) (r.1 0).st out0 ∧ (a 1).Returns S (e 1) (r.1 1).st out1 := by
  obtain ⟨X, L, hX, -, hp, -⟩ := Dsfmt.admissible_pos had
  obtain ⟨k0, p0, i0, f0⟩ := client_fed hX (a 0) S (e 0) hs hp h0
  obtain ⟨k1, p1, i1, f1⟩ := client_fed hX (a 1) S (e 1) i0 p0 h1
  refine ⟨max k0 k1, fun n m hn hm => ?_⟩
  refine (calls_sequential hX S.b (fun t => (a t).client S (e t)) (t := 0) (u := 1) (by omega) n m
    (ts := fun _ => ⟨.check, []⟩) (s := fun _ => []) (fun _ => rfl) hp).mono fun r hr => ?_
  obtain ⟨g1, g2⟩ := f0 n ((le_max_left _ _).trans hn)
  rw [hr.1, hr.2, g2]
  exact ⟨g1, (f1 m ((le_max_right _ _).trans hm)).1⟩

/-- **C44, refuted for simulations.** Two simulations that overlap can both return what they would
return in the state at the start, as if the other had not been called. -/
theorem simulate_overlapping_refuted (S : Setup) (a : ℕ → SimArgs) (e : ℕ → Env) {s s0 s1 : Random}
    (hs : s.isInitialized = true) (had : Admissible s.dsfmt) {out0 out1 : List ℝ}
    (h0 : (a 0).call S (e 0) s = .ok (out0, s0)) (h1 : (a 1).call S (e 1) s = .ok (out1, s1)) :
    ∃ N, ∀ n, N ≤ n →
      (run S.b (fun t => (a t).client S (e t)) (List.replicate n [0, 1, 0, 1, 0, 1, 0, 1]).flatten
        (fun _ => ⟨.check, []⟩) s.dsfmt).Sat fun r =>
        (a 0).Returns S (e 0) (r.1 0).st out0 ∧ (a 1).Returns S (e 1) (r.1 1).st out1 := by
  obtain ⟨X, L, hX, -, hp, -⟩ := Dsfmt.admissible_pos had
  obtain ⟨k0, p0, i0, f0⟩ := client_fed hX (a 0) S (e 0) hs hp h0
  obtain ⟨k1, p1, i1, f1⟩ := client_fed hX (a 1) S (e 1) hs hp h1
  refine ⟨max k0 k1, fun n hn => ?_⟩
  refine (calls_overlapping_refuted hX S.b (fun t => (a t).client S (e t)) n
    (ts := fun _ => ⟨.check, []⟩) (s := fun _ => []) (fun _ => rfl) hp).mono fun r hr => ?_
  rw [hr.1, hr.2]
  exact ⟨(f0 n ((le_max_left _ _).trans hn)).1, (f1 n ((le_max_right _ _).trans hn)).1⟩

/-- Two simulations with the same arguments can return the same field. -/
theorem simulate_overlapping_same (S : Setup) (a : SimArgs) (e : Env) {s s0 : Random}
    (hs : s.isInitialized = true) (had : Admissible s.dsfmt) {out : List ℝ}
    (h : a.call S e s = .ok (out, s0)) :
    ∃ sched, (run S.b (fun _ => a.client S e) sched (fun _ => ⟨.check, []⟩) s.dsfmt).Sat fun r =>
      a.Returns S e (r.1 0).st out ∧ a.Returns S e (r.1 1).st out := by
  obtain ⟨N, hN⟩ := simulate_overlapping_refuted S (fun _ => a) (fun _ => e) hs had h h
  exact ⟨_, hN N le_rfl⟩

/-- A concrete case, on any machine: after `seed(3)` there are calls in one, two and three dimensions
that return, so that the theorems above apply to them. -/
example {F : Fftw} (hF : F.Laws) (b : Build) (e : Env) : ∃ (v : Variogram) (s1 s2 s3 s4 : Random)
    (a1 a2 a3 : List ℝ), s1.isInitialized = true ∧ Admissible s1.dsfmt ∧
    (SimArgs.mk v 2 1 1 (-1) 1 (-1) (-1) (-1) (-1) 1.0 1.0 1.0).call ⟨F, exactPlatform, b⟩ e s1
      = .ok (a1, s2) ∧
    (SimArgs.mk v 2 1 2 1 1 (-1) (-1) (-1) (-1) 1.0 1.0 1.0).call ⟨F, exactPlatform, b⟩ e s2
      = .ok (a2, s3) ∧
    (SimArgs.mk v 2 1 2 1 2 1 (-1) (-1) (-1) 1.0 1.0 1.0).call ⟨F, exactPlatform, b⟩ e s3
      = .ok (a3, s4) := by
  obtain ⟨v, -, a1, a2, a3, s', h, -⟩ := concrete_session hF b e (s := Random.initial) rfl
  simp only [Spec.session] at h
  obtain ⟨⟨r1, s1⟩, h1, h⟩ := Res.bind_eq_ok.1 h
  obtain ⟨q1, h, e1⟩ := Res.bind_eq_ok.1 h
  obtain ⟨⟨r2, s2⟩, h2, h⟩ := Res.bind_eq_ok.1 h
  obtain ⟨q2, h, e2⟩ := Res.bind_eq_ok.1 h
  obtain ⟨⟨r3, s3⟩, h3, h⟩ := Res.bind_eq_ok.1 h
  obtain ⟨q3, h, e3⟩ := Res.bind_eq_ok.1 h
  obtain ⟨⟨r4, s4⟩, h4, h⟩ := Res.bind_eq_ok.1 h
  simp only [pyCall, initializeSeed_eq 3 (s := Random.initial) rfl, Res.bind_ok, Res.ok.injEq,
    Prod.mk.injEq] at h1
  have key : ∀ {x : Res (List ℝ × Random)} {r : PyReply} {t : Random},
      (x.bind fun r => .ok (PyReply.array r.1, r.2)) = .ok (r, t) → ∃ a, x = .ok (a, t) := by
    intro x r t hx
    obtain ⟨y, ex, ey⟩ := Res.bind_eq_ok.1 hx
    exact ⟨y.1, by rw [ex, ← (Prod.mk.inj (Res.ok.inj ey)).2]⟩
  obtain ⟨b1, h2⟩ := key h2
  obtain ⟨b2, h3⟩ := key h3
  obtain ⟨b3, h4⟩ := key h4
  refine ⟨v, s1, s2, s3, s4, b1, b2, b3, ?_, ?_, h2, h3, h4⟩
  · rw [← h1.2]
  · rw [← h1.2]; exact Dsfmt.seed_admissible _

/-! ### Two calls that return different fields one after the other

With range 1/2 and step 1 the field is the noise itself. -/

/-- A normal number that is a sum of three uniform numbers, from its words. -/
def firstSum : List (BitVec 64) → Option ℕ
  | w :: w1 :: w2 :: w3 :: _ =>
    if w.toNat % 2 ^ 52 * 10000 < 8638 * 2 ^ 52 then
      some (w1.toNat % 2 ^ 52 + w2.toNat % 2 ^ 52 + w3.toNat % 2 ^ 52)
    else none
  | _ => none

theorem firstSum_spec {l : List (BitVec 64)} {k : ℕ} (h : firstSum l = some k) (b : Build) {s : Random}
    (hs : Known.Ahead l s.dsfmt) :
    ∃ s', Random.norm01 b s = .ok (2.0 * ((k : ℝ) / 2 ^ 52) - 3.0, s') := by
  unfold firstSum at h
  split at h
  swap
  · simp at h
  rename_i w w1 w2 w3 l'
  split_ifs at h with c
  obtain ⟨u0, d0, e0, h0, hu⟩ := hs.unif01 b
  obtain ⟨u1, d1, e1, h1, hu1⟩ := Known.Ahead.unif01 (s := { s with dsfmt := d0 }) h0 b
  obtain ⟨u2, d2, e2, h2, hu2⟩ := Known.Ahead.unif01 (s := { s with dsfmt := d1 }) h1 b
  obtain ⟨u3, d3, e3, h3, hu3⟩ := Known.Ahead.unif01 (s := { s with dsfmt := d2 }) h2 b
  have hc : u0 < 0.8638 := by
    have : ((w.toNat % 2 ^ 52 : ℕ) : ℝ) * 10000 < 8638 * 2 ^ 52 := by exact_mod_cast c
    rw [hu, div_lt_iff₀ (by positivity)]; norm_num at this ⊢; linarith
  have hk : u1 + u2 + u3 = (k : ℝ) / 2 ^ 52 := by
    rw [← Option.some.inj h, hu1, hu2, hu3]
    push_cast
    ring
  refine ⟨{ s with dsfmt := d3 }, ?_⟩
  unfold Random.norm01 Random.norm01With
  simp only [Res.monad_bind_eq, e0, Res.bind_ok, if_pos hc, e1, e2, e3, hk]

/-- The seed of the generator object made from a word. -/
def seedOfWord (w : BitVec 64) : BitVec 32 :=
  (((w &&& 0xffffffff#64).setWidth 32).setWidth 64).setWidth 32

/-- The first two words after seeding make generator objects with different first numbers. -/
def twoSums (seed : BitVec 32) : Bool :=
  match Known.seedOuts seed with
  | w :: w' :: _ =>
    Known.quick 3 (Known.seedOuts (seedOfWord w)) && Known.quick 3 (Known.seedOuts (seedOfWord w')) &&
    match firstSum (Known.seedOuts (seedOfWord w)), firstSum (Known.seedOuts (seedOfWord w')) with
    | some k, some k' => k != k'
    | _, _ => false
  | _ => false

theorem twoSums_1 : twoSums 1 = true := by decide +kernel

/-- The normal numbers of a call in one dimension, from the word it draws. -/
theorem flat_firstSum {w : BitVec 64} {l : List (BitVec 64)} {s : Random}
    (hs : Known.Ahead (w :: l) s.dsfmt) (hq : Known.quick 3 (Known.seedOuts (seedOfWord w)) = true)
    {k : ℕ} (hk : firstSum (Known.seedOuts (seedOfWord w)) = some k) (b : Build) :
    ∃ x d', Spec.flatNormals b 3 s = .ok (x, { s with dsfmt := d' }) ∧ Known.Ahead l d' ∧
      x.getD 0 0 = 2.0 * ((k : ℝ) / 2 ^ 52) - 3.0 := by
  obtain ⟨d', e, ha⟩ := hs.drawUint32 b
  obtain ⟨x, g, e2⟩ := quick_object (r := ((w &&& 0xffffffff#64).setWidth 32).setWidth 64) hq b
  refine ⟨x, d', ?_, ha, ?_⟩
  · unfold Spec.flatNormals
    simp only [e, Res.bind_ok, e2]
  · obtain ⟨s', hn⟩ := firstSum_spec hk b
      (s := ⟨true, ((w &&& 0xffffffff#64).setWidth 32).setWidth 64, false, "",
        ⟨seedState (seedOfWord w), 382⟩⟩) (Known.ahead_seed _)
    rw [seededObject_ofGlobal, Spec.draws, RandomGenerator.norm01_ofGlobal] at e2
    obtain ⟨r, e3, e4⟩ := Res.bind_eq_ok.1 e2
    obtain ⟨q, -, e5⟩ := Res.bind_eq_ok.1 e4
    have hn' := hn
    unfold seedOfWord at hn'
    rw [hn'] at e3
    have e3 := Res.ok.inj e3
    have e5 := (Prod.mk.inj (Res.ok.inj e5)).1
    rw [← e5, ← e3]
    rfl

open Spec in
theorem field1_noise {c w : ℕ → ℝ} (h0 : c 0 = 1) (h1 : c 1 = 0) (h2 : c 2 = 0) :
    field1 3 c w 0 = w 0 := by
  have hs : ∀ k, spectrum1 3 c k = 1 := by
    intro k
    simp [spectrum1, Finset.sum_range_succ, h0, h1, h2, phase1]
  have c1 : Real.cos (2 * Real.pi / 3) = -(1 / 2) := by
    rw [show 2 * Real.pi / 3 = Real.pi - Real.pi / 3 by ring, Real.cos_pi_sub, Real.cos_pi_div_three]
  have c2 : Real.cos (4 * Real.pi / 3) = -(1 / 2) := by
    rw [show 4 * Real.pi / 3 = Real.pi / 3 + Real.pi by ring, Real.cos_add_pi, Real.cos_pi_div_three]
  have c4 : Real.cos (8 * Real.pi / 3) = -(1 / 2) := by
    rw [show 8 * Real.pi / 3 = 2 * Real.pi / 3 + 2 * Real.pi by ring, Real.cos_add_two_pi, c1]
  have hw : ∀ d : ℤ, weight1 3 c d
      = (1 + Real.cos (phase1 3 1 d) + Real.cos (phase1 3 2 d)) / 3 := by
    intro d
    simp [weight1, Finset.sum_range_succ, hs, phase1]
  simp only [field1, Finset.sum_range_succ, Finset.sum_range_zero, hw]
  have p0 : ∀ k, phase1 3 k (((0 : ℕ) : ℤ) - ((0 : ℕ) : ℤ)) = 0 := by intro k; simp [phase1]
  have p11 : Real.cos (phase1 3 1 (((0 : ℕ) : ℤ) - ((1 : ℕ) : ℤ))) = -(1 / 2) := by
    rw [← c1, ← Real.cos_neg]; congr 1; simp [phase1]; ring
  have p12 : Real.cos (phase1 3 1 (((0 : ℕ) : ℤ) - ((2 : ℕ) : ℤ))) = -(1 / 2) := by
    rw [← c2, ← Real.cos_neg]; congr 1; simp [phase1]; ring
  have p21 : Real.cos (phase1 3 2 (((0 : ℕ) : ℤ) - ((1 : ℕ) : ℤ))) = -(1 / 2) := by
    rw [← c2, ← Real.cos_neg]; congr 1; simp [phase1]; ring
  have p22 : Real.cos (phase1 3 2 (((0 : ℕ) : ℤ) - ((2 : ℕ) : ℤ))) = -(1 / 2) := by
    rw [← c4, ← Real.cos_neg]; congr 1; simp [phase1]; ring
  rw [p0, p0, p11, p12, p21, p22, Real.cos_zero]
  ring

open Spec in
/-- **C44, refuted, a concrete case.** After `seed(1)` two threads call `simulate` with the same
arguments. One after the other the calls return two different fields; if they overlap they can both
return the first of the two. -/
theorem simulate_overlapping_witness {F : Fftw} (hF : F.Laws) (b : Build) (e : Env) {s : Random}
    (hs : s.dsfmt.status.length = 192) :
    ∃ v s0 s1 s2 out out', createVariogram "spherical".toList 0.5 (-1) (-1) 0 0 1.5 = .ok v ∧
      s.initializeSeed 1 = .ok s0 ∧
      simulate ⟨F, exactPlatform, b⟩ e v 2 1 1 (-1) 1 (-1) s0 = .ok (out, s1) ∧
      simulate ⟨F, exactPlatform, b⟩ e v 2 1 1 (-1) 1 (-1) s1 = .ok (out', s2) ∧ out ≠ out' ∧
      ∃ sched, (run b
        (fun _ => (SimArgs.mk v 2 1 1 (-1) 1 (-1) (-1) (-1) (-1) 1.0 1.0 1.0).client
          ⟨F, exactPlatform, b⟩ e) sched (fun _ => ⟨.check, []⟩) s0.dsfmt).Sat fun r =>
        (SimArgs.mk v 2 1 1 (-1) 1 (-1) (-1) (-1) (-1) 1.0 1.0 1.0).Returns ⟨F, exactPlatform, b⟩ e
          (r.1 0).st out ∧
        (SimArgs.mk v 2 1 1 (-1) 1 (-1) (-1) (-1) (-1) 1.0 1.0 1.0).Returns ⟨F, exactPlatform, b⟩ e
          (r.1 1).st out := by
  obtain ⟨v, hv, ⟨t, rx, ry, rz, az, dp, hc⟩, hrx, -, -, -, hd, t3, -⟩ := small_setup
  obtain ⟨tx, r, g1, -, -, H⟩ := advancedSimulate_1D hc (p := exactPlatform) (nx := 2) (ny := 1)
    (dx := 1) (dy := -1) (sx := 1.0) (padx := -1) (by norm_num) (by rw [hrx]; exact hd)
  rw [hrx] at g1
  have := t3 tx g1
  subst this
  -- the covariance on the grid
  have hA : IsAscii "spherical".toList := by unfold IsAscii; decide +kernel
  obtain ⟨v', hv', -, -, -, -, -, -, hvar, hcorr⟩ := createVariogram_params hA 0.5 (-1) (-1) 0 0 1.5
    (by norm_num) (by norm_num) (by norm_num)
  obtain rfl : v = v' := by rw [hv] at hv'; exact Res.ok.inj hv'
  have ht : v.type = .spherical :=
    (createVariogram_names_partial hA hv).1 "spherical" .spherical
      (by simp [documentedNames]) (by unfold SameIgnoringCase; decide +kernel)
  have hn : ∀ x : ℝ, v.corr x = Variogram.corr1D .spherical 1.5 (2 * |x|) := by
    intro x
    rw [(Verif.corr_arity v x 0).2.2, hcorr, ht]
    congr 1
    rw [normDist, show (2 * |x|) = √((2 * |x|) ^ 2) from (Real.sqrt_sq (by positivity)).symm]
    congr 1
    simp [mainAxis, perpAxis, downAxis, Vec3.dot]
    rw [mul_pow, sq_abs]
    norm_num
    ring
  have hcov : ∀ x : ℝ, v.cov1 x = Variogram.corr1D .spherical 1.5 (2 * |x|) := by
    intro x
    rw [Variogram.cov1, hvar, hn, one_mul]
  have k0 : gridCov1 v r 3 1 1.0 0 = 1 := by
    rw [gridCov1, hcov]
    norm_num [lag, kernel, Variogram.corr1D]
  have k1 : gridCov1 v r 3 1 1.0 1 = 0 := by
    rw [gridCov1, hcov]
    norm_num [lag, kernel, Variogram.corr1D]
  have k2 : gridCov1 v r 3 1 1.0 2 = 0 := by
    rw [gridCov1, hcov]
    norm_num [lag, kernel, Variogram.corr1D]
  -- the numbers drawn
  have hrun := twoSums_1
  unfold twoSums at hrun
  split at hrun
  swap
  · simp at hrun
  rename_i w w' l hw
  simp only [Bool.and_eq_true] at hrun
  obtain ⟨⟨q1, q2⟩, q3⟩ := hrun
  split at q3
  swap
  · simp at q3
  rename_i n1 n2 f1 f2
  have q3 : n1 ≠ n2 := by simpa using q3
  have h0 := Known.ahead_seed 1
  rw [hw] at h0
  obtain ⟨x1, d1, e1, h1, v1⟩ := flat_firstSum
    (s := ⟨true, 1, s.useSeedFile, s.seedFile, ⟨seedState 1, 382⟩⟩) h0 q1 f1 b
  obtain ⟨x2, d2, e2, h2, v2⟩ := flat_firstSum
    (s := ⟨true, 1, s.useSeedFile, s.seedFile, d1⟩) h1 q2 f2 b
  have H1 := H hF b e 1 (-1) (-1) (-1) 1.0 1.0
    ⟨true, 1, s.useSeedFile, s.seedFile, ⟨seedState 1, 382⟩⟩ rfl
  have H2 := H hF b e 1 (-1) (-1) (-1) 1.0 1.0 ⟨true, 1, s.useSeedFile, s.seedFile, d1⟩ rfl
  rw [e1, Res.bind_ok] at H1
  rw [e2, Res.bind_ok] at H2
  obtain ⟨sched, hsched⟩ := simulate_overlapping_same ⟨F, exactPlatform, b⟩
    (SimArgs.mk v 2 1 1 (-1) 1 (-1) (-1) (-1) (-1) 1.0 1.0 1.0) e
    (s := ⟨true, 1, s.useSeedFile, s.seedFile, ⟨seedState 1, 382⟩⟩) rfl (Dsfmt.seed_admissible 1) H1
  refine ⟨v, _, _, _, _, _, hv, initializeSeed_eq 1 hs, H1, H2, ?_, sched, hsched⟩
  intro heq
  have h3 := congrArg (fun l : List ℝ => l.getD 0 0) heq
  simp only [List.range_succ, List.range_zero, List.nil_append, List.map_cons, List.cons_append,
    List.getD_cons_zero, List.map_nil] at h3
  rw [field1_noise k0 k1 k2, field1_noise k0 k1 k2, v1, v2] at h3
  apply q3
  have h4 : (n1 : ℝ) = n2 := by linarith
  exact_mod_cast h4

end Verif.Threads
