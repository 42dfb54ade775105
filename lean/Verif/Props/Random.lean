import Verif.Lemmas.Normal
import Verif.Lemmas.DsfmtSeed
import Verif.Spec.Random
import Mathlib.Analysis.SpecialFunctions.Log.Deriv
import Mathlib.Analysis.Complex.ExponentialBounds

/-! Properties of the global generator, generator objects and the normal sampler (C41, C42, C54). -/

namespace Verif

open Spec
open Spec.Mt (Admissible seedState val12 word)
open Dsfmt (Build)

/-! ## C41: one generator, twice -/

theorem onObject_ofGlobal (b : Build) (s : Random) (c : RngCall) :
    c.onObject b (RandomGenerator.ofGlobal s)
      = (c.onGlobal b s).mapState RandomGenerator.ofGlobal := by
  cases c with
  | unif01 =>
    simp only [RngCall.onObject, RngCall.onGlobal, RandomGenerator.unif01_ofGlobal, Res.mapState,
      Res.bind_assoc, Res.bind_ok]
  | unif01Open =>
    simp only [RngCall.onObject, RngCall.onGlobal, RandomGenerator.unif01Open_ofGlobal, Res.mapState,
      Res.bind_assoc, Res.bind_ok]
  | drawUint32 =>
    simp only [RngCall.onObject, RngCall.onGlobal, RandomGenerator.drawUint32_ofGlobal, Res.mapState,
      Res.bind_assoc, Res.bind_ok]
  | norm01 =>
    simp only [RngCall.onObject, RngCall.onGlobal, RandomGenerator.norm01_ofGlobal, Res.mapState,
      Res.bind_assoc, Res.bind_ok]
  | getStartSeed =>
    obtain ⟨i, _, _, _, _⟩ := s
    cases i <;> rfl
  | initializeSeed seed =>
    simp only [RngCall.onObject, RngCall.onGlobal, RandomGenerator.initializeSeed_ofGlobal,
      Res.mapState, Res.bind_assoc, Res.bind_ok]
  | initializeTime time =>
    simp only [RngCall.onObject, RngCall.onGlobal, RandomGenerator.initializeTime_ofGlobal,
      Res.mapState, Res.bind_assoc, Res.bind_ok]

theorem session_ofGlobal (b : Build) (cs : List RngCall) (s : Random) :
    session (RngCall.onObject b) cs (RandomGenerator.ofGlobal s)
      = (session (RngCall.onGlobal b) cs s).mapState RandomGenerator.ofGlobal := by
  induction cs generalizing s with
  | nil => rfl
  | cons c cs ih =>
    simp only [session, onObject_ofGlobal, Res.mapState, Res.bind_assoc, Res.bind_ok, ih]

/-- An object made with seed `seed`, in whatever memory, and the global generator seeded with `seed`,
in whatever state, reply alike to every sequence of calls; also if they fail they fail alike. -/
theorem object_eq_global (b : Build) (seed : BitVec 64) (cs : List RngCall) {raw : Dsfmt}
    (hr : raw.status.length = 192) {s : Random} (hs : s.dsfmt.status.length = 192) :
    seen ((RandomGenerator.createSeeded seed raw).bind (session (RngCall.onObject b) cs))
      = seen ((Random.initializeSeed seed s).bind (session (RngCall.onGlobal b) cs)) := by
  have e1 : RandomGenerator.createSeeded seed raw
      = .ok ⟨⟨seedState (seed.setWidth 32), 382⟩, seed, true⟩ := by
    unfold RandomGenerator.createSeeded RandomGenerator.initializeMT
    rw [Res.monad_bind_eq, Dsfmt.initGenRand_eq _ hr]; rfl
  have e2 : Random.initializeSeed seed s = .ok { s with
      startSeed := seed, isInitialized := true, dsfmt := ⟨seedState (seed.setWidth 32), 382⟩ } := by
    unfold Random.initializeSeed Random.initializeMT
    simp only [Res.monad_bind_eq]
    rw [Dsfmt.initGenRand_eq _ hs]; rfl
  rw [e1, e2, Res.bind_ok, Res.bind_ok]
  have := session_ofGlobal b cs { s with
      startSeed := seed, isInitialized := true, dsfmt := ⟨seedState (seed.setWidth 32), 382⟩ }
  unfold RandomGenerator.ofGlobal at this
  simp only at this
  unfold seen
  rw [this]
  unfold Res.mapState
  rw [Res.bind_assoc]
  simp only [Res.bind_ok]

/-- The hypotheses are met by the zero-initialised global generator and a fresh object. -/
example (b : Build) (seed : BitVec 64) (cs : List RngCall) :
    seen ((RandomGenerator.createSeeded seed ⟨List.replicate 192 ⟨0, 7⟩, 5⟩).bind
        (session (RngCall.onObject b) cs))
      = seen ((Random.initializeSeed seed .initial).bind (session (RngCall.onGlobal b) cs)) :=
  object_eq_global b seed cs List.length_replicate List.length_replicate

/-- An object seeded after construction is the same as one constructed with the seed. -/
theorem object_seeded_later (seed : BitVec 64) {raw raw' : Dsfmt} (hr : raw.status.length = 192)
    (hr' : raw'.status.length = 192) :
    RandomGenerator.initializeSeed seed (.create raw) = RandomGenerator.createSeeded seed raw' := by
  unfold RandomGenerator.initializeSeed RandomGenerator.createSeeded RandomGenerator.initializeMT
  simp only [Res.monad_bind_eq]
  rw [Dsfmt.initGenRand_eq _ hr']
  unfold RandomGenerator.create
  rw [Dsfmt.initGenRand_eq _ hr]

/-! ## C42: normal numbers -/

namespace Random

/-- In every admissible state the uniform numbers `U` to come (multiples of 2^-52) determine the normal number and how
many of them it uses: the value is made by the branch the first one selects; the rejection loops stop
at the first accepted pair; and the state afterwards is that after exactly so many uniform draws. If
the tail branch meets the centre of the disc first the result is NaN, and if neither happens the loop
goes on for ever. There is no other outcome. -/
theorem norm01_spec {s : Random} (h : Admissible s.dsfmt) :
    ∃ U : ℕ → ℝ, (∀ i, ∃ n : ℕ, n < 2 ^ 52 ∧ U i = n / 2 ^ 52) ∧ ∀ b, Streams (unif01 b) s U ∧
      (∀ x m, NormOut U x m → ∃ s', norm01 b s = .ok (x, s') ∧
        draws (unif01 b) m s = .ok ((List.range m).map U, s')) ∧
      (NormNaN U → norm01 b s = .nonfinite "NaN returned") ∧
      ((∀ x m, ¬ NormOut U x m) → ¬ NormNaN U → norm01 b s = .diverges) := by
  obtain ⟨U, hU, h01⟩ := exists_streams h
  refine ⟨U, h01, fun b => ⟨hU b, ?_⟩⟩
  obtain ⟨S, rfl, hr⟩ := (hU b).runs
  exact ⟨fun x m hx => ⟨S m, norm01_ok hr hx, hr.draws_eq m⟩, norm01_nan hr, norm01_diverges hr⟩

theorem draws_admissible {b : Build} {n : ℕ} {s s' : Random} {l : List ℝ} (h : Admissible s.dsfmt)
    (hd : draws (unif01 b) n s = .ok (l, s')) : Admissible s'.dsfmt := by
  induction n generalizing s l with
  | zero =>
    simp only [draws, Res.ok.injEq, Prod.mk.injEq] at hd
    rw [← hd.2]; exact h
  | succ n ih =>
    unfold draws at hd
    obtain ⟨⟨x, s1⟩, e1, e2⟩ := Res.bind_eq_ok.1 hd
    obtain ⟨⟨l', s2⟩, e3, e4⟩ := Res.bind_eq_ok.1 e2
    simp only [Res.ok.injEq, Prod.mk.injEq] at e4
    refine ih (s := s1) ?_ (l := l') (by rw [e3, e4.2])
    obtain ⟨X, L, hX, _, hp, h12⟩ := Dsfmt.admissible_pos h
    obtain ⟨r, e, _, h2⟩ := Dsfmt.draw_pos hX b hp
      (Dsfmt.word_is12 (k := 0) (fun n _ => h12 n) _ (by omega)) .closeOpen
    have e' : Dsfmt.genrandCloseOpen b s.dsfmt = .ok r := e
    unfold unif01 at e1
    rw [e'] at e1
    simp only [Res.monad_bind_eq, Res.bind_ok, Res.ok.injEq, Prod.mk.injEq] at e1
    rw [← e1.2]
    exact Dsfmt.pos_admissible h2 h12

/-- If it returns, the state is admissible again and the value is in the interval of the branch that
the first uniform number selects. -/
theorem norm01_range {b : Build} {s s' : Random} {x : ℝ} (h : Admissible s.dsfmt)
    (hx : norm01 b s = .ok (x, s')) :
    Admissible s'.dsfmt ∧ ∃ u s1, unif01 b s = .ok (u, s1) ∧
      (u < 0.8638 → -3 ≤ x ∧ x < 3) ∧
      (0.8638 ≤ u → u < 0.9745 → -1.5 ≤ x ∧ x < 1.5) ∧
      (0.9745 ≤ u → u < 0.9973002039 → -3 ≤ x ∧ x < 3) ∧
      (0.9973002039 ≤ u → 3 < |x|) := by
  classical
  obtain ⟨U, h01', hall⟩ := norm01_spec h
  have h01 := fun i => multiple_01 (h01' i)
  obtain ⟨hU, hok, hnan, hdiv⟩ := hall b
  obtain ⟨s1, e1, _⟩ := streams_cons hU
  have hex : ∃ y m, NormOut U y m := by
    by_contra hc
    push Not at hc
    by_cases hn : NormNaN U
    · rw [hnan hn] at hx; cases hx
    · rw [hdiv hc hn] at hx; cases hx
  obtain ⟨y, m, hy⟩ := hex
  obtain ⟨s2, e2, e3⟩ := hok y m hy
  rw [hx, Res.ok.injEq, Prod.mk.injEq] at e2
  obtain ⟨rfl, rfl⟩ := e2
  refine ⟨draws_admissible h e3, U 0, s1, e1, ?_⟩
  cases hy with
  | sum3 hu =>
    have h1 := h01 1; have h2 := h01 2; have h3 := h01 3
    refine ⟨fun _ => ⟨by linarith, by linarith⟩, fun h _ => ?_, fun h _ => ?_, fun h => ?_⟩ <;>
      (norm_num at *; linarith)
  | sum2 hu1 hu2 =>
    have h1 := h01 1; have h2 := h01 2
    refine ⟨fun h => ?_, fun _ _ => ?_, fun h _ => ?_, fun h => ?_⟩
    · exact absurd h (not_lt.2 hu1)
    · constructor <;> norm_num <;> linarith
    · norm_num at *; linarith
    · norm_num at *; linarith
  | wedge k hu1 hu2 _ _ =>
    have h1 := h01 (2 * k + 1)
    refine ⟨fun h => ?_, fun _ h => ?_, fun _ _ => ⟨by linarith, by linarith⟩, fun h => ?_⟩
    · norm_num at *; linarith
    · exact absurd h (not_lt.2 hu1)
    · norm_num at *; linarith
  | tail k hu _ hacc =>
    refine ⟨fun h => ?_, fun _ h => ?_, fun _ h => ?_, fun _ => ?_⟩
    · norm_num at *; linarith
    · norm_num at *; linarith
    · exact absurd h (not_lt.2 hu)
    · unfold tailValue
      split_ifs with hc
      · exact hc
      · exact hacc.2.2.resolve_left hc

/-- It returns exactly if the loops meet an acceptable pair (and not the centre of the disc before). -/
theorem norm01_returns_iff {b : Build} {s : Random} {U : ℕ → ℝ} (hU : Streams (unif01 b) s U) :
    (∃ x s', norm01 b s = .ok (x, s')) ↔ ∃ x m, NormOut U x m := by
  obtain ⟨S, rfl, hr⟩ := hU.runs
  refine ⟨fun ⟨x, s', hx⟩ => ?_, fun ⟨x, m, hx⟩ => ⟨x, S m, norm01_ok hr hx⟩⟩
  by_contra hc
  push Not at hc
  by_cases hn : NormNaN U
  · cases hx.symm.trans (norm01_nan hr hn)
  · cases hx.symm.trans (norm01_diverges hr hc hn)

theorem tailValue_bounded {u1 u2 : ℝ} (h1 : ∃ n : ℕ, n < 2 ^ 52 ∧ u1 = n / 2 ^ 52)
    (h2 : ∃ n : ℕ, n < 2 ^ 52 ∧ u2 = n / 2 ^ 52) (ha : 0 < disc u1 u2) :
    |tailValue u1 u2| < 12.27 := by
  have hw : (1 / 2 ^ 102 : ℝ) ≤ disc u1 u2 := by
    obtain ⟨n1, _, rfl⟩ := h1
    obtain ⟨n2, _, rfl⟩ := h2
    have e : disc (n1 / 2 ^ 52) (n2 / 2 ^ 52)
        = ((((n1 : ℤ) - 2 ^ 51) ^ 2 + ((n2 : ℤ) - 2 ^ 51) ^ 2 : ℤ) : ℝ) / 2 ^ 102 := by
      unfold disc; push_cast; ring
    rw [e] at ha ⊢
    have hz : (0 : ℤ) < ((n1 : ℤ) - 2 ^ 51) ^ 2 + ((n2 : ℤ) - 2 ^ 51) ^ 2 := by
      have : (0 : ℝ) < ((((n1 : ℤ) - 2 ^ 51) ^ 2 + ((n2 : ℤ) - 2 ^ 51) ^ 2 : ℤ) : ℝ) := by
        by_contra hc
        exact absurd ha (not_lt.2 (div_nonpos_of_nonpos_of_nonneg (not_lt.1 hc) (by positivity)))
      exact_mod_cast this
    have : (1 : ℝ) ≤ ((((n1 : ℤ) - 2 ^ 51) ^ 2 + ((n2 : ℤ) - 2 ^ 51) ^ 2 : ℤ) : ℝ) := by
      exact_mod_cast hz
    gcongr
  have hlog : -(102 * Real.log 2) ≤ Real.log (disc u1 u2) := by
    have := Real.log_le_log (by positivity) hw
    rw [one_div, Real.log_inv, Real.log_pow] at this
    exact_mod_cast this
  have hl2 := Real.log_two_lt_d9
  have hnum : 9 - 2 * Real.log (disc u1 u2) < 12.27 ^ 2 := by norm_num at hl2 ⊢; linarith
  have key : ∀ v, v ^ 2 ≤ disc u1 u2 → |stretch u1 u2 * v| < 12.27 := by
    intro v hv
    refine abs_lt_of_sq_lt_sq ?_ (by norm_num)
    rw [mul_pow]
    unfold stretch
    by_cases hpos : 0 ≤ (9 - 2 * Real.log (disc u1 u2)) / disc u1 u2
    · rw [Real.sq_sqrt hpos]
      calc (9 - 2 * Real.log (disc u1 u2)) / disc u1 u2 * v ^ 2
          ≤ (9 - 2 * Real.log (disc u1 u2)) / disc u1 u2 * disc u1 u2 := by gcongr
        _ = 9 - 2 * Real.log (disc u1 u2) := div_mul_cancel₀ _ ha.ne'
        _ < 12.27 ^ 2 := hnum
    · rw [Real.sqrt_eq_zero_of_nonpos (le_of_not_ge hpos)]
      norm_num
  unfold tailValue
  split_ifs
  · exact key _ (by unfold disc; nlinarith [sq_nonneg (2 * u2 - 1)])
  · exact key _ (by unfold disc; nlinarith [sq_nonneg (2 * u1 - 1)])

/-- No normal number is larger than 12.27: the tail is cut off there. -/
theorem norm01_bounded {b : Build} {s s' : Random} {x : ℝ} (h : Admissible s.dsfmt)
    (hx : norm01 b s = .ok (x, s')) : |x| < 12.27 := by
  obtain ⟨U, hm, hall⟩ := norm01_spec h
  have h01 := fun i => multiple_01 (hm i)
  obtain ⟨hU, hok, -, -⟩ := hall b
  obtain ⟨y, m, hy⟩ := (norm01_returns_iff hU).1 ⟨x, s', hx⟩
  obtain ⟨s2, e2, -⟩ := hok y m hy
  rw [hx, Res.ok.injEq, Prod.mk.injEq] at e2
  obtain ⟨rfl, rfl⟩ := e2
  cases hy with
  | sum3 hu =>
    have h1 := h01 1; have h2 := h01 2; have h3 := h01 3
    rw [abs_lt]; constructor <;> norm_num <;> linarith
  | sum2 hu1 hu2 =>
    have h1 := h01 1; have h2 := h01 2
    rw [abs_lt]; constructor <;> norm_num <;> linarith
  | wedge k hu1 hu2 _ _ =>
    have h1 := h01 (2 * k + 1)
    rw [abs_lt]; constructor <;> norm_num <;> linarith
  | tail k hu _ hacc => exact tailValue_bounded (hm _) (hm _) hacc.1

/-! ### The NaN -/

/-- An admissible state in which the numbers 1 - 2^-52, 1/2 and 1/2 come next. -/
def nanState : Dsfmt :=
  ⟨⟨0x3FFFFFFFFFFFFFFF#64, 0x3FF8000000000000#64⟩
    :: ⟨0x3FF8000000000000#64, 0x3FF0000000000000#64⟩
    :: List.replicate 190 ⟨0x3FF0000000000000#64, 0x3FF0000000000000#64⟩, 0⟩

theorem nanState_admissible : Admissible nanState := by
  refine ⟨congrArg (· + 2) (List.length_replicate (n := 190)), Nat.zero_le _, fun i _ w hw => ?_⟩
  have : w ∈ nanState.status := List.mem_of_getElem? hw
  simp only [nanState, List.mem_cons, List.mem_replicate] at this
  rcases this with rfl | rfl | ⟨_, rfl⟩ <;> exact ⟨rfl, rfl⟩

/-- A normal number should always be a number. It is not: in this state the tail sampler divides by
zero and NaN is returned. -/
theorem norm01_finite_refuted :
    ¬ ∀ (b : Build) (s : Random), Admissible s.dsfmt → ∀ m, norm01 b s ≠ .nonfinite m := by
  intro hall
  obtain ⟨X, L, hX, hw, hp, h12⟩ := Dsfmt.admissible_pos nanState_admissible
  have hs := unif01_streams hX .portable (s := { initial with dsfmt := nanState }) hp fun q _ =>
    Dsfmt.word_is12 (k := 0) (fun n _ => h12 n) q (by omega)
  obtain ⟨S, h0, hr⟩ := hs.runs
  have h1 := norm01_nan hr ?_
  · rw [h0] at h1
    exact hall _ _ nanState_admissible _ h1
  have e0 : X 0 = ⟨0x3FFFFFFFFFFFFFFF#64, 0x3FF8000000000000#64⟩ := by
    have := hw.el 0 (by norm_num)
    simp only [nanState, List.getElem?_cons_zero, Option.some.injEq] at this
    exact this.symm
  have e1 : X 1 = ⟨0x3FF8000000000000#64, 0x3FF0000000000000#64⟩ := by
    have := hw.el 1 (by norm_num)
    simp only [nanState, List.getElem?_cons_succ, List.getElem?_cons_zero, Option.some.injEq] at this
    exact this.symm
  refine ⟨?_, 0, ?_, fun i hi => absurd hi (by omega)⟩
  · have : word X (nanState.idx + 0) = 0x3FFFFFFFFFFFFFFF#64 := by
      show word X 0 = _
      unfold word
      rw [if_pos (by norm_num), show 0 / 2 = 0 from rfl, e0]
    simp only [this]
    norm_num [val12]
  · have h1 : word X (nanState.idx + (2 * 0 + 1)) = 0x3FF8000000000000#64 := by
      show word X 1 = _
      unfold word
      rw [if_neg (by norm_num), show 1 / 2 = 0 from rfl, e0]
    have h2 : word X (nanState.idx + (2 * 0 + 2)) = 0x3FF8000000000000#64 := by
      show word X 2 = _
      unfold word
      rw [if_pos (by norm_num), show 2 / 2 = 1 from rfl, e1]
    simp only [h1, h2]
    norm_num [val12, disc]

/-- The hypotheses of the other theorems are met too: after any seeding the state is admissible, so
there is a stream of uniform numbers and `norm01_spec` applies. -/
example (seed : BitVec 64) : ∃ s, initializeSeed seed initial = .ok s ∧ Admissible s.dsfmt :=
  ⟨_, by
    unfold initializeSeed initializeMT
    simp only [Res.monad_bind_eq]
    rw [Dsfmt.initGenRand_eq _ (List.length_replicate)]; rfl, Dsfmt.seed_admissible _⟩

/-- And the sampler does return: with four zeros to come it gives -3. -/
example (b : Build) : ∃ s', norm01 b { initial with
    dsfmt := ⟨List.replicate 192 ⟨0x3FF0000000000000#64, 0x3FF0000000000000#64⟩, 0⟩ }
      = .ok (-3, s') := by
  have ha : Admissible ⟨List.replicate 192 ⟨0x3FF0000000000000#64, 0x3FF0000000000000#64⟩, 0⟩ := by
    refine ⟨List.length_replicate, Nat.zero_le _, fun i _ w hw => ?_⟩
    have := List.eq_of_mem_replicate (List.mem_of_getElem? hw)
    subst this
    exact ⟨rfl, rfl⟩
  obtain ⟨X, L, hX, hw, hp, h12⟩ := Dsfmt.admissible_pos ha
  have hs := unif01_streams hX b (s := { initial with
    dsfmt := ⟨List.replicate 192 ⟨0x3FF0000000000000#64, 0x3FF0000000000000#64⟩, 0⟩ }) hp fun q _ =>
    Dsfmt.word_is12 (k := 0) (fun n _ => h12 n) q (by omega)
  obtain ⟨S, h0, hr⟩ := hs.runs
  have hX0 : ∀ i < 2, X i = ⟨0x3FF0000000000000#64, 0x3FF0000000000000#64⟩ := by
    intro i hi
    have := hw.el i (by omega)
    rw [List.getElem?_replicate, if_pos (by omega), zero_add, Option.some.injEq] at this
    exact this.symm
  have hz : ∀ i < 4, val12 (word X (0 + i)) - 1 = 0 := by
    intro i hi
    unfold word
    rw [hX0 _ (by omega)]
    simp [val12]
  have h := norm01_ok hr (.sum3 (by simp only [hz 0 (by norm_num)]; norm_num))
  rw [h0] at h
  simp only [hz 1 (by norm_num), hz 2 (by norm_num), hz 3 (by norm_num)] at h
  refine ⟨S 4, h.trans ?_⟩
  norm_num

/-! ## C54: seed files -/

/-- Seeding from a file is seeding with the number in the file. -/
theorem initializeFile_ok {s : Random} (hs : s.dsfmt.status.length = 192) (f : String)
    (v : BitVec 64) : ∃ s1 s2, initializeFile f (.value v) s = .ok (none, s1) ∧
      initializeSeed v s = .ok s2 ∧ s1.dsfmt = s2.dsfmt ∧ getStartSeed s1 = .ok v ∧
      getStartSeed s2 = .ok v := by
  unfold initializeFile initializeSeed initializeMT
  simp only [Res.monad_bind_eq]
  rw [Dsfmt.initGenRand_eq _ hs]
  exact ⟨_, _, rfl, rfl, rfl, rfl, rfl⟩

/-- A seed file that cannot be opened changes nothing. -/
theorem initializeFile_cannotOpen (s : Random) (f : String) :
    ∃ m, initializeFile f .cannotOpen s = .ok (some m, s) := ⟨_, rfl⟩

/-- A call that throws should leave the generator as it was. This one does not: after a failed
attempt to read a seed file the reported seed is no longer the one the stream was started with. -/
theorem initializeFile_unchanged_refuted :
    ¬ ∀ (f : String) (c : SeedRead) (s s' : Random) (m : String),
      initializeFile f c s = .ok (some m, s') → getStartSeed s' = getStartSeed s := by
  intro h
  have := h "seed" (.failed 0) { initial with isInitialized := true, startSeed := 17 } _ _ rfl
  simp [getStartSeed] at this

/-- What remains true: the stream itself is not changed by a failed call, nor whether there is a
seed. -/
theorem initializeFile_unchanged_partial {f m : String} {c : SeedRead} {s s' : Random}
    (h : initializeFile f c s = .ok (some m, s')) :
    s'.dsfmt = s.dsfmt ∧ s'.isInitialized = s.isInitialized ∧ s'.useSeedFile = s.useSeedFile ∧
      s'.seedFile = s.seedFile := by
  cases c with
  | cannotOpen =>
    simp only [initializeFile, Res.ok.injEq, Prod.mk.injEq] at h
    rw [← h.2]; exact ⟨rfl, rfl, rfl, rfl⟩
  | failed v =>
    simp only [initializeFile, Res.ok.injEq, Prod.mk.injEq] at h
    rw [← h.2]; exact ⟨rfl, rfl, rfl, rfl⟩
  | value v =>
    unfold initializeFile at h
    obtain ⟨s1, _, h2⟩ := Res.bind_eq_ok.1 h
    simp at h2

/-- Writing a new seed to the seed file and starting from it again works: the number written is below
2^32, so it is not truncated when the generator is seeded with it. Without a seed file nothing is
written and the stream does not advance. -/
theorem writeSeed_replay {b : Build} {s : Random} (h : Admissible s.dsfmt) :
    (s.useSeedFile = false → writeSeedToFile b s = .ok (none, s)) ∧
    (s.useSeedFile = true → ∃ (n : BitVec 64) (s' : Random),
      writeSeedToFile b s = .ok (some (s.seedFile, n), s') ∧ n.toNat < 2 ^ 32 ∧
      Admissible s'.dsfmt ∧ s'.startSeed = s.startSeed) := by
  refine ⟨fun hf => by unfold writeSeedToFile; rw [hf]; rfl, fun hf => ?_⟩
  obtain ⟨X, L, hX, _, hp, h12⟩ := Dsfmt.admissible_pos h
  obtain ⟨⟨w, d⟩, e, hw, hpos, _⟩ := Dsfmt.nextWord_pos hX b hp
  unfold writeSeedToFile
  rw [if_pos hf]
  unfold drawUint32 Dsfmt.genrandUint32
  simp only [Res.monad_bind_eq, e, Res.bind_ok]
  refine ⟨_, _, rfl, ?_, Dsfmt.pos_admissible hpos h12, rfl⟩
  rw [BitVec.toNat_setWidth]
  exact lt_of_le_of_lt (Nat.mod_le _ _) (BitVec.isLt _)

end Random

end Verif
