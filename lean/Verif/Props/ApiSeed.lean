import Verif.Lemmas.Api
import Verif.Spec.Api

/-! Properties of seeds and reproducibility of sessions with the Python module (C10-C14). -/

namespace Verif

open Spec
open Spec.Mt (Admissible seedState)
open Dsfmt (Build)

/-! ## Sessions that go alike -/

/-- Steps that reply alike and keep a relation between two states. -/
theorem session_sim {σ ι ρ : Type} {step : σ → ι → Res (ρ × σ)} {R : σ → σ → Prop}
    {P : ι → ι → Prop}
    (hstep : ∀ s s' c c', R s s' → P c c' →
      Sim false (fun r r' => r.1 = r'.1 ∧ R r.2 r'.2) (step s c) (step s' c'))
    {l l' : List ι} (hl : List.Forall₂ P l l') {s s' : σ} (hs : R s s') :
    Sim false (fun r r' => r.1 = r'.1 ∧ R r.2 r'.2) (session step l s) (session step l' s') := by
  induction hl generalizing s s' with
  | nil => exact .ok ⟨rfl, hs⟩
  | cons hc _ ih =>
    refine (hstep s s' _ _ hs hc).bind fun r r' hr => (ih hr.2).bind fun q q' hq => ?_
    exact .ok ⟨by simp only [hr.1, hq.1], hq.2⟩

theorem seen_eq {σ ρ : Type} {R : σ → σ → Prop} {x y : Res (List ρ × σ)}
    (h : Sim false (fun r r' => r.1 = r'.1 ∧ R r.2 r'.2) x y) : seen x = seen y := by
  cases h with
  | ok h => simp only [seen, Res.bind_ok, h.1]
  | badNonfinite w y hb => exact absurd hb (by decide)
  | badDiverges y hb => exact absurd hb (by decide)
  | _ => rfl

theorem sim_strengthen {α β : Type} {R T : α → β → Prop} {x : Res α} {y : Res β}
    (h : Sim false R x y) (hrt : ∀ a b, x = .ok a → y = .ok b → R a b → T a b) :
    Sim false T x y := by
  cases h with
  | ok h => exact .ok (hrt _ _ rfl rfl h)
  | throws m => exact .throws m
  | ub w => exact .ub w
  | nonfinite w => exact .nonfinite w
  | diverges => exact .diverges
  | badNonfinite w y hb => exact absurd hb (by decide)
  | badDiverges y hb => exact absurd hb (by decide)

theorem sim_of_mapState {α : Type} {f : Random → Random} {x y : Res (α × Random)}
    (h : x.mapState f = y.mapState f) :
    Sim false (fun r r' => r.1 = r'.1 ∧ f r.2 = f r'.2) x y := by
  cases x <;> cases y <;> simp [Res.mapState] at h
  · exact .ok ⟨h.1, h.2⟩
  · subst h; exact .throws _
  · subst h; exact .ub _
  · subst h; exact .nonfinite _
  · exact .diverges

/-- Both seeded, and the same in what `f` keeps. -/
structure Alike (f : Random → Random) (s s' : Random) : Prop where
  eq : f s = f s'
  init : s.isInitialized = true
  init' : s'.isInitialized = true
  adm : Admissible s.dsfmt
  adm' : Admissible s'.dsfmt

/-- The members that do not affect anything but the reported seed. -/
def forget (s : Random) : Random := { s with useSeedFile := false, seedFile := "", startSeed := 0 }

theorem forget_overlay : Overlay forget := ⟨fun _ => rfl, fun _ _ => rfl⟩

theorem advancedSimulate_alike {f : Random → Random} (hf : Overlay f) (S : Setup) (e e' : Env)
    (v : Variogram) (nx : ℕ) (dx : ℝ) (ny : ℕ) (dy : ℝ) (nz : ℕ) (dz : ℝ) (padx pady padz : ℤ)
    (sx sy sz : ℝ) {s s' : Random} (h : Alike f s s') :
    Sim false (fun r r' => r.1 = r'.1 ∧ Alike f r.2 r'.2)
      (advancedSimulate S e v nx dx ny dy nz dz padx pady padz sx sy sz s)
      (advancedSimulate S e' v nx dx ny dy nz dz padx pady padz sx sy sz s') := by
  rw [advancedSimulate_eq, advancedSimulate_eq, ensureSeeded_seeded h.init,
    ensureSeeded_seeded h.init', Res.bind_ok, Res.bind_ok, seededSimulate_env S e' e]
  have h1 := seededSimulate_overlay S e v nx dx ny dy nz dz padx pady padz sx sy sz hf s
  have h2 := seededSimulate_overlay S e v nx dx ny dy nz dz padx pady padz sx sy sz hf s'
  rw [h.eq, h2] at h1
  refine sim_strengthen (sim_of_mapState h1.symm) fun r r' hx hy h3 => ?_
  exact ⟨h3.1, h3.2, (seededSimulate_seed h.init (out := r.1) (s' := r.2) hx).1,
    (seededSimulate_seed h.init' (out := r'.1) (s' := r'.2) hy).1,
    seededSimulate_admissible S e v nx dx ny dy nz dz padx pady padz sx sy sz h.adm
      (out := r.1) (s' := r.2) hx,
    seededSimulate_admissible S e v nx dx ny dy nz dz padx pady padz sx sy sz h.adm'
      (out := r'.1) (s' := r'.2) hy⟩

theorem pyRaise_alike {α : Type} {f : Random → Random} {s s' : Random} (h : Alike f s s') {x : Res α}
    (g : α → PyReply) :
    Sim false (fun r r' => r.1 = r'.1 ∧ Alike f r.2 r'.2)
      (pyRaise s (x.bind fun a => .ok (g a, s))) (pyRaise s' (x.bind fun a => .ok (g a, s'))) := by
  cases x with
  | ok a => exact .ok ⟨rfl, h⟩
  | throws m => exact .ok ⟨rfl, h⟩
  | ub m => exact .ub _
  | nonfinite m => exact .nonfinite _
  | diverges => exact .diverges

/-- What `f` keeps decides over all calls, apart from `seed()` if `f` does not keep the seed. -/
theorem pyCall_alike {f : Random → Random} (hf : Overlay f)
    (hseed : ∀ (s s' : Random) (n : BitVec 64) (d : Dsfmt), f { s with startSeed := n, isInitialized := true, dsfmt := d }
      = f { s' with startSeed := n, isInitialized := true, dsfmt := d })
    (S : Setup) (c c' : Env × PyCall) (hc : c.2 = c'.2)
    (hget : c.2 = .getSeed → ∀ s s' : Random, f s = f s' → s.startSeed = s'.startSeed)
    {s s' : Random} (h : Alike f s s') :
    Sim false (fun r r' => r.1 = r'.1 ∧ Alike f r.2 r'.2) (pyCall S s c) (pyCall S s' c') := by
  obtain ⟨e, c⟩ := c
  obtain ⟨e', c'⟩ := c'
  simp only at hc hget
  subst hc
  unfold pyCall
  cases c with
  | seed n =>
    simp only [initializeSeed_eq n h.adm.len, initializeSeed_eq n h.adm'.len, Res.bind_ok]
    exact .ok ⟨rfl, hseed s s' n _, rfl, rfl, Dsfmt.seed_admissible _, Dsfmt.seed_admissible _⟩
  | getSeed =>
    have := hget rfl s s' h.eq
    simp only [Random.getStartSeed, h.init, h.init', this]
    exact .ok ⟨rfl, h⟩
  | simulate v nx dx ny dy nz dz =>
    exact (advancedSimulate_alike hf S e e' v nx dx ny dy nz dz _ _ _ _ _ _ h).bind
      fun r r' hr => .ok ⟨by simp only [hr.1], hr.2⟩
  | advancedSimulate v nx dx ny dy nz dz px py pz sx sy sz =>
    exact (advancedSimulate_alike hf S e e' v nx dx ny dy nz dz px py pz sx sy sz h).bind
      fun r r' hr => .ok ⟨by simp only [hr.1], hr.2⟩
  | simulationSize v nx dx ny dy nz dz => exact pyRaise_alike h _
  | variogram t r1 r2 r3 az dip pw => exact pyRaise_alike h _
  | corr1 | corr2 | corr3 | quote => exact .ok ⟨rfl, h⟩

theorem sameCalls_forall₂ {l l' : List (Env × PyCall)} (h : SameCalls l l') :
    List.Forall₂ (fun c c' : Env × PyCall => c.2 = c'.2) l l' := by
  unfold SameCalls at h
  induction l generalizing l' with
  | nil =>
    cases l' with
    | nil => exact .nil
    | cons _ _ => simp at h
  | cons a l ih =>
    cases l' with
    | nil => simp at h
    | cons b l' =>
      simp only [List.map_cons, List.cons.injEq] at h
      exact .cons h.1 (ih h.2)

/-! ## C10: reproducibility from a seed -/

/-- **C10.** After `seed(n)`, all replies to all calls depend on `n` and the calls only: not on the
state of the generator before, nor on the time or the contents of memory. If a call fails it fails
alike. -/
theorem seed_reproducible (S : Setup) (n : BitVec 64) (e e' : Env) {l l' : List (Env × PyCall)}
    (hl : SameCalls l l') {s s' : Random} (hs : s.dsfmt.status.length = 192)
    (hs' : s'.dsfmt.status.length = 192) :
    seen (session (pyCall S) ((e, .seed n) :: l) s)
      = seen (session (pyCall S) ((e', .seed n) :: l') s') := by
  refine seen_eq (R := Alike strip) ?_
  simp only [session, pyCall, initializeSeed_eq n hs, initializeSeed_eq n hs', Res.bind_ok]
  have h0 : Alike strip
      { s with startSeed := n, isInitialized := true, dsfmt := ⟨seedState (n.setWidth 32), 382⟩ }
      { s' with startSeed := n, isInitialized := true, dsfmt := ⟨seedState (n.setWidth 32), 382⟩ } :=
    ⟨rfl, rfl, rfl, Dsfmt.seed_admissible _, Dsfmt.seed_admissible _⟩
  refine (session_sim (R := Alike strip) (fun s s' c c' h hc => pyCall_alike strip_overlay
    (fun _ _ _ _ => rfl) S c c' hc (fun _ s s' h => ?_) h) (sameCalls_forall₂ hl) h0).bind
    fun r r' hr => .ok ⟨by simp only [hr.1], hr.2⟩
  have h5 : (strip s).startSeed = (strip s').startSeed := by rw [h]
  exact h5

/-- **C10**, for processes that use the Python module only. -/
theorem seed_reproducible_reachable (S : Setup) (n : BitVec 64) (e e' : Env)
    {l l' : List (Env × PyCall)} (hl : SameCalls l l') {s s' : Random} (hs : Reachable S s)
    (hs' : Reachable S s') :
    seen (session (pyCall S) ((e, .seed n) :: l) s)
      = seen (session (pyCall S) ((e', .seed n) :: l') s') := by
  obtain ⟨h, r, hr⟩ := hs
  obtain ⟨h', r', hr'⟩ := hs'
  exact seed_reproducible S n e e' hl (session_wf wf_initial hr).len (session_wf wf_initial hr').len

/-! ## C11: the seed in force -/

theorem pyCall_keepsSeed {S : Setup} {s s' : Random} {c : Env × PyCall} {r : PyReply}
    (hc : ¬ c.2.seeds) (hs : s.isInitialized = true) (h : pyCall S s c = .ok (r, s')) :
    s'.isInitialized = true ∧ s'.startSeed = s.startSeed := by
  obtain ⟨e, c⟩ := c
  unfold pyCall at h
  cases c with
  | seed n => exact absurd trivial hc
  | simulate =>
    obtain ⟨⟨out, s1⟩, h1, h2⟩ := Res.bind_eq_ok.1 h
    simp only [Res.ok.injEq, Prod.mk.injEq] at h2
    unfold simulate at h1
    rw [advancedSimulate_eq, ensureSeeded_seeded hs, Res.bind_ok] at h1
    rw [← h2.2]
    exact seededSimulate_seed hs h1
  | advancedSimulate =>
    obtain ⟨⟨out, s1⟩, h1, h2⟩ := Res.bind_eq_ok.1 h
    simp only [Res.ok.injEq, Prod.mk.injEq] at h2
    rw [advancedSimulate_eq, ensureSeeded_seeded hs, Res.bind_ok] at h1
    rw [← h2.2]
    exact seededSimulate_seed hs h1
  | getSeed => rw [pyRaise_state h]; exact ⟨hs, rfl⟩
  | simulationSize => rw [pyRaise_state h]; exact ⟨hs, rfl⟩
  | variogram => rw [pyRaise_state h]; exact ⟨hs, rfl⟩
  | corr1 | corr2 | corr3 | quote =>
    simp only [Res.ok.injEq, Prod.mk.injEq] at h
    rw [← h.2]; exact ⟨hs, rfl⟩

theorem session_keepsSeed {S : Setup} {l : List (Env × PyCall)} (hl : ∀ c ∈ l, ¬ c.2.seeds)
    {s s' : Random} {rs : List PyReply} (hs : s.isInitialized = true)
    (h : session (pyCall S) l s = .ok (rs, s')) :
    s'.isInitialized = true ∧ s'.startSeed = s.startSeed := by
  induction l generalizing s s' rs with
  | nil =>
    simp only [session, Res.ok.injEq, Prod.mk.injEq] at h
    rw [← h.2]; exact ⟨hs, rfl⟩
  | cons c l ih =>
    obtain ⟨⟨r, s1⟩, h1, h2⟩ := Res.bind_eq_ok.1 h
    obtain ⟨⟨rs', s2⟩, h3, h4⟩ := Res.bind_eq_ok.1 h2
    simp only [Res.ok.injEq, Prod.mk.injEq] at h4
    obtain ⟨a1, a2⟩ := pyCall_keepsSeed (hl c (by simp)) hs h1
    obtain ⟨b1, b2⟩ := ih (fun c hc => hl c (by simp [hc])) a1 h3
    rw [← h4.2]
    exact ⟨b1, b2.trans a2⟩

theorem session_append {σ ι ρ : Type} (step : σ → ι → Res (ρ × σ)) (l l' : List ι) (s : σ) :
    session step (l ++ l') s = (session step l s).bind fun r =>
      (session step l' r.2).bind fun q => .ok (r.1 ++ q.1, q.2) := by
  induction l generalizing s with
  | nil =>
    simp only [List.nil_append, session, Res.bind_ok]
    cases session step l' s <;> rfl
  | cons c l ih =>
    simp only [List.cons_append, session, ih, Res.bind_assoc, Res.bind_ok]

theorem getSeed_seeded {S : Setup} {e : Env} {s : Random} (h : s.isInitialized = true) :
    pyCall S s (e, .getSeed) = .ok (.int s.startSeed, s) := by
  simp [pyCall, Random.getStartSeed, h, pyRaise]

/-- **C11.** Whatever happened before `seed(n)` and whatever calls other than `seed(m)` came after it,
`seed()` returns `n`, and asking changes nothing. -/
theorem getSeed_last (S : Setup) (n : BitVec 64) (e e' : Env) {before after : List (Env × PyCall)}
    (ha : ∀ c ∈ after, ¬ c.2.seeds) {s : Random} {rs : List PyReply}
    (h : session (pyCall S) (before ++ (e, .seed n) :: after) .initial = .ok (rs, s)) :
    pyCall S s (e', .getSeed) = .ok (.int n, s) := by
  rw [session_append] at h
  obtain ⟨⟨r0, s0⟩, h0, h⟩ := Res.bind_eq_ok.1 h
  obtain ⟨⟨r1, s1⟩, h1, h⟩ := Res.bind_eq_ok.1 h
  simp only [Res.ok.injEq, Prod.mk.injEq] at h
  have hw := session_wf wf_initial h0
  simp only [session, pyCall, initializeSeed_eq n hw.len, Res.bind_ok] at h1
  obtain ⟨⟨r2, s2⟩, h2, h1⟩ := Res.bind_eq_ok.1 h1
  simp only [Res.ok.injEq, Prod.mk.injEq] at h1
  obtain ⟨a1, a2⟩ := session_keepsSeed ha rfl h2
  rw [← h.2, ← h1.2, getSeed_seeded a1, a2]

theorem pyCall_untouched {S : Setup} {s s' : Random} {c : Env × PyCall} {r : PyReply}
    (hc : ¬ c.2.seeds) (hc' : ¬ c.2.simulates) (h : pyCall S s c = .ok (r, s')) : s' = s := by
  obtain ⟨e, c⟩ := c
  unfold pyCall at h
  cases c with
  | seed n => exact absurd trivial hc
  | simulate => exact absurd trivial hc'
  | advancedSimulate => exact absurd trivial hc'
  | getSeed => exact pyRaise_state h
  | simulationSize => exact pyRaise_state h
  | variogram => exact pyRaise_state h
  | corr1 | corr2 | corr3 | quote =>
    simp only [Res.ok.injEq, Prod.mk.injEq] at h
    exact h.2.symm

/-- Calls that neither seed nor simulate leave the generator alone. -/
theorem session_untouched {S : Setup} {l : List (Env × PyCall)}
    (hl : ∀ c ∈ l, ¬ c.2.seeds ∧ ¬ c.2.simulates) {s s' : Random} {rs : List PyReply}
    (h : session (pyCall S) l s = .ok (rs, s')) : s' = s := by
  induction l generalizing s s' rs with
  | nil =>
    simp only [session, Res.ok.injEq, Prod.mk.injEq] at h
    exact h.2.symm
  | cons c l ih =>
    obtain ⟨⟨r, s1⟩, h1, h2⟩ := Res.bind_eq_ok.1 h
    obtain ⟨⟨rs', s2⟩, h3, h4⟩ := Res.bind_eq_ok.1 h2
    simp only [Res.ok.injEq, Prod.mk.injEq] at h4
    obtain ⟨c1, c2⟩ := hl c (by simp)
    rw [← h4.2, ih (fun c hc => hl c (by simp [hc])) h3]
    exact pyCall_untouched c1 c2 h1

/-- **C11.** Before the first `seed(n)` and the first simulation `seed()` raises. -/
theorem getSeed_raises (S : Setup) (e : Env) {l : List (Env × PyCall)}
    (hl : ∀ c ∈ l, ¬ c.2.seeds ∧ ¬ c.2.simulates) {s : Random} {rs : List PyReply}
    (h : session (pyCall S) l .initial = .ok (rs, s)) :
    ∃ m, pyCall S s (e, .getSeed) = .ok (.raised m, s) := by
  rw [session_untouched hl h]
  exact ⟨_, rfl⟩

theorem session_stays {S : Setup} {l : List (Env × PyCall)} {s s' : Random} {rs : List PyReply}
    (hs : s.isInitialized = true) (hw : WF s) (h : session (pyCall S) l s = .ok (rs, s')) :
    s'.isInitialized = true := by
  induction l generalizing s s' rs with
  | nil =>
    simp only [session, Res.ok.injEq, Prod.mk.injEq] at h
    rw [← h.2]; exact hs
  | cons c l ih =>
    obtain ⟨⟨r, s1⟩, h1, h2⟩ := Res.bind_eq_ok.1 h
    obtain ⟨⟨rs', s2⟩, h3, h4⟩ := Res.bind_eq_ok.1 h2
    simp only [Res.ok.injEq, Prod.mk.injEq] at h4
    rw [← h4.2]
    refine ih ?_ (pyCall_wf hw h1) h3
    by_cases hc : c.2.seeds
    · obtain ⟨e, c⟩ := c
      cases c with
      | seed n =>
        simp only [pyCall, initializeSeed_eq n hw.len, Res.bind_ok, Res.ok.injEq,
          Prod.mk.injEq] at h1
        rw [← h1.2]
      | _ => exact absurd hc id
    · exact (pyCall_keepsSeed hc hs h1).1

/-- After a simulation `seed()` does not raise, in whatever process. -/
theorem getSeed_after_simulation (S : Setup) (e : Env) {l l' : List (Env × PyCall)}
    {c : Env × PyCall} (hc : c.2.simulates) {s : Random} {rs : List PyReply}
    (h : session (pyCall S) (l ++ c :: l') .initial = .ok (rs, s)) :
    ∃ n, pyCall S s (e, .getSeed) = .ok (.int n, s) := by
  rw [session_append] at h
  obtain ⟨⟨r0, s0⟩, h0, h⟩ := Res.bind_eq_ok.1 h
  obtain ⟨⟨r1, s1⟩, h1, h⟩ := Res.bind_eq_ok.1 h
  simp only [Res.ok.injEq, Prod.mk.injEq] at h
  have hw := session_wf wf_initial h0
  obtain ⟨⟨r2, s2⟩, h2, h1⟩ := Res.bind_eq_ok.1 h1
  obtain ⟨⟨r3, s3⟩, h3, h1⟩ := Res.bind_eq_ok.1 h1
  simp only [Res.ok.injEq, Prod.mk.injEq] at h1
  have hi : s2.isInitialized = true := by
    obtain ⟨e0, c⟩ := c
    unfold pyCall at h2
    cases c with
    | simulate =>
      obtain ⟨⟨out, s4⟩, h4, h5⟩ := Res.bind_eq_ok.1 h2
      simp only [Res.ok.injEq, Prod.mk.injEq] at h5
      rw [← h5.2]
      exact (advancedSimulate_wf hw h4).2
    | advancedSimulate =>
      obtain ⟨⟨out, s4⟩, h4, h5⟩ := Res.bind_eq_ok.1 h2
      simp only [Res.ok.injEq, Prod.mk.injEq] at h5
      rw [← h5.2]
      exact (advancedSimulate_wf hw h4).2
    | _ => exact absurd hc (by simp [PyCall.simulates])
  have h6 : s3.isInitialized = true := session_stays hi (pyCall_wf hw h2) h3
  exact ⟨_, by rw [← h.2, ← h1.2]; exact getSeed_seeded h6⟩


/-! ## C12: an automatically seeded run can be replayed -/

theorem advancedSimulate_unseeded (S : Setup) (e : Env) {s : Random}
    (hi : s.isInitialized = false) (hs : s.dsfmt.status.length = 192) :
    ∃ r : BitVec 64, ∀ (v : Variogram) (nx : ℕ) (dx : ℝ) (ny : ℕ) (dy : ℝ) (nz : ℕ) (dz : ℝ)
      (padx pady padz : ℤ) (sx sy sz : ℝ), ∃ s1, s.initializeSeed r = .ok s1 ∧
      s1.isInitialized = true ∧ s1.startSeed = r ∧
      advancedSimulate S e v nx dx ny dy nz dz padx pady padz sx sy sz s
        = advancedSimulate S e v nx dx ny dy nz dz padx pady padz sx sy sz s1 := by
  obtain ⟨r, hr⟩ := initializeTime_eq S.b e.time hs
  refine ⟨r.setWidth 64, fun v nx dx ny dy nz dz padx pady padz sx sy sz => ?_⟩
  refine ⟨_, initializeSeed_eq _ hs, rfl, rfl, ?_⟩
  rw [advancedSimulate_eq, advancedSimulate_eq, ensureSeeded_unseeded hi, hr, Res.bind_ok,
    ensureSeeded_seeded rfl, Res.bind_ok]
  have : (BitVec.setWidth 64 r).setWidth 32 = r := by
    rw [BitVec.setWidth_setWidth_of_le _ (by norm_num), BitVec.setWidth_eq]
  simp only [this]

/-- The first simulation of a process without a seed acts as if a certain seed had been set. -/
theorem pyCall_unseeded (S : Setup) (e : Env) {s : Random} (hi : s.isInitialized = false)
    (hs : s.dsfmt.status.length = 192) :
    ∃ r : BitVec 64, ∀ c : PyCall, c.simulates → ∃ s1, s.initializeSeed r = .ok s1 ∧
      s1.isInitialized = true ∧ s1.startSeed = r ∧ pyCall S s (e, c) = pyCall S s1 (e, c) := by
  obtain ⟨r, hr⟩ := advancedSimulate_unseeded S e hi hs
  refine ⟨r, fun c hc => ?_⟩
  cases c with
  | simulate v nx dx ny dy nz dz =>
    obtain ⟨s1, h1, h2, h3, h4⟩ := hr v nx dx ny dy nz dz (-1) (-1) (-1) 1.0 1.0 1.0
    refine ⟨s1, h1, h2, h3, ?_⟩
    unfold pyCall simulate
    simp only [h4]
  | advancedSimulate v nx dx ny dy nz dz px py pz sx sy sz =>
    obtain ⟨s1, h1, h2, h3, h4⟩ := hr v nx dx ny dy nz dz px py pz sx sy sz
    refine ⟨s1, h1, h2, h3, ?_⟩
    unfold pyCall
    simp only [h4]
  | _ => exact absurd hc id

/-- **C12.** Let the first call that uses the generator be a simulation `c`, followed by calls `l`. Then
there is a number `r`, which depends on the time only, such that `seed()` after `c` returns `r`, and
that `seed(r)` in any process, at any time, followed by `c` and `l` gives the same replies. -/
theorem unseeded_replay (S : Setup) (e : Env) :
    ∃ r : BitVec 64, ∀ (before : List (Env × PyCall)) (c : PyCall) (l l' : List (Env × PyCall))
      (e' e'' e₀ : Env) (s s' : Random) (rs : List PyReply),
      (∀ c ∈ before, ¬ c.2.seeds ∧ ¬ c.2.simulates) → c.simulates →
      session (pyCall S) before .initial = .ok (rs, s) →
      (∀ reply s1, pyCall S s (e, c) = .ok (reply, s1) →
        pyCall S s1 (e', .getSeed) = .ok (.int r, s1)) ∧
      (SameCalls l l' → s'.dsfmt.status.length = 192 →
        seen (session (pyCall S) ((e₀, .seed r) :: (e'', c) :: l') s')
          = (seen (session (pyCall S) ((e, c) :: l) s)).bind fun rs => .ok (.none :: rs)) := by
  obtain ⟨r, hr⟩ := pyCall_unseeded S e (s := .initial) rfl wf_initial.len
  refine ⟨r, fun before c l l' e' e'' e₀ s s' rs hb hc hs => ?_⟩
  obtain rfl := session_untouched hb hs
  obtain ⟨s1, h1, h2, h3, h4⟩ := hr c hc
  constructor
  · intro reply s2 h
    rw [h4] at h
    obtain ⟨a1, a2⟩ := pyCall_keepsSeed (c := (e, c))
      (by cases c <;> first | exact id | exact absurd hc id) h2 h
    rw [getSeed_seeded a1, a2, h3]
  · intro hl hs'
    have := seed_reproducible S r e₀ e (l := (e'', c) :: l') (l' := (e, c) :: l)
      (by unfold SameCalls at hl ⊢; simp [hl]) hs' wf_initial.len
    rw [this]
    simp only [seen, session]
    have e0 : pyCall S Random.initial (e, .seed r) = .ok (.none, s1) := by
      simp only [pyCall, h1, Res.bind_ok]
    rw [e0, h4]
    simp only [Res.bind_ok, Res.bind_assoc]

/-! ## C13: one- and two-dimensional fields use one number each -/

theorem pyCall_flat {S : Setup} {s s' : Random} {c : Env × PyCall} {r : PyReply}
    (hc : c.2.simulatesFlat) (hs : s.isInitialized = true) (h : pyCall S s c = .ok (r, s')) :
    ∃ n, s.drawUint32 S.b = .ok (n, s') := by
  obtain ⟨e, c⟩ := c
  unfold pyCall at h
  cases c with
  | simulate v nx dx ny dy nz dz =>
    obtain ⟨⟨out, s1⟩, h1, h2⟩ := Res.bind_eq_ok.1 h
    simp only [Res.ok.injEq, Prod.mk.injEq] at h2
    unfold simulate at h1
    rw [advancedSimulate_eq, ensureSeeded_seeded hs, Res.bind_ok] at h1
    rw [← h2.2]
    exact seededSimulate_flat S e v nx dx ny dy nz dz _ _ _ _ _ _ hc h1
  | advancedSimulate v nx dx ny dy nz dz px py pz sx sy sz =>
    obtain ⟨⟨out, s1⟩, h1, h2⟩ := Res.bind_eq_ok.1 h
    simp only [Res.ok.injEq, Prod.mk.injEq] at h2
    rw [advancedSimulate_eq, ensureSeeded_seeded hs, Res.bind_ok] at h1
    rw [← h2.2]
    exact seededSimulate_flat S e v nx dx ny dy nz dz _ _ _ _ _ _ hc h1
  | _ => exact absurd hc id

/-- **C13.** Simulating `l.length` one- or two-dimensional fields advances the global stream by
`l.length` integer draws, whatever the fields are. -/
theorem flat_advance (S : Setup) {l : List (Env × PyCall)} (hl : ∀ c ∈ l, c.2.simulatesFlat)
    {s s' : Random} {rs : List PyReply} (hs : s.isInitialized = true)
    (h : session (pyCall S) l s = .ok (rs, s')) :
    ∃ ns, session (RngCall.onGlobal S.b) (List.replicate l.length .drawUint32) s = .ok (ns, s') := by
  induction l generalizing s s' rs with
  | nil =>
    simp only [session, Res.ok.injEq, Prod.mk.injEq] at h
    exact ⟨[], by rw [← h.2]; rfl⟩
  | cons c l ih =>
    obtain ⟨⟨r, s1⟩, h1, h2⟩ := Res.bind_eq_ok.1 h
    obtain ⟨⟨rs', s2⟩, h3, h4⟩ := Res.bind_eq_ok.1 h2
    simp only [Res.ok.injEq, Prod.mk.injEq] at h4
    have hc := hl c (by simp)
    obtain ⟨n, hn⟩ := pyCall_flat hc hs h1
    have hns : ¬ c.2.seeds := by
      obtain ⟨e, c⟩ := c
      cases c <;> first | exact id | exact absurd hc id
    obtain ⟨ns, hns⟩ := ih (fun c hc => hl c (by simp [hc])) (pyCall_keepsSeed hns hs h1).1 h3
    refine ⟨.int n :: ns, ?_⟩
    rw [List.length_cons, List.replicate_succ]
    simp only [session, RngCall.onGlobal, hn, Res.bind_ok, hns, h4.2]

theorem session_alike {S : Setup} {l l' : List (Env × PyCall)} (hl : SameCalls l l')
    {s s' : Random} (h : Alike strip s s') :
    seen (session (pyCall S) l s) = seen (session (pyCall S) l' s') := by
  refine seen_eq (R := Alike strip) (session_sim (fun s s' c c' h hc => pyCall_alike strip_overlay
    (fun _ _ _ _ => rfl) S c c' hc (fun _ s s' h => ?_) h) (sameCalls_forall₂ hl) h)
  have h5 : (strip s).startSeed = (strip s').startSeed := by rw [h]
  exact h5

theorem draws_strip (b : Build) (k : ℕ) {s s' : Random} (h : strip s = strip s') :
    Sim false (fun r r' => r.1 = r'.1 ∧ strip r.2 = strip r'.2)
      (session (RngCall.onGlobal b) (List.replicate k .drawUint32) s)
      (session (RngCall.onGlobal b) (List.replicate k .drawUint32) s') := by
  refine session_sim (P := fun c c' => c = .drawUint32 ∧ c' = .drawUint32)
    (R := fun s s' => strip s = strip s') ?_ ?_ h
  · rintro s s' c c' hs ⟨rfl, rfl⟩
    have h1 := strip_overlay.drawUint32 b s
    rw [hs, strip_overlay.drawUint32 b s'] at h1
    exact (sim_of_mapState h1.symm).bind fun r r' hr => .ok ⟨by simp only [hr.1], hr.2⟩
  · induction k with
    | zero => exact .nil
    | succ k ih => exact .cons ⟨rfl, rfl⟩ ih

/-- **C13.** So what is replied after `seed(n)` and a number of one- or two-dimensional fields is the
same for all sizes, variograms and settings of those fields. -/
theorem flat_next (S : Setup) (n : BitVec 64) (e e' : Env) {l l' next next' : List (Env × PyCall)}
    (hl : ∀ c ∈ l, c.2.simulatesFlat) (hl' : ∀ c ∈ l', c.2.simulatesFlat)
    (hlen : l.length = l'.length) (hnext : SameCalls next next') {s s' s1 s2 : Random}
    {rs rs' : List PyReply} (hs : s.dsfmt.status.length = 192) (hs' : s'.dsfmt.status.length = 192)
    (h1 : session (pyCall S) ((e, .seed n) :: l) s = .ok (rs, s1))
    (h2 : session (pyCall S) ((e', .seed n) :: l') s' = .ok (rs', s2)) :
    seen (session (pyCall S) next s1) = seen (session (pyCall S) next' s2) := by
  simp only [session, pyCall, initializeSeed_eq n hs, initializeSeed_eq n hs', Res.bind_ok] at h1 h2
  obtain ⟨⟨q1, t1⟩, g1, e1⟩ := Res.bind_eq_ok.1 h1
  obtain ⟨⟨q2, t2⟩, g2, e2⟩ := Res.bind_eq_ok.1 h2
  simp only [Res.ok.injEq, Prod.mk.injEq] at e1 e2
  obtain ⟨-, rfl⟩ := e1
  obtain ⟨-, rfl⟩ := e2
  obtain ⟨n1, d1⟩ := flat_advance S hl rfl g1
  obtain ⟨n2, d2⟩ := flat_advance S hl' rfl g2
  have w1 : WF t1 := session_wf (wf_seeded _ s n) g1
  have w2 : WF t2 := session_wf (wf_seeded _ s' n) g2
  have i1 := session_stays rfl (wf_seeded _ s n) g1
  have i2 := session_stays rfl (wf_seeded _ s' n) g2
  have key := draws_strip S.b l'.length
    (s := { s with startSeed := n, isInitialized := true, dsfmt := ⟨seedState (n.setWidth 32), 382⟩ })
    (s' := { s' with startSeed := n, isInitialized := true, dsfmt := ⟨seedState (n.setWidth 32), 382⟩ })
    rfl
  rw [← hlen, d1, hlen, d2] at key
  cases key with
  | ok key => exact session_alike hnext ⟨key.2, i1, i2, w1.adm i1, w2.adm i2⟩

/-! ## C14: seeds that agree in the low 32 bits -/

/-- **C14**, what the code does: two seeds that agree modulo 2^32 give the same replies to all calls but
`seed()`. -/
theorem seed_mod_32 (S : Setup) {n n' : BitVec 64} (hn : n.setWidth 32 = n'.setWidth 32)
    (e e' : Env) {l l' : List (Env × PyCall)} (hl : SameCalls l l') (hg : ∀ c ∈ l, c.2 ≠ .getSeed)
    {s s' : Random} (hs : s.dsfmt.status.length = 192) (hs' : s'.dsfmt.status.length = 192) :
    seen (session (pyCall S) ((e, .seed n) :: l) s)
      = seen (session (pyCall S) ((e', .seed n') :: l') s') := by
  refine seen_eq (R := Alike forget) ?_
  simp only [session, pyCall, initializeSeed_eq n hs, initializeSeed_eq n' hs', Res.bind_ok]
  have h0 : Alike forget
      { s with startSeed := n, isInitialized := true, dsfmt := ⟨seedState (n.setWidth 32), 382⟩ }
      { s' with
        startSeed := n', isInitialized := true, dsfmt := ⟨seedState (n'.setWidth 32), 382⟩ } :=
    ⟨by unfold forget; simp only [hn], rfl, rfl, Dsfmt.seed_admissible _, Dsfmt.seed_admissible _⟩
  have hP : List.Forall₂ (fun c c' : Env × PyCall => c.2 = c'.2 ∧ c.2 ≠ .getSeed) l l' := by
    have := sameCalls_forall₂ hl
    clear hl
    induction this with
    | nil => exact .nil
    | cons h _ ih => exact .cons ⟨h, hg _ (by simp)⟩ (ih fun c hc => hg c (by simp [hc]))
  refine (session_sim (R := Alike forget) (fun s s' c c' h hc => pyCall_alike forget_overlay
    (fun _ _ _ _ => rfl) S c c' hc.1 (fun h => absurd h hc.2) h) hP h0).bind
    fun r r' hr => .ok ⟨by simp only [hr.1], hr.2⟩

/-- **C14**, refutation. The seeds 1 and 2^32 + 1 are different and reported as different, but all
results after them are the same. -/
theorem seed_differs_refuted (S : Setup) :
    ∃ n n' : BitVec 64, n ≠ n' ∧
      (∀ (e : Env) (s : Random), s.dsfmt.status.length = 192 →
        seen (session (pyCall S) [(e, .seed n), (e, .getSeed)] s) = .ok [.none, .int n] ∧
        seen (session (pyCall S) [(e, .seed n'), (e, .getSeed)] s) = .ok [.none, .int n']) ∧
      ∀ (e e' : Env) (l l' : List (Env × PyCall)), SameCalls l l' → (∀ c ∈ l, c.2 ≠ .getSeed) →
        ∀ s s' : Random, s.dsfmt.status.length = 192 → s'.dsfmt.status.length = 192 →
        seen (session (pyCall S) ((e, .seed n) :: l) s)
          = seen (session (pyCall S) ((e', .seed n') :: l') s') := by
  refine ⟨1#64, 0x100000001#64, by decide, fun e s hs => ?_, fun e e' l l' hl hg s s' hs hs' => ?_⟩
  · constructor <;>
    simp only [session, pyCall, initializeSeed_eq _ hs, Res.bind_ok, Random.getStartSeed] <;> rfl
  · exact seed_mod_32 S (by decide) e e' hl hg hs hs'

/-! ## Concrete cases -/

/-- An environment. -/
def someEnv : Env := ⟨1000#64, Random.initial.dsfmt, List.length_replicate⟩

/-- A session: a fresh process seeded with 7. -/
example (S : Setup) : session (pyCall S) [(someEnv, .getSeed), (someEnv, .seed 7#64),
    (someEnv, .quote), (someEnv, .getSeed)] .initial = .ok
      ([.raised "Random number generator is not initalized.", .none, .text quoteText, .int 7#64],
        ⟨true, 7#64, Random.initial.useSeedFile, Random.initial.seedFile,
          ⟨seedState 7#32, 382⟩⟩) := by
  have h1 : pyCall S Random.initial (someEnv, .getSeed)
      = .ok (.raised "Random number generator is not initalized.", .initial) := rfl
  have h2 : pyCall S Random.initial (someEnv, .seed 7#64) = .ok (.none,
      ⟨true, 7#64, Random.initial.useSeedFile, Random.initial.seedFile, ⟨seedState 7#32, 382⟩⟩) := by
    simp only [pyCall, initializeSeed_eq _ wf_initial.len, Res.bind_ok]
    rfl
  have h3 : ∀ s, pyCall S s (someEnv, .quote) = .ok (.text quoteText, s) := fun _ => rfl
  simp only [session, h1, h2, h3, Res.bind_ok]
  rw [getSeed_seeded rfl]
  rfl

/-- Two reachable states that differ: the hypotheses of `seed_reproducible_reachable` hold for them. -/
example (S : Setup) : ∃ s s', Reachable S s ∧ Reachable S s' ∧ s ≠ s' := by
  refine ⟨.initial, ⟨true, 7#64, Random.initial.useSeedFile, Random.initial.seedFile,
    ⟨seedState 7#32, 382⟩⟩, ⟨[], [], rfl⟩, ⟨[(someEnv, .seed 7#64)], [.none], ?_⟩, ?_⟩
  · simp only [session, pyCall, initializeSeed_eq _ wf_initial.len, Res.bind_ok]
    rfl
  · intro h
    exact absurd (congrArg Random.isInitialized h) (by decide)

end Verif
