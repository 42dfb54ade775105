import Verif.Model.LogKit
import Verif.Lemmas.Outcome
import Mathlib.Tactic.SplitIfs
import Mathlib.Tactic.NormNum
import Mathlib.Tactic.Tauto

/-!
# C161: the log
-/

namespace Verif

namespace LogKit

/-! ## Streams -/

theorem phased_fold (ig : Bool) : ∀ (l : List ℕ) (s : Stream),
    (l.foldl (fun s l => (⟨s.id, s.levels ++ [l], if ig then s.full else s.full ||| l, s.log⟩ : Stream)) s) =
      ⟨s.id, s.levels ++ l, if ig then s.full else l.foldl (· ||| ·) s.full, s.log⟩ := by
  intro l
  induction l with
  | nil => intro s; cases s; simp
  | cons a l ih =>
    intro s
    rw [List.foldl_cons, ih]
    cases ig <;> simp

theorem phased_eq (id : ℕ) (l : List ℕ) (ig : Bool) : Stream.phased id l ig = ⟨id, l, if ig then 0 else l.foldl (· ||| ·) 0, []⟩ := by
  unfold Stream.phased
  rw [phased_fold]
  simp

theorem or_and_ne (a b c : ℕ) : (a ||| b) &&& c ≠ 0 ↔ a &&& c ≠ 0 ∨ b &&& c ≠ 0 := by
  rw [Nat.and_or_distrib_right, ne_eq, Nat.or_eq_zero_iff]
  tauto

theorem fold_and (c : ℕ) : ∀ (l : List ℕ) (a : ℕ), l.foldl (· ||| ·) a &&& c ≠ 0 ↔ a &&& c ≠ 0 ∨ ∃ x ∈ l, x &&& c ≠ 0 := by
  intro l
  induction l with
  | nil => intro a; simp
  | cons b l ih =>
    intro a
    rw [List.foldl_cons, ih, or_and_ne]
    simp only [List.mem_cons, exists_eq_or_imp]
    tauto

/-- A message without a phase is sent to the streams that would send it in at least one phase, unless they ignore such messages. -/
theorem log_should (id : ℕ) (l : List ℕ) (ig : Bool) (level : ℕ) :
    (Stream.phased id l ig).should level = true ↔ ig = false ∧ ∃ x ∈ l, x &&& level ≠ 0 := by
  rw [phased_eq]
  unfold Stream.should
  cases ig
  · have := fold_and level l 0
    simp only [Nat.zero_and, ne_eq, not_true_eq_false, false_or] at this
    simpa using this
  · simp

/-- A message with a phase is sent to the streams with its level in the phase; in phases after the last one to those with its level in
any phase. -/
theorem log_should_phase (id : ℕ) (l : List ℕ) (ig : Bool) (level phase : ℕ) :
    ∃ b, (Stream.phased id l ig).shouldPhase level phase = .ok b ∧
      (b = true ↔ (∃ h : phase < l.length, l[phase] &&& level ≠ 0) ∨ l.length ≤ phase ∧ ig = false ∧ ∃ x ∈ l, x &&& level ≠ 0) := by
  have hs := log_should id l ig level
  rw [phased_eq] at hs ⊢
  unfold Stream.should at hs
  simp only [ne_eq, decide_not, Bool.not_eq_true', decide_eq_false_iff_not] at hs
  unfold Stream.shouldPhase
  simp only [Nat.cast_lt, Int.toNat_natCast]
  by_cases h : phase < l.length
  · rw [if_pos h, if_neg (by omega), Res.monad_bind_eq, rd_ok h, Res.bind_ok]
    refine ⟨_, rfl, ?_⟩
    rw [Nat.and_comm level]
    constructor
    · intro hb
      left
      refine ⟨h, ?_⟩
      by_contra hc
      rw [hc] at hb
      simp at hb
    · rintro (⟨_, hb⟩ | ⟨hb, _⟩)
      · rw [if_pos (Nat.pos_of_ne_zero hb)]
      · omega
  · rw [if_neg h, Nat.and_comm level]
    by_cases hf : (if ig then 0 else l.foldl (· ||| ·) 0) &&& level = 0
    · rw [if_neg (by omega)]
      refine ⟨false, rfl, ?_⟩
      have : ¬ (ig = false ∧ ∃ x ∈ l, x &&& level ≠ 0) := fun hc => hs.2 hc hf
      constructor
      · intro hb; cases hb
      · rintro (⟨hc, _⟩ | ⟨_, hc⟩)
        · omega
        · exact absurd hc this
    · rw [if_pos (Nat.pos_of_ne_zero hf)]
      exact ⟨true, rfl, fun _ => Or.inr ⟨by omega, hs.1 hf⟩, fun _ => rfl⟩

/-- A stream without the messages of the library has no message of phase 0, and the others by their level. -/
theorem log_without_library (id levels level phase : ℕ) : ∃ b, (fileStream id levels false).shouldPhase level phase = .ok b ∧
    (b = true ↔ 0 < phase ∧ levels &&& level ≠ 0) := by
  obtain ⟨b, e, h⟩ := log_should_phase id [0, levels] false level phase
  refine ⟨b, e, ?_⟩
  rw [h]
  rcases phase with _ | _ | p <;> simp

/-- A stream independent of phases has the messages of its levels. -/
theorem log_with_library (id levels level : ℕ) : (∀ phase : ℕ, ∃ b, (fileStream id levels true).shouldPhase level phase = .ok b ∧
    (b = true ↔ levels &&& level ≠ 0)) ∧ ((fileStream id levels true).should level = true ↔ levels &&& level ≠ 0) := by
  constructor
  · intro phase
    unfold fileStream Stream.single Stream.shouldPhase
    simp only [if_true, List.length_nil, Nat.cast_zero]
    rw [if_neg (by omega), Nat.and_comm]
    by_cases h : levels &&& level = 0
    · rw [if_neg (by omega)]
      exact ⟨false, rfl, by simp [h]⟩
    · rw [if_pos (Nat.pos_of_ne_zero h)]
      exact ⟨true, rfl, by simp [h]⟩
  · simp [fileStream, Stream.single, Stream.should]

/-- A stream for one phase has the messages of this phase only, among the first thousand. -/
theorem log_one_phase_partial {id levels level phase p : ℕ} {ig : Bool} (h : phase < 1000) (hp : p < 1000) :
    ∃ s b, phaseStream id levels phase ig = .ok s ∧ s.shouldPhase level p = .ok b ∧ (b = true ↔ p = phase ∧ levels &&& level ≠ 0) := by
  obtain ⟨b, e, hb⟩ := log_should_phase id ((List.replicate 1000 0).set phase levels) ig level p
  refine ⟨_, b, ?_, e, ?_⟩
  · unfold phaseStream
    rw [if_neg (by omega), Res.monad_bind_eq, Int.toNat_natCast, wr_ok (by rw [List.length_replicate]; exact h), Res.bind_ok]
  · rw [hb]
    simp only [List.length_set, List.length_replicate]
    constructor
    · rintro (⟨h', hc⟩ | ⟨hc, _⟩)
      · rw [List.getElem_set] at hc
        split_ifs at hc with he
        · exact ⟨he.symm, hc⟩
        · rw [List.getElem_replicate, Nat.zero_and] at hc
          exact absurd rfl hc
      · omega
    · rintro ⟨rfl, hc⟩
      exact Or.inl ⟨h, by rw [List.getElem_set_self]; exact hc⟩

/-- It has the messages of all phases from the thousandth on too, and such a phase cannot be asked for. -/
theorem log_one_phase_violation : (∃ s, phaseStream 0 1 3 false = .ok s ∧ s.shouldPhase 1 1000 = .ok true) ∧
    ∃ m, phaseStream 0 1 1000 false = .ub m := by
  refine ⟨⟨.phased 0 ((List.replicate 1000 0).set 3 1) false, ?_, ?_⟩, "write out of range", ?_⟩
  · unfold phaseStream
    rw [if_neg (by omega), Res.monad_bind_eq, show (3 : ℤ).toNat = 3 from rfl, wr_ok (by rw [List.length_replicate]; omega), Res.bind_ok]
  · obtain ⟨b, e, hb⟩ := log_should_phase 0 ((List.replicate 1000 0).set 3 1) false 1 1000
    have : b = true := hb.2 (Or.inr ⟨by rw [List.length_set, List.length_replicate], rfl, 1,
      List.mem_set (by rw [List.length_replicate]; omega) _, by decide⟩)
    rw [this] at e
    exact e
  · unfold phaseStream
    rw [if_neg (by omega), Res.monad_bind_eq]
    unfold wr
    rw [if_neg (by rw [List.length_replicate]; decide)]
    rfl

/-! ## The kit -/

/-- A message: its level, its phase if it has one, and its text. -/
structure Call where
  level : ℕ
  phase : Option ℕ
  text : List Char

/-- The message is sent. -/
def Kit.call (k : Kit) (c : Call) : Res Kit :=
  match c.phase with
  | none => k.log c.level c.text
  | some p => k.logPhase c.level p c.text

/-- Messages are sent one after the other. -/
def Kit.calls (k : Kit) : List Call → Res Kit
  | [] => .ok k
  | c :: l => do
    let k' ← k.call c
    k'.calls l

/-- Whether a stream takes a message. -/
def Takes (s : Stream) (c : Call) : Prop :=
  match c.phase with
  | none => s.full &&& c.level ≠ 0
  | some p => if h : p < s.levels.length then s.levels[p] &&& c.level ≠ 0 else s.full &&& c.level ≠ 0

instance (s : Stream) (c : Call) : Decidable (Takes s c) := by unfold Takes; split <;> [infer_instance; (split <;> infer_instance)]

/-- A stream after a message with a given text. -/
def Stream.after (s : Stream) (c : Call) (t : List Char) : Stream := if Takes s c then { s with log := s.log ++ [t] } else s

theorem putPhase_after (s : Stream) (level p : ℕ) (x t : List Char) : s.putPhase level p t = .ok (s.after ⟨level, some p, x⟩ t) := by
  unfold Stream.putPhase Stream.shouldPhase Stream.after Takes
  simp only [Nat.cast_lt, Int.toNat_natCast]
  by_cases h : p < s.levels.length
  · rw [if_pos h, if_neg (by omega), rd_ok h]
    simp only [Res.monad_bind_eq, Res.bind_ok, h, dite_true, Nat.and_comm level]
    by_cases e : s.levels[p] &&& level = 0 <;> simp [e, Nat.pos_iff_ne_zero]
  · rw [if_neg h, Nat.and_comm level]
    by_cases e : s.full &&& level = 0 <;> simp [h, e, Nat.pos_iff_ne_zero, Res.monad_bind_eq]

theorem put_after (s : Stream) (level : ℕ) (x t : List Char) : s.put level t = s.after ⟨level, none, x⟩ t := by
  unfold Stream.put Stream.should Stream.after Takes
  by_cases e : s.full &&& level = 0 <;> simp [e]

/-- The message as it is in the buffer. -/
def Call.msg (c : Call) (t : List Char) : Msg := ⟨t, match c.phase with | none => -1 | some p => p, c.level⟩

/-- **Sending.** A message of a level up to 64 is counted, gets the prefix of its level, is added to the streams that take it and to the
buffer if there is one. -/
theorem log_call (k : Kit) (c : Call) (hc : k.counts.length = 65) (hp : k.pre.length = 65) (hl : c.level ≤ 64) :
    k.call c = .ok { k with
      counts := k.counts.set c.level (k.counts[c.level]'(by omega) + 1)
      streams := k.streams.map (fun s => s.after c (k.pre[c.level]'(by omega) ++ c.text))
      buffer := k.buffer.map (· ++ [c.msg (k.pre[c.level]'(by omega) ++ c.text)]) } := by
  obtain ⟨level, phase, text⟩ := c
  simp only at hl
  unfold Kit.call
  cases phase with
  | none =>
    simp only
    unfold Kit.log
    rw [Res.monad_bind_eq, rd_ok (by omega), Res.bind_ok, Res.monad_bind_eq, wr_ok (by omega), Res.bind_ok, Res.monad_bind_eq,
      rd_ok (by omega), Res.bind_ok]
    simp only [Kit.send, Call.msg]
    congr 3
    funext s
    exact put_after s level text _
  | some p =>
    simp only
    unfold Kit.logPhase
    have E : ∀ (t : List Char) (l : List Stream), putEach level p t l = .ok (l.map (fun s => s.after ⟨level, some p, text⟩ t)) := by
      intro t l
      induction l with
      | nil => rfl
      | cons s l ih =>
        simp only [putEach]
        rw [Res.monad_bind_eq, putPhase_after s level p text t, Res.bind_ok, Res.monad_bind_eq, ih, Res.bind_ok]
        rfl
    rw [Res.monad_bind_eq, rd_ok (by omega), Res.bind_ok, Res.monad_bind_eq, wr_ok (by omega), Res.bind_ok, Res.monad_bind_eq,
      rd_ok (by omega), Res.bind_ok, Res.monad_bind_eq, E, Res.bind_ok]
    simp only [Kit.send, Call.msg]

theorem dump_cons (a : Msg) (l : List Msg) (s : Stream) : dump (a :: l) s =
    if a.phase < 0 then dump l (s.put a.level a.text) else (s.putPhase a.level a.phase a.text).bind fun s' => dump l s' := rfl

theorem dump_append : ∀ (l : List Msg) (m : Msg) (s : Stream), dump (l ++ [m]) s = (dump l s).bind (fun s' => dump [m] s') := by
  intro l
  induction l with
  | nil => intro m s; rfl
  | cons a l ih =>
    intro m s
    rw [List.cons_append, dump_cons, dump_cons a l]
    by_cases h : a.phase < 0
    · rw [if_pos h, if_pos h]
      exact ih m _
    · rw [if_neg h, if_neg h]
      cases s.putPhase a.level a.phase a.text with
      | ok s' => rw [Res.bind_ok, Res.bind_ok]; exact ih m s'
      | _ => rfl

theorem dump_msg (c : Call) (t : List Char) (s : Stream) : dump [c.msg t] s = .ok (s.after c t) := by
  obtain ⟨level, phase, text⟩ := c
  rw [dump_cons]
  cases phase with
  | none =>
    rw [if_pos (show (Call.msg ⟨level, none, text⟩ t).phase < 0 from (by norm_num : (-1 : ℤ) < 0))]
    show dump [] (s.put level t) = _
    rw [put_after s level text t]
    rfl
  | some p =>
    rw [if_neg (show ¬ (Call.msg ⟨level, some p, text⟩ t).phase < 0 from (by omega : ¬ (p : ℤ) < 0))]
    show (s.putPhase level p t).bind _ = _
    rw [putPhase_after s level p text t, Res.bind_ok]
    rfl

theorem calls_add : ∀ (l : List Call) (k : Kit) (b : List Msg) (s s' : Stream), k.counts.length = 65 → k.pre.length = 65 →
    (∀ c ∈ l, c.level ≤ 64) → k.buffer = some b → dump b s = .ok s' →
    ((k.calls l).bind fun k => k.add s) = ({ k with streams := k.streams ++ [s'] } : Kit).calls l := by
  intro l
  induction l with
  | nil =>
    intro k b s s' _ _ _ hb hs
    simp only [Kit.calls, Res.bind_ok]
    unfold Kit.add Kit.dump
    rw [hb]
    simp only
    rw [hs, Res.monad_bind_eq, Res.bind_ok]
  | cons c l ih =>
    intro k b s s' hc hp hl hb hs
    simp only [Kit.calls]
    rw [Res.monad_bind_eq, Res.monad_bind_eq, log_call k c hc hp (hl c List.mem_cons_self),
      log_call { k with streams := k.streams ++ [s'] } c hc hp (hl c List.mem_cons_self), Res.bind_ok, Res.bind_ok]
    have := ih { k with
      counts := k.counts.set c.level (k.counts[c.level]'(by have := hl c List.mem_cons_self; omega) + 1)
      streams := k.streams.map (fun s => s.after c (k.pre[c.level]'(by have := hl c List.mem_cons_self; omega) ++ c.text))
      buffer := k.buffer.map (· ++ [c.msg (k.pre[c.level]'(by have := hl c List.mem_cons_self; omega) ++ c.text)]) }
      (b ++ [c.msg (k.pre[c.level]'(by have := hl c List.mem_cons_self; omega) ++ c.text)]) s
      (s'.after c (k.pre[c.level]'(by have := hl c List.mem_cons_self; omega) ++ c.text))
      (by simpa using hc) hp (fun c' h => hl c' (List.mem_cons_of_mem _ h)) (by simp [hb])
      (by rw [dump_append, hs, Res.bind_ok, dump_msg])
    rw [this]
    simp only [List.map_append, List.map_cons, List.map_nil]

/-- **Buffering.** A stream that is added after messages, with buffering since before them, has the same messages as if it had been added
before them. -/
theorem log_buffer (k : Kit) (hc : k.counts.length = 65) (hp : k.pre.length = 65) (s : Stream) {l : List Call} (hl : ∀ c ∈ l, c.level ≤ 64) :
    ((k.startBuffering.calls l).bind fun k => k.add s) = (k.startBuffering.add s).bind fun k => k.calls l := by
  rw [calls_add l k.startBuffering [] s s hc hp hl rfl rfl]
  rfl

/-- Sending messages never fails for levels up to 64, and each is counted. -/
theorem log_counts : ∀ (l : List Call) (k : Kit), k.counts.length = 65 → k.pre.length = 65 → (∀ c ∈ l, c.level ≤ 64) →
    ∃ k', k.calls l = .ok k' ∧ k'.counts.length = 65 ∧ k'.screen = k.screen ∧ k'.streams.map Stream.id = k.streams.map Stream.id ∧
      ∀ v, v < 65 → k'.counts[v]? = (k.counts[v]?).map (· + (l.filter (fun c => c.level = v)).length) := by
  intro l
  induction l with
  | nil =>
    intro k hc _ _
    refine ⟨k, rfl, hc, rfl, rfl, ?_⟩
    intro v hv
    rw [List.getElem?_eq_getElem (by omega)]
    simp
  | cons c l ih =>
    intro k hc hp hl
    have h0 := hl c List.mem_cons_self
    simp only [Kit.calls]
    rw [Res.monad_bind_eq, log_call k c hc hp h0, Res.bind_ok]
    obtain ⟨k', e, h1, h2, h3, h4⟩ := ih { k with
      counts := k.counts.set c.level (k.counts[c.level]'(by omega) + 1)
      streams := k.streams.map (fun s => s.after c (k.pre[c.level]'(by omega) ++ c.text))
      buffer := k.buffer.map (· ++ [c.msg (k.pre[c.level]'(by omega) ++ c.text)]) } (by simpa using hc) hp
      (fun c' h => hl c' (List.mem_cons_of_mem _ h))
    refine ⟨k', e, h1, h2, ?_, ?_⟩
    · rw [h3]
      simp only [List.map_map]
      apply List.map_congr_left
      intro s _
      simp only [Function.comp, Stream.after]
      split_ifs <;> rfl
    · intro v hv
      rw [h4 v hv]
      simp only [List.getElem?_set, List.filter_cons]
      by_cases hv' : c.level = v
      · subst hv'
        rw [if_pos rfl, if_pos (by omega), List.getElem?_eq_getElem (by omega)]
        simp
        omega
      · rw [if_neg hv', if_neg (by simpa using hv')]

/-- A level above 64, such as a set of levels with the last one, is out of the range of the counts. -/
theorem log_level_violation (k : Kit) (hc : k.counts.length = 65) (c : Call) (h : 65 ≤ c.level) : ∃ m, k.call c = .ub m := by
  have : rd k.counts c.level = .ub "read out of range" := by
    unfold rd
    rw [List.getElem?_eq_none (by omega)]
  unfold Kit.call
  cases c.phase with
  | none => simp only; unfold Kit.log; rw [Res.monad_bind_eq, this]; exact ⟨_, rfl⟩
  | some p => simp only; unfold Kit.logPhase; rw [Res.monad_bind_eq, this]; exact ⟨_, rfl⟩

/-! ## The screen -/

/-- The number of the screen is that of a stream with a given name. -/
def Kit.ScreenIs (k : Kit) (id : ℕ) : Prop := 0 ≤ k.screen ∧ ∃ s, k.streams[k.screen.toNat]? = some s ∧ s.id = id

/-- After the screen is set, it is the stream of the screen; other streams are as before. -/
theorem log_screen (k : Kit) (s : Stream) (h : k.screen < 0 ∨ ∃ id, k.ScreenIs id) :
    ∃ k', k.setScreen s = .ok k' ∧ k'.ScreenIs s.id ∧ ∀ i : ℕ, (i : ℤ) ≠ k'.screen → k'.streams[i]? = k.streams[i]? := by
  unfold Kit.setScreen
  by_cases hs : k.screen < 0
  · rw [if_pos hs]
    refine ⟨_, rfl, ⟨by simp, s, by simp, rfl⟩, ?_⟩
    intro i hi
    simp only [ne_eq, Nat.cast_inj] at hi
    simp only
    by_cases hl : i < k.streams.length
    · rw [List.getElem?_append_left hl]
    · rw [List.getElem?_eq_none (by simp; omega), List.getElem?_eq_none (by omega)]
  · rw [if_neg hs]
    obtain ⟨id, h0, t, ht, -⟩ := h.resolve_left hs
    have hl : k.screen.toNat < k.streams.length := (List.getElem?_eq_some_iff.1 ht).1
    rw [Res.monad_bind_eq, wr_ok hl, Res.bind_ok]
    refine ⟨_, rfl, ⟨h0, s, by simp [hl], rfl⟩, ?_⟩
    intro i hi
    simp only at hi ⊢
    rw [List.getElem?_set_ne (by omega)]

/-- Removing another stream leaves the screen. -/
theorem log_remove {k : Kit} {sid id : ℕ} (h : k.ScreenIs sid) (hid : id ≠ sid) : (k.remove id).ScreenIs sid := by
  obtain ⟨h0, s, hs, e⟩ := h
  unfold Kit.remove
  simp only
  split_ifs with hi hlt
  · refine ⟨by show 0 ≤ k.screen - 1; omega, s, ?_, e⟩
    show (k.streams.eraseIdx _)[(k.screen - 1).toNat]? = some s
    rw [List.getElem?_eraseIdx_of_ge (by omega), show (k.screen - 1).toNat + 1 = k.screen.toNat by omega, hs]
  · refine ⟨h0, s, ?_, e⟩
    show (k.streams.eraseIdx _)[k.screen.toNat]? = some s
    have hne : k.streams.findIdx (fun s => s.id == id) ≠ k.screen.toNat := by
      intro he
      have := List.findIdx_getElem (p := fun s : Stream => s.id == id) (xs := k.streams) (w := hi)
      have g : k.streams[k.streams.findIdx (fun s => s.id == id)] = s := by
        have : k.streams[k.streams.findIdx (fun s => s.id == id)]? = some s := by rw [he]; exact hs
        rw [List.getElem?_eq_getElem hi] at this
        exact Option.some.inj this
      rw [g] at this
      exact hid (by rw [← e]; exact (beq_iff_eq.1 this).symm)
    rw [List.getElem?_eraseIdx_of_lt (by omega), hs]
  · exact ⟨h0, s, hs, e⟩

/-- If the screen itself is removed, its number stays. When the screen is set again, a stream added after the first screen is deleted, or
memory outside of the streams is written. -/
theorem log_screen_violation :
    (((Kit.init.setScreen (.single 1 7)).bind fun k => (k.add (.single 2 7)).bind fun k => (k.remove 1).setScreen (.single 3 7)).bind
      fun k => .ok (k.streams.map Stream.id)) = .ok [3] ∧
    (((Kit.init.add (.single 2 7)).bind fun k => (k.setScreen (.single 1 7)).bind fun k => (k.remove 1).setScreen (.single 3 7)).bind
      fun k => .ok (k.streams.map Stream.id)) = .ub "write out of range" := by
  constructor <;> rfl

/-- Ending the log leaves no stream, no screen and no buffer. -/
theorem log_end (k : Kit) : k.endLog.streams = [] ∧ k.endLog.screen = -1 ∧ k.endLog.buffer = none ∧ k.endLog.counts = k.counts :=
  ⟨rfl, rfl, rfl, rfl⟩

/-- Formatted text is a message if it fits; otherwise memory is overwritten. -/
theorem log_formatted (k : Kit) (level : ℕ) (text : List Char) :
    (text.length < 5000 → k.logFormatted level none text = k.log level text) ∧
    (∀ p, text.length < 1000 → k.logFormatted level (some p) text = k.logPhase level p text) ∧
    (5000 ≤ text.length → k.logFormatted level none text = .ub "write out of range") ∧
    (∀ p, 1000 ≤ text.length → k.logFormatted level (some p) text = .ub "write out of range") :=
  ⟨fun h => if_pos h, fun _ h => if_pos h, fun h => if_neg (by omega), fun _ h => if_neg (by omega)⟩

/-- A heading of up to 90 characters is a line of 100 characters with the text in it. -/
theorem log_heading {text : List Char} (h : text.length ≤ 90) : (centre text).length = 100 ∧
    ∃ a b, centre text = List.replicate 5 '*' ++ List.replicate a ' ' ++ text ++ List.replicate b ' ' ++ List.replicate 5 '*' ∧
      (b = a ∨ b = a + 1) := by
  unfold centre
  simp only
  have e : max 0 ((100 : ℤ) - text.length - 2 * 5) = 90 - text.length := by omega
  rw [e]
  split_ifs with hb
  · refine ⟨by simp; omega, _, ((90 - (text.length : ℤ)) / 2).toNat + 1, ?_, Or.inr rfl⟩
    rw [List.replicate_succ' (n := ((90 - (text.length : ℤ)) / 2).toNat)]
    simp only [List.append_assoc]
  · exact ⟨by simp; omega, _, _, rfl, Or.inl rfl⟩

/-- A case: two streams, a buffer and three messages. -/
theorem log_example : (((Kit.init.startBuffering.add (.single 1 3)).bind fun k =>
    (k.calls [⟨1, none, ['a']⟩, ⟨4, some 2, ['b']⟩, ⟨2, some 0, ['c']⟩]).bind fun k => k.add (fileStream 2 7 false)).bind
      fun k => .ok (k.streams.map Stream.log)) = .ok [[['a'], ['c']], [['a'], ['b']]] := by
  rfl

end LogKit

end Verif
