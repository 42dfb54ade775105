import Verif.Model.Loop
import Verif.Lemmas.Outcome

/-! Helper lemmas: loops without a bound. -/

namespace Verif

variable {σ α : Type} {step : σ → Res (Option α × σ)}

theorem untilFuel_mono {n m : ℕ} {s : σ} (h : untilFuel step n s ≠ .diverges) (hm : n ≤ m) :
    untilFuel step m s = untilFuel step n s := by
  induction n generalizing m s with
  | zero => exact absurd rfl h
  | succ n ih =>
    obtain ⟨m, rfl⟩ : ∃ k, m = k + 1 := ⟨m - 1, by omega⟩
    unfold untilFuel at h ⊢
    cases e : step s with
    | ok r =>
      rw [e, Res.bind_ok] at h
      rw [Res.bind_ok, Res.bind_ok]
      cases e2 : r.1 with
      | some a => rfl
      | none =>
        rw [e2] at h
        exact ih h (by omega)
    | throws _ => rfl
    | ub _ => rfl
    | nonfinite _ => rfl
    | diverges => rfl

theorem untilLoop_eq {n : ℕ} {s : σ} (h : untilFuel step n s ≠ .diverges) :
    untilLoop step s = untilFuel step n s := by
  have hex : ∃ n, untilFuel step n s ≠ .diverges := ⟨n, h⟩
  unfold untilLoop
  rw [dif_pos hex]
  classical
  exact (untilFuel_mono (Nat.find_spec hex) (Nat.find_min' hex h)).symm

theorem untilLoop_diverges {s : σ} (h : ∀ n, untilFuel step n s = .diverges) :
    untilLoop step s = .diverges := by
  unfold untilLoop
  rw [dif_neg]
  push Not
  exact h

/-- A loop is its first round followed by the rest. -/
theorem untilLoop_unfold (step : σ → Res (Option α × σ)) (s : σ) :
    untilLoop step s = (step s).bind fun r =>
      match r.1 with
      | some a => .ok (a, r.2)
      | none => untilLoop step r.2 := by
  by_cases h : ∃ n, untilFuel step n s ≠ .diverges
  · obtain ⟨n, hn⟩ := h
    obtain ⟨n, rfl⟩ : ∃ k, n = k + 1 := by
      cases n with
      | zero => exact absurd rfl hn
      | succ k => exact ⟨k, rfl⟩
    rw [untilLoop_eq hn]
    unfold untilFuel at hn ⊢
    cases e : step s with
    | ok r =>
      rw [e, Res.bind_ok] at hn
      rw [Res.bind_ok, Res.bind_ok]
      cases e2 : r.1 with
      | some a => rfl
      | none =>
        rw [e2] at hn
        exact (untilLoop_eq hn).symm
    | throws _ => rfl
    | ub _ => rfl
    | nonfinite _ => rfl
    | diverges => rfl
  · push Not at h
    rw [untilLoop_diverges h]
    have h1 : ∀ n, untilFuel step (n + 1) s = .diverges := fun n => h (n + 1)
    unfold untilFuel at h1
    cases e : step s with
    | ok r =>
      rw [e] at h1
      simp only [Res.bind_ok] at h1 ⊢
      cases e2 : r.1 with
      | some a => rw [e2] at h1; exact (h1 0).symm
      | none =>
        rw [e2] at h1
        exact (untilLoop_diverges h1).symm
    | throws _ => rw [e] at h1; exact (h1 0).symm
    | ub _ => rw [e] at h1; exact (h1 0).symm
    | nonfinite _ => rw [e] at h1; exact (h1 0).symm
    | diverges => rfl

/-- The result of a loop satisfies what its rounds guarantee. -/
theorem untilLoop_inv {P : σ → Prop} {Q : α → σ → Prop}
    (hstep : ∀ s, P s → ∀ o s', step s = .ok (o, s') →
      match o with
      | some a => Q a s'
      | none => P s') {s : σ} (hs : P s) {a : α} {s' : σ} (h : untilLoop step s = .ok (a, s')) :
    Q a s' := by
  have key : ∀ n s, P s → untilFuel step n s = .ok (a, s') → Q a s' := by
    intro n
    induction n with
    | zero => intro s _ h; exact absurd h (by simp [untilFuel])
    | succ n ih =>
      intro s hs h
      unfold untilFuel at h
      obtain ⟨⟨o, s1⟩, e1, e2⟩ := Res.bind_eq_ok.1 h
      have := hstep s hs o s1 e1
      cases o with
      | some b =>
        simp only [Res.ok.injEq, Prod.mk.injEq] at e2
        rw [← e2.1, ← e2.2]; exact this
      | none => exact ih s1 this e2
  by_cases hex : ∃ n, untilFuel step n s ≠ .diverges
  · obtain ⟨n, hn⟩ := hex
    rw [untilLoop_eq hn] at h
    exact key n s hs h
  · push Not at hex
    rw [untilLoop_diverges hex] at h
    exact absurd h (by simp)

/-- The outcome of a computation with its state translated. -/
def Res.mapState {α σ τ : Type} (f : σ → τ) (r : Res (α × σ)) : Res (α × τ) :=
  r.bind fun q => .ok (q.1, f q.2)

/-- Loops with corresponding rounds correspond. -/
theorem untilLoop_map {τ : Type} {step' : τ → Res (Option α × τ)} (f : σ → τ)
    (h : ∀ s, step' (f s) = (step s).mapState f) (s : σ) :
    untilLoop step' (f s) = (untilLoop step s).mapState f := by
  have key : ∀ n s, untilFuel step' n (f s) = (untilFuel step n s).mapState f := by
    intro n
    induction n with
    | zero => intro s; rfl
    | succ n ih =>
      intro s
      unfold untilFuel
      rw [h]
      unfold Res.mapState
      rw [Res.bind_assoc, Res.bind_assoc]
      congr 1
      funext r
      rw [Res.bind_ok]
      cases e : r.1 with
      | some a => rfl
      | none => simp only; exact ih r.2
  by_cases hex : ∃ n, untilFuel step n s ≠ .diverges
  · obtain ⟨n, hn⟩ := hex
    rw [untilLoop_eq hn, ← key]
    refine untilLoop_eq ?_
    rw [key]
    cases e : untilFuel step n s with
    | diverges => exact absurd e hn
    | ok r => simp [Res.mapState]
    | throws _ => simp [Res.mapState]
    | ub _ => simp [Res.mapState]
    | nonfinite _ => simp [Res.mapState]
  · push Not at hex
    rw [untilLoop_diverges hex]
    refine untilLoop_diverges fun n => ?_
    rw [key, hex]
    rfl

end Verif
