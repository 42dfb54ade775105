import Verif.Model.Outcome

/-! Reasoning rules for `Res`, `forRange`, `rd` and `wr`. -/

namespace Verif

namespace Res

variable {α β : Type}

@[simp] theorem bind_ok (a : α) (f : α → Res β) : (ok a).bind f = f a := rfl
@[simp] theorem bind_throws (m : String) (f : α → Res β) : (throws m).bind f = throws m := rfl
@[simp] theorem bind_ub (m : String) (f : α → Res β) : (ub m).bind f = ub m := rfl
@[simp] theorem bind_nonfinite (m : String) (f : α → Res β) :
    (nonfinite m).bind f = nonfinite m := rfl
@[simp] theorem bind_diverges (f : α → Res β) : (diverges : Res α).bind f = diverges := rfl
@[simp] theorem monad_bind_eq (x : Res α) (f : α → Res β) : (x >>= f) = x.bind f := rfl
@[simp] theorem pure_eq (a : α) : (pure a : Res α) = ok a := rfl

theorem bind_assoc {γ : Type} (x : Res α) (f : α → Res β) (g : β → Res γ) :
    (x.bind f).bind g = x.bind (fun a => (f a).bind g) := by
  cases x <;> rfl

@[simp] theorem sat_ok (a : α) (P : α → Prop) : (ok a).Sat P ↔ P a := by
  simp [Sat]

theorem Sat.mono {r : Res α} {P Q : α → Prop} (h : r.Sat P) (hpq : ∀ a, P a → Q a) : r.Sat Q := by
  obtain ⟨a, rfl, hp⟩ := h
  exact ⟨a, rfl, hpq a hp⟩

theorem Sat.bind {r : Res α} {f : α → Res β} {P : α → Prop} {Q : β → Prop}
    (h : r.Sat P) (hf : ∀ a, P a → (f a).Sat Q) : (r.bind f).Sat Q := by
  obtain ⟨a, rfl, hp⟩ := h
  exact hf a hp

theorem bind_eq_ok {r : Res α} {f : α → Res β} {b : β} :
    r.bind f = ok b ↔ ∃ a, r = ok a ∧ f a = ok b := by
  cases r <;> simp

end Res

theorem forN_sat {σ : Type} (I : Nat → σ → Prop) (body : Nat → σ → Res σ) :
    ∀ (n lo : Nat) (s : σ), I lo s →
      (∀ i s, lo ≤ i → i < lo + n → I i s → (body i s).Sat (I (i + 1))) →
      (forN n lo body s).Sat (I (lo + n)) := by
  intro n
  induction n with
  | zero => intro lo s h0 _; simpa [forN] using h0
  | succ n ih =>
    intro lo s h0 hstep
    unfold forN
    refine (hstep lo s (Nat.le_refl _) (by omega) h0).bind ?_
    intro s' hs'
    have := ih (lo + 1) s' hs' (fun i t h1 h2 hI => hstep i t (by omega) (by omega) hI)
    rw [show lo + (n + 1) = lo + 1 + n by omega]
    exact this

/-- Loop rule: an invariant indexed by the loop variable. -/
theorem forRange_sat {σ : Type} (I : Nat → σ → Prop) {lo hi : Nat} (hle : lo ≤ hi)
    {body : Nat → σ → Res σ} {s : σ} (h0 : I lo s)
    (hstep : ∀ i s, lo ≤ i → i < hi → I i s → (body i s).Sat (I (i + 1))) :
    (forRange lo hi body s).Sat (I hi) := by
  have := forN_sat I body (hi - lo) lo s h0
    (fun i s h1 h2 hI => hstep i s h1 (by omega) hI)
  unfold forRange
  rwa [show lo + (hi - lo) = hi by omega] at this

/-- Loop rule with an invariant that does not mention the loop variable. -/
theorem forRange_inv {σ : Type} (I : σ → Prop) {lo hi : Nat}
    {body : Nat → σ → Res σ} {s : σ} (h0 : I s)
    (hstep : ∀ i s, lo ≤ i → i < hi → I s → (body i s).Sat I) :
    (forRange lo hi body s).Sat I := by
  by_cases hle : lo ≤ hi
  · exact forRange_sat (fun _ => I) hle h0 hstep
  · unfold forRange
    rw [show hi - lo = 0 by omega]
    simpa [forN] using h0

/-- Loop rule: some iteration establishes `Q` and all iterations keep it. -/
theorem forRange_hit {σ : Type} (I Q : σ → Prop) {lo hi : Nat}
    {body : Nat → σ → Res σ} {s : σ} (i0 : Nat) (hlo : lo ≤ i0) (hhi : i0 < hi) (h0 : I s)
    (hstep : ∀ i s, lo ≤ i → i < hi → I s → (body i s).Sat I)
    (hkeep : ∀ i s, lo ≤ i → i < hi → I s → Q s → (body i s).Sat (fun s => I s ∧ Q s))
    (hhit : ∀ s, I s → (body i0 s).Sat (fun s => I s ∧ Q s)) :
    (forRange lo hi body s).Sat (fun s => I s ∧ Q s) := by
  have := forRange_sat (lo := lo) (hi := hi) (body := body) (s := s)
    (fun i s => I s ∧ (i0 < i → Q s)) (by omega) ⟨h0, by omega⟩ ?_
  · exact this.mono fun s h => ⟨h.1, h.2 hhi⟩
  · intro i s h1 h2 ⟨hI, hQ⟩
    by_cases hi0 : i = i0
    · subst hi0
      exact (hhit s hI).mono fun s h => ⟨h.1, fun _ => h.2⟩
    · by_cases hlt : i0 < i
      · exact (hkeep i s h1 h2 hI (hQ hlt)).mono fun s h => ⟨h.1, fun _ => h.2⟩
      · exact (hstep i s h1 h2 hI).mono fun s h => ⟨h, fun h => by omega⟩

theorem forRange_empty {σ : Type} {lo hi : Nat} (h : hi ≤ lo) (body : Nat → σ → Res σ) (s : σ) :
    forRange lo hi body s = .ok s := by
  unfold forRange
  rw [show hi - lo = 0 by omega]; rfl

theorem forRange_succ {σ : Type} {lo hi : Nat} (h : lo < hi) (body : Nat → σ → Res σ) (s : σ) :
    forRange lo hi body s = (body lo s).bind (forRange (lo + 1) hi body) := by
  unfold forRange
  rw [show hi - lo = (hi - (lo + 1)) + 1 by omega]
  rfl

/-- A loop that hits undefined behaviour in one iteration, whatever the state, and otherwise
returns or hits the same undefined behaviour. -/
theorem forRange_ub {σ : Type} {lo hi : Nat} {body : Nat → σ → Res σ} {w : String} (i0 : Nat)
    (hlo : lo ≤ i0) (hhi : i0 < hi)
    (hall : ∀ i s, (∃ s', body i s = .ok s') ∨ body i s = .ub w)
    (hbad : ∀ s, body i0 s = .ub w) (s : σ) : forRange lo hi body s = .ub w := by
  obtain ⟨n, rfl⟩ : ∃ n, i0 = lo + n := ⟨i0 - lo, by omega⟩
  induction n generalizing lo s with
  | zero => rw [forRange_succ (by omega), show body lo s = .ub w from hbad s]; rfl
  | succ n ih =>
    rw [forRange_succ (by omega)]
    rcases hall lo s with ⟨s', h⟩ | h
    · rw [h, Res.bind_ok]
      refine ih s' (by omega) (by omega) (fun s => ?_)
      rw [show lo + 1 + n = lo + (n + 1) by omega]
      exact hbad s
    · rw [h]; rfl

theorem forRange_ok_or_ub {σ : Type} {lo hi : Nat} {body : Nat → σ → Res σ} {w : String}
    (hall : ∀ i s, (∃ s', body i s = .ok s') ∨ body i s = .ub w) (s : σ) :
    (∃ s', forRange lo hi body s = .ok s') ∨ forRange lo hi body s = .ub w := by
  unfold forRange
  generalize hi - lo = n
  induction n generalizing lo s with
  | zero => exact .inl ⟨s, rfl⟩
  | succ n ih =>
    unfold forN
    rcases hall lo s with ⟨s', h⟩ | h
    · rw [h, Res.bind_ok]; exact ih s'
    · rw [h]; exact .inr rfl

theorem forRange_congr {σ : Type} {lo hi : Nat} {f g : Nat → σ → Res σ} {s : σ}
    (h : ∀ i s, lo ≤ i → i < hi → f i s = g i s) : forRange lo hi f s = forRange lo hi g s := by
  unfold forRange
  have : ∀ n lo s, (∀ i s, lo ≤ i → i < lo + n → f i s = g i s) → forN n lo f s = forN n lo g s := by
    intro n
    induction n with
    | zero => intros; rfl
    | succ n ih =>
      intro lo s h
      unfold forN
      rw [h lo s (Nat.le_refl _) (by omega)]
      congr 1
      funext s'
      exact ih (lo + 1) s' fun i s h1 h2 => h i s (by omega) (by omega)
  exact this _ _ _ fun i s h1 h2 => h i s h1 (by omega)

section arrays
variable {α : Type}

theorem rd_ok {a : List α} {i : Nat} (h : i < a.length) : rd a i = .ok a[i] := by
  simp [rd, h]

theorem rd_eq_ok {a : List α} {i : Nat} {x : α} : rd a i = .ok x ↔ a[i]? = some x := by
  unfold rd
  cases a[i]? <;> simp

theorem wr_ok {a : List α} {i : Nat} (h : i < a.length) (x : α) : wr a i x = .ok (a.set i x) := by
  simp [wr, h]

end arrays

end Verif
