import Verif.Lemmas.Sim
import Verif.Lemmas.FieldBase

/-! Helper lemmas: filling an array with draws fails exactly as the draws do. -/

namespace Verif

open Spec

variable {A σ : Type} {norm : σ → Res (ℝ × σ)} {I : A → Prop}

/-- `y` takes the draws `x` and keeps an invariant. -/
abbrev Takes (I : A → Prop) (x : Res (List ℝ × σ)) (y : Res (A × σ)) : Prop :=
  Sim false (fun r q => I q.1 ∧ r.2 = q.2) x y

theorem bind_ok_self {α : Type} (x : Res α) : (x.bind fun a => .ok a) = x := by cases x <;> rfl

theorem Sim.bind_notOk {α β δ : Type} {R : α → β → Prop} {x : Res α} {y : Res β}
    (h : Sim false R x y) (hx : ∀ a, x ≠ .ok a) (f : α → Res δ) (g : β → Res δ) :
    y.bind g = x.bind f := by
  cases h with
  | ok h => exact absurd rfl (hx _)
  | badNonfinite w y hb => exact absurd hb (by decide)
  | badDiverges y hb => exact absurd hb (by decide)
  | _ => rfl

theorem takes_one {a : A} {s : σ} {f : ℝ → Res A}
    (h : ∀ x, ∃ a', f x = .ok a' ∧ I a') :
    Takes I (draws norm 1 s) ((norm s).bind fun r => (f r.1).bind fun a => .ok (a, r.2)) := by
  simp only [draws, Res.bind_ok]
  refine Sim.bind_same _ fun r => ?_
  obtain ⟨a', e, h⟩ := h r.1
  rw [e]
  exact .ok ⟨h, rfl⟩

theorem takes_forRange {lo hi k : ℕ} {body : ℕ → A × σ → Res (A × σ)}
    (h : ∀ i a s, lo ≤ i → i < hi → I a → Takes I (draws norm k s) (body i (a, s))) {a : A}
    (ha : I a) (s : σ) : Takes I (draws norm ((hi - lo) * k) s) (forRange lo hi body (a, s)) := by
  obtain ⟨n, hn⟩ : ∃ n, n = hi - lo := ⟨_, rfl⟩
  rw [← hn]
  induction n generalizing lo a s with
  | zero =>
    rw [forRange_empty (by omega), Nat.zero_mul]
    exact .ok ⟨ha, rfl⟩
  | succ n ih =>
    rw [forRange_succ (by omega), Nat.succ_mul, Nat.add_comm, draws_add]
    refine (h lo a s le_rfl (by omega) ha).bind fun r q hq => ?_
    obtain ⟨a', s'⟩ := q
    obtain ⟨h1, h2⟩ := hq
    simp only at h1 h2
    rw [← bind_ok_self (forRange (lo + 1) hi body (a', s')), h2]
    refine (ih (lo := lo + 1) (fun i a s h1 h2 h3 => h i a s (by omega) h2 h3) h1 s' (by omega)).bind
      fun r q hq => .ok hq

theorem drawNoise1_takes (n : ℕ) (s : σ) :
    Takes (fun l : List ℝ => l.length = n) (draws norm n s) (drawNoise1 norm n s) := by
  unfold drawNoise1
  have := takes_forRange (lo := 0) (hi := n) (k := 1) (norm := norm)
    (I := fun l : List ℝ => l.length = n)
    (body := fun i st => (norm st.2).bind fun r => (wr st.1 i r.1).bind fun a => .ok (a, r.2))
    (fun i a s _ hi ha => takes_one (a := a) (f := fun x => wr a i x)
      fun x => ⟨_, wr_ok (by omega) x, by simp [ha]⟩)
    (a := List.replicate n 0) List.length_replicate s
  simpa only [Res.monad_bind_eq, Nat.sub_zero, Nat.mul_one] using this

theorem drawNoise2_takes (nx ny : ℕ) {g : Grid2D ℝ} (hg : g.ni = nx ∧ g.nj = ny ∧ g.WF) (s : σ) :
    Takes (fun g : Grid2D ℝ => g.ni = nx ∧ g.nj = ny ∧ g.WF) (draws norm (nx * ny) s)
      (drawNoise2 norm nx ny g s) := by
  unfold drawNoise2
  have := takes_forRange (lo := 0) (hi := nx) (k := ny) (norm := norm)
    (I := fun g : Grid2D ℝ => g.ni = nx ∧ g.nj = ny ∧ g.WF)
    (body := fun i st => forRange 0 ny (fun j st => (norm st.2).bind fun r =>
      (st.1.set i j r.1).bind fun a => .ok (a, r.2)) st)
    (fun i a s _ hi ha => by
      have := takes_forRange (lo := 0) (hi := ny) (k := 1) (norm := norm)
        (I := fun g : Grid2D ℝ => g.ni = nx ∧ g.nj = ny ∧ g.WF)
        (body := fun j st => (norm st.2).bind fun r =>
          (st.1.set i j r.1).bind fun a => .ok (a, r.2))
        (fun j a s _ hj ha => takes_one (a := a) (f := fun x => a.set i j x) fun x => by
          obtain ⟨g', e, h1, h2, h3, -⟩ := Grid2D.set_sat a ha.2.2 (ha.1.symm ▸ hi) (ha.2.1.symm ▸ hj) x
          exact ⟨g', e, by rw [h1, ha.1], by rw [h2, ha.2.1], h3⟩) ha s
      simpa only [Nat.sub_zero, Nat.mul_one] using this)
    hg s
  simpa only [Res.monad_bind_eq, Nat.sub_zero] using this

theorem drawNoise3_takes (nx ny nz : ℕ) {g : Grid3D ℝ}
    (hg : g.ni = nx ∧ g.nj = ny ∧ g.nk = nz ∧ g.WF) (s : σ) :
    Takes (fun g : Grid3D ℝ => g.ni = nx ∧ g.nj = ny ∧ g.nk = nz ∧ g.WF)
      (draws norm (nx * (ny * nz)) s) (drawNoise3 norm nx ny nz g s) := by
  unfold drawNoise3
  have := takes_forRange (lo := 0) (hi := nx) (k := ny * nz) (norm := norm)
    (I := fun g : Grid3D ℝ => g.ni = nx ∧ g.nj = ny ∧ g.nk = nz ∧ g.WF)
    (body := fun i st => forRange 0 ny (fun j st => forRange 0 nz (fun k st =>
      (norm st.2).bind fun r => (st.1.set i j k r.1).bind fun a => .ok (a, r.2)) st) st)
    (fun i a s _ hi ha => by
      have := takes_forRange (lo := 0) (hi := ny) (k := nz) (norm := norm)
        (I := fun g : Grid3D ℝ => g.ni = nx ∧ g.nj = ny ∧ g.nk = nz ∧ g.WF)
        (body := fun j st => forRange 0 nz (fun k st =>
          (norm st.2).bind fun r => (st.1.set i j k r.1).bind fun a => .ok (a, r.2)) st)
        (fun j a s _ hj ha => by
          have := takes_forRange (lo := 0) (hi := nz) (k := 1) (norm := norm)
            (I := fun g : Grid3D ℝ => g.ni = nx ∧ g.nj = ny ∧ g.nk = nz ∧ g.WF)
            (body := fun k st => (norm st.2).bind fun r =>
              (st.1.set i j k r.1).bind fun a => .ok (a, r.2))
            (fun k a s _ hk ha => takes_one (a := a) (f := fun x => a.set i j k x) fun x => by
              obtain ⟨g', e, h1, h2, h3, h4, -⟩ := Grid3D.set_sat a ha.2.2.2 (ha.1.symm ▸ hi)
                (ha.2.1.symm ▸ hj) (ha.2.2.1.symm ▸ hk) x
              exact ⟨g', e, by rw [h1, ha.1], by rw [h2, ha.2.1], by rw [h3, ha.2.2.1], h4⟩) ha s
          simpa only [Nat.sub_zero, Nat.mul_one] using this) ha s
      simpa only [Nat.sub_zero] using this)
    hg s
  simpa only [Res.monad_bind_eq, Nat.sub_zero] using this

/-- A generator that counts. -/
def counting (n : ℕ) : Res (ℝ × ℕ) := .ok (0, n + 1)

theorem counting_draws (n s : ℕ) : ∃ w, draws counting n s = .ok (w, s + n) := by
  induction n generalizing s with
  | zero => exact ⟨_, rfl⟩
  | succ n ih =>
    obtain ⟨w, hw⟩ := ih (s + 1)
    exact ⟨_, by simp only [draws, counting, Res.bind_ok, hw]; rw [Nat.add_right_comm]; rfl⟩

end Verif
