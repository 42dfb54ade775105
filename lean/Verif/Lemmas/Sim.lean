import Verif.Model.Api
import Verif.Lemmas.Outcome

/-! Helper lemmas: two runs of the simulation with corresponding generators correspond. -/

namespace Verif

variable {α β α' β' : Type}

/-- Corresponding outcomes: related values, or the same failure. With `bad`, the first computation may
also fail with a non-finite number or not end, whatever the second one does. -/
inductive Sim (bad : Bool) (R : α → β → Prop) : Res α → Res β → Prop
  | ok {a b} : R a b → Sim bad R (.ok a) (.ok b)
  | throws (m) : Sim bad R (.throws m) (.throws m)
  | ub (w) : Sim bad R (.ub w) (.ub w)
  | nonfinite (w) : Sim bad R (.nonfinite w) (.nonfinite w)
  | diverges : Sim bad R .diverges .diverges
  | badNonfinite (w y) : bad = true → Sim bad R (.nonfinite w) y
  | badDiverges (y) : bad = true → Sim bad R .diverges y

namespace Sim

variable {bad : Bool}

theorem refl {R : α → α → Prop} (h : ∀ a, R a a) (x : Res α) : Sim bad R x x := by
  cases x
  · exact .ok (h _)
  · exact .throws _
  · exact .ub _
  · exact .nonfinite _
  · exact .diverges

theorem bind {R : α → β → Prop} {T : α' → β' → Prop} {x : Res α} {y : Res β} {f : α → Res α'}
    {g : β → Res β'} (h : Sim bad R x y) (hf : ∀ a b, R a b → Sim bad T (f a) (g b)) :
    Sim bad T (x.bind f) (y.bind g) := by
  cases h with
  | ok h => exact hf _ _ h
  | throws m => exact .throws m
  | ub w => exact .ub w
  | nonfinite w => exact .nonfinite w
  | diverges => exact .diverges
  | badNonfinite w y hb => exact .badNonfinite w _ hb
  | badDiverges y hb => exact .badDiverges _ hb

theorem bind_same {T : α' → β' → Prop} (x : Res α) {f : α → Res α'} {g : α → Res β'}
    (hf : ∀ a, Sim bad T (f a) (g a)) : Sim bad T (x.bind f) (x.bind g) :=
  (refl (R := Eq) (fun _ => rfl) x).bind fun a b h => by subst h; exact hf a

theorem mono {R T : α → β → Prop} {x : Res α} {y : Res β} (h : Sim bad R x y)
    (hrt : ∀ a b, R a b → T a b) : Sim bad T x y := by
  cases h with
  | ok h => exact .ok (hrt _ _ h)
  | throws m => exact .throws m
  | ub w => exact .ub w
  | nonfinite w => exact .nonfinite w
  | diverges => exact .diverges
  | badNonfinite w y hb => exact .badNonfinite w _ hb
  | badDiverges y hb => exact .badDiverges _ hb

theorem forRange {R : α → β → Prop} {lo hi : ℕ} {f : ℕ → α → Res α} {g : ℕ → β → Res β}
    (hfg : ∀ i a b, R a b → Sim bad R (f i a) (g i b)) {a : α} {b : β} (h : R a b) :
    Sim bad R (Verif.forRange lo hi f a) (Verif.forRange lo hi g b) := by
  unfold Verif.forRange
  generalize hi - lo = n
  induction n generalizing lo a b with
  | zero => exact .ok h
  | succ n ih => exact (hfg lo a b h).bind fun a b h => ih h

/-- Without `bad` failures: what is returned is related. -/
theorem eq_map {f : α → β} {x : Res α} {y : Res β} (h : Sim false (fun a b => b = f a) x y) :
    y = x.bind fun a => .ok (f a) := by
  cases h with
  | ok h => rw [h]; rfl
  | throws m => rfl
  | ub w => rfl
  | nonfinite w => rfl
  | diverges => rfl
  | badNonfinite w y hb => exact absurd hb (by decide)
  | badDiverges y hb => exact absurd hb (by decide)

end Sim

section
variable {bad : Bool} {σ σ' γ γ' : Type} {Rσ : σ → σ' → Prop} {Rγ : γ → γ' → Prop}
  {norm : σ → Res (ℝ × σ)} {norm' : σ' → Res (ℝ × σ')}
  (hnorm : ∀ s s', Rσ s s' → Sim bad (fun r r' => r.1 = r'.1 ∧ Rσ r.2 r'.2) (norm s) (norm' s'))
include hnorm

theorem drawNoise1_sim (n : ℕ) {s : σ} {s' : σ'} (h : Rσ s s') :
    Sim bad (fun r r' => r.1 = r'.1 ∧ Rσ r.2 r'.2) (drawNoise1 norm n s) (drawNoise1 norm' n s') := by
  unfold drawNoise1
  refine Sim.forRange (fun i a b hab => ?_) ⟨rfl, h⟩
  simp only [Res.monad_bind_eq]
  refine (hnorm _ _ hab.2).bind fun r r' hr => ?_
  rw [hab.1, hr.1]
  exact Sim.bind_same _ fun l => .ok ⟨rfl, hr.2⟩

theorem drawNoise2_sim (nx ny : ℕ) (g : Grid2D ℝ) {s : σ} {s' : σ'} (h : Rσ s s') :
    Sim bad (fun r r' => r.1 = r'.1 ∧ Rσ r.2 r'.2) (drawNoise2 norm nx ny g s)
      (drawNoise2 norm' nx ny g s') := by
  unfold drawNoise2
  refine Sim.forRange (fun i a b hab => Sim.forRange (fun j a b hab => ?_) hab) ⟨rfl, h⟩
  simp only [Res.monad_bind_eq]
  refine (hnorm _ _ hab.2).bind fun r r' hr => ?_
  rw [hab.1, hr.1]
  exact Sim.bind_same _ fun l => .ok ⟨rfl, hr.2⟩

theorem drawNoise3_sim (nx ny nz : ℕ) (g : Grid3D ℝ) {s : σ} {s' : σ'} (h : Rσ s s') :
    Sim bad (fun r r' => r.1 = r'.1 ∧ Rσ r.2 r'.2) (drawNoise3 norm nx ny nz g s)
      (drawNoise3 norm' nx ny nz g s') := by
  unfold drawNoise3
  refine Sim.forRange (fun i a b hab => Sim.forRange (fun j a b hab => Sim.forRange
    (fun k a b hab => ?_) hab) hab) ⟨rfl, h⟩
  simp only [Res.monad_bind_eq]
  refine (hnorm _ _ hab.2).bind fun r r' hr => ?_
  rw [hab.1, hr.1]
  exact Sim.bind_same _ fun l => .ok ⟨rfl, hr.2⟩

theorem fieldStep2_sim (F : Fftw) (filter : FFTGrid2D) (tx ty : ℕ)
    {a : FFTGrid2D × Grid2D ℝ × σ × List (Grid2D ℝ)}
    {b : FFTGrid2D × Grid2D ℝ × σ' × List (Grid2D ℝ)}
    (h : a.1 = b.1 ∧ a.2.1 = b.2.1 ∧ Rσ a.2.2.1 b.2.2.1 ∧ a.2.2.2 = b.2.2.2) :
    Sim bad (fun a b => a.1 = b.1 ∧ a.2.1 = b.2.1 ∧ Rσ a.2.2.1 b.2.2.1 ∧ a.2.2.2 = b.2.2.2)
      (fieldStep2 F norm filter tx ty a) (fieldStep2 F norm' filter tx ty b) := by
  obtain ⟨h1, h2, h3, h4⟩ := h
  unfold fieldStep2
  simp only [Res.monad_bind_eq]
  rw [h1, h2, h4]
  refine (drawNoise2_sim hnorm tx ty _ h3).bind fun r r' hr => ?_
  rw [hr.1]
  exact Sim.bind_same _ fun _ => Sim.bind_same _ fun _ => Sim.bind_same _ fun _ =>
    Sim.bind_same _ fun _ => Sim.bind_same _ fun _ => .ok ⟨rfl, rfl, hr.2, rfl⟩

theorem fieldStep3_sim (F : Fftw) (filter : FFTGrid3D) (tx ty tz : ℕ)
    {a : FFTGrid3D × Grid3D ℝ × σ × List (Grid3D ℝ)}
    {b : FFTGrid3D × Grid3D ℝ × σ' × List (Grid3D ℝ)}
    (h : a.1 = b.1 ∧ a.2.1 = b.2.1 ∧ Rσ a.2.2.1 b.2.2.1 ∧ a.2.2.2 = b.2.2.2) :
    Sim bad (fun a b => a.1 = b.1 ∧ a.2.1 = b.2.1 ∧ Rσ a.2.2.1 b.2.2.1 ∧ a.2.2.2 = b.2.2.2)
      (fieldStep3 F norm filter tx ty tz a) (fieldStep3 F norm' filter tx ty tz b) := by
  obtain ⟨h1, h2, h3, h4⟩ := h
  unfold fieldStep3
  simp only [Res.monad_bind_eq]
  rw [h1, h2, h4]
  refine (drawNoise3_sim hnorm tx ty tz _ h3).bind fun r r' hr => ?_
  rw [hr.1]
  exact Sim.bind_same _ fun _ => Sim.bind_same _ fun _ => Sim.bind_same _ fun _ =>
    Sim.bind_same _ fun _ => Sim.bind_same _ fun _ => .ok ⟨rfl, rfl, hr.2, rfl⟩

theorem simulate3D_sim (F : Fftw) (p : Platform) (v : Variogram) (nx : ℕ) (dx : ℝ) (ny : ℕ) (dy : ℝ)
    (nz : ℕ) (dz : ℝ) (K : ℤ) (out : List (Grid3D ℝ)) (px py pz : ℤ) (sx sy sz : ℝ) {s : σ} {s' : σ'}
    (h : Rσ s s') :
    Sim bad (fun r r' => r.1 = r'.1 ∧ Rσ r.2 r'.2)
      (simulate3D F p norm v nx dx ny dy nz dz K out px py pz sx sy sz s)
      (simulate3D F p norm' v nx dx ny dy nz dz K out px py pz sx sy sz s') := by
  unfold simulate3D
  simp only [Res.monad_bind_eq]
  refine Sim.bind_same _ fun _ => Sim.bind_same _ fun _ => Sim.bind_same _ fun _ =>
    Sim.bind_same _ fun _ => Sim.bind_same _ fun g => Sim.bind_same _ fun filter => ?_
  refine (Sim.forRange (fun _ a b hab => fieldStep3_sim hnorm F filter _ _ _ hab)
    ⟨rfl, rfl, h, rfl⟩).bind fun a b hab => .ok ⟨hab.2.2.2, hab.2.2.1⟩

variable {newRg : γ → Res (σ × γ)} {newRg' : γ' → Res (σ' × γ')}
  (hnew : ∀ g g', Rγ g g' → Sim bad (fun r r' => Rσ r.1 r'.1 ∧ Rγ r.2 r'.2) (newRg g) (newRg' g'))
include hnew

theorem simulate1D_sim (F : Fftw) (p : Platform) (v : Variogram) (nx : ℕ) (dx : ℝ) (m : ℕ) (px : ℤ)
    (sx : ℝ) {g : γ} {g' : γ'} (h : Rγ g g') :
    Sim bad (fun r r' => r.1 = r'.1 ∧ Rσ r.2.1 r'.2.1 ∧ Rγ r.2.2 r'.2.2)
      (simulate1D F p newRg norm v nx dx m none px sx g)
      (simulate1D F p newRg' norm' v nx dx m none px sx g') := by
  unfold simulate1D rgOrNew
  simp only [Res.monad_bind_eq]
  refine Sim.bind_same _ fun _ => Sim.bind_same _ fun _ => Sim.bind_same _ fun n =>
    Sim.bind_same _ fun _ => (hnew g g' h).bind fun r r' hr => ?_
  refine (drawNoise1_sim hnorm n hr.1).bind fun q q' hq => ?_
  rw [hq.1]
  exact Sim.bind_same _ fun _ => Sim.bind_same _ fun _ => Sim.bind_same _ fun _ =>
    Sim.bind_same _ fun _ => Sim.bind_same _ fun _ => Sim.bind_same _ fun _ =>
    .ok ⟨rfl, hq.2, hr.2⟩

theorem simulate2D_sim (F : Fftw) (p : Platform) (v : Variogram) (nx : ℕ) (dx : ℝ) (ny : ℕ) (dy : ℝ)
    (K : ℤ) (out : List (Grid2D ℝ)) (px py : ℤ) (sx sy : ℝ) {g : γ} {g' : γ'} (h : Rγ g g') :
    Sim bad (fun r r' => r.1 = r'.1 ∧ Rσ r.2.1 r'.2.1 ∧ Rγ r.2.2 r'.2.2)
      (simulate2D F p newRg norm v nx dx ny dy K out none px py sx sy g)
      (simulate2D F p newRg' norm' v nx dx ny dy K out none px py sx sy g') := by
  unfold simulate2D rgOrNew
  simp only [Res.monad_bind_eq]
  refine Sim.bind_same _ fun _ => Sim.bind_same _ fun _ => Sim.bind_same _ fun _ =>
    Sim.bind_same _ fun _ => Sim.bind_same _ fun filter => (hnew g g' h).bind fun r r' hr => ?_
  refine (Sim.forRange (fun _ a b hab => fieldStep2_sim hnorm F filter _ _ hab)
    ⟨rfl, rfl, hr.1, rfl⟩).bind fun a b hab => .ok ⟨hab.2.2.2, hab.2.2.1, hr.2⟩

end

end Verif
