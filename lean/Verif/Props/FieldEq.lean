import Verif.Lemmas.Draws
import Verif.Props.FieldExample

/-!
# The simulation functions as equations

For well-formed arguments the functions are, as a whole, "take the draws, return the convolution":
also when a draw fails, they fail as the draw does and in no other way (C34, C43).
-/

namespace Verif

open Spec Variogram

section
variable {p : Platform} {t : VType} {pw rx ry rz az dp sd : ℝ}
  {v : Variogram} (hv : Variogram.create t pw rx ry rz az dp sd = .ok v)
include hv

/-- **C01, C02, C34, C43, one dimension.** The function is equal to: get a generator, draw, convolve. -/
theorem simulate1D_eq {nx : ℕ} {dx sx : ℝ} {padx : ℤ} (hx : DirOk p v nx v.rangeX dx padx sx) :
    ∃ tx r, IsTotal v nx v.rangeX dx padx false tx ∧ nx ≤ tx ∧ IsExtents rx ry rz az dp r ∧
      ∀ {F : Fftw} (_ : F.Laws) {σ γ : Type} (newRg : γ → Res (σ × γ)) (norm01 : σ → Res (ℝ × σ)) (rg : Option σ) (glob : γ),
        simulate1D F p newRg norm01 v nx dx nx rg padx sx glob
          = (rgOrNew newRg rg glob).bind fun g => (draws norm01 tx g.1).bind fun w =>
            .ok ((List.range nx).map
              (field1 tx (gridCov1 v r tx dx sx) (fun a => w.1.getD a 0)), w.2, g.2) := by
  obtain ⟨tx, r, h1, h2, h3, H⟩ := simulate1D_value hv hx
  refine ⟨tx, r, h1, h2, h3, ?_⟩
  intro F hF σ γ newRg norm01 rg glob
  obtain ⟨w0, hw0⟩ := counting_draws tx 0
  obtain ⟨out0, e0, -⟩ := H hF (fun u : Unit => .ok (0, u)) counting (some 0) () () 0 _ w0
    (Or.inl ⟨rfl, rfl⟩) hw0
  have hcase : ∀ g, rgOrNew newRg rg glob = .ok g → UsesGenerator newRg rg glob g.1 g.2 := by
    intro g hg
    cases rg with
    | none => exact Or.inr ⟨rfl, hg⟩
    | some s =>
      simp only [rgOrNew, Res.ok.injEq] at hg
      exact Or.inl ⟨by rw [← hg], by rw [← hg]⟩
  by_cases hok : ∃ g w, rgOrNew newRg rg glob = .ok g ∧ draws norm01 tx g.1 = .ok w
  · obtain ⟨g, w, hg, hw⟩ := hok
    obtain ⟨out, eo, hl, hval⟩ := H hF newRg norm01 rg glob g.2 g.1 w.2 w.1 (hcase g hg) hw
    rw [eo, hg, Res.bind_ok, hw, Res.bind_ok]
    congr 2
    refine List.ext_getElem? fun i => ?_
    by_cases hi : i < nx
    · rw [hval i hi]
      simp [hi]
    · rw [List.getElem?_eq_none (by omega), List.getElem?_eq_none (by simp; omega)]
  · unfold simulate1D at e0 ⊢
    simp only [Res.monad_bind_eq] at e0 ⊢
    obtain ⟨a1, q1, e0⟩ := Res.bind_eq_ok.1 e0
    obtain ⟨a2, q2, e0⟩ := Res.bind_eq_ok.1 e0
    obtain ⟨a3, q3, e0⟩ := Res.bind_eq_ok.1 e0
    obtain ⟨a4, q4, e0⟩ := Res.bind_eq_ok.1 e0
    obtain ⟨a5, q5, e0⟩ := Res.bind_eq_ok.1 e0
    obtain ⟨a6, q6, e0⟩ := Res.bind_eq_ok.1 e0
    obtain ⟨_, -, e0⟩ := Res.bind_eq_ok.1 e0
    obtain ⟨_, -, e0⟩ := Res.bind_eq_ok.1 e0
    obtain ⟨_, -, e0⟩ := Res.bind_eq_ok.1 e0
    obtain ⟨_, -, e0⟩ := Res.bind_eq_ok.1 e0
    obtain ⟨_, -, e0⟩ := Res.bind_eq_ok.1 e0
    obtain ⟨_, -, e0⟩ := Res.bind_eq_ok.1 e0
    simp only [Res.ok.injEq, Prod.mk.injEq] at e0
    simp only [rgOrNew, Res.ok.injEq] at q5
    have htx : a3 = tx := by
      have := drawNoise1_takes (norm := counting) a3 a5.1
      obtain ⟨w, hw⟩ := counting_draws a3 a5.1
      rw [hw, q6] at this
      cases this with
      | ok h =>
        have h6 := h.2
        rw [e0.2.1, ← q5] at h6
        simp only at h6
        omega
    subst htx
    rw [q1, Res.bind_ok, q2, Res.bind_ok, q3, Res.bind_ok, q4, Res.bind_ok]
    cases hr : rgOrNew newRg rg glob with
    | ok g =>
      rw [Res.bind_ok, Res.bind_ok]
      exact (drawNoise1_takes (norm := norm01) a3 g.1).bind_notOk
        (fun w hd => hok ⟨g, w, hr, hd⟩) _ _
    | _ => rfl

/-- **C01, C02, C34, C43, two dimensions**, one field. -/
theorem simulate2D_eq {nx ny : ℕ} {dx dy sx sy : ℝ} {padx pady : ℤ} (hny : 1 < ny)
    (hx : DirOk p v nx (max v.rangeX v.rangeY) dx padx sx)
    (hy : DirOk p v ny (padRangeY v) dy pady sy) :
    ∃ tx ty r, IsTotal v nx (max v.rangeX v.rangeY) dx padx true tx ∧
      IsTotal v ny (padRangeY v) dy pady false ty ∧ nx ≤ tx ∧ ny ≤ ty ∧
      IsExtents rx ry rz az dp r ∧
      ∀ {F : Fftw} (_ : F.Laws) {σ γ : Type} (newRg : γ → Res (σ × γ)) (norm01 : σ → Res (ℝ × σ)) (rg : Option σ) (glob : γ),
        simulate2D F p newRg norm01 v nx dx ny dy 1 [] rg padx pady sx sy glob
          = (rgOrNew newRg rg glob).bind fun g => (draws norm01 (tx * ty) g.1).bind fun w =>
            .ok ([⟨nx, ny, (List.range (nx * ny)).map fun m =>
              field2 tx ty (gridCov2 v r tx dx ty dy sx sy) (fun a b => w.1.getD (a * ty + b) 0)
                (m % nx) (m / nx)⟩], w.2, g.2) := by
  obtain ⟨tx, ty, r, h1, h2, h3, h4, h5, H⟩ := simulate2D_value hv hny hx hy
  refine ⟨tx, ty, r, h1, h2, h3, h4, h5, ?_⟩
  intro F hF σ γ newRg norm01 rg glob
  obtain ⟨w0, hw0⟩ := counting_draws (1 * (tx * ty)) 0
  obtain ⟨out0, e0, -⟩ := H hF (fun u : Unit => .ok (0, u)) counting (some 0) () () 0 _ 1 w0 []
    (Or.inl ⟨rfl, rfl⟩) hw0
  have hcase : ∀ g, rgOrNew newRg rg glob = .ok g → UsesGenerator newRg rg glob g.1 g.2 := by
    intro g hg
    cases rg with
    | none => exact Or.inr ⟨rfl, hg⟩
    | some s =>
      simp only [rgOrNew, Res.ok.injEq] at hg
      exact Or.inl ⟨by rw [← hg], by rw [← hg]⟩
  have hK : ((1 : ℕ) : ℤ) = 1 := rfl
  rw [hK] at e0
  by_cases hok : ∃ g w, rgOrNew newRg rg glob = .ok g ∧ draws norm01 (tx * ty) g.1 = .ok w
  · obtain ⟨g, w, hg, hw⟩ := hok
    rw [← Nat.one_mul (tx * ty)] at hw
    obtain ⟨gs, eo, hl, hval⟩ := H hF newRg norm01 rg glob g.2 g.1 w.2 1 w.1 [] (hcase g hg) hw
    rw [hK] at eo
    rw [Nat.one_mul] at hw
    rw [eo, hg, Res.bind_ok, hw, Res.bind_ok, List.nil_append]
    congr 2
    obtain ⟨q, hq, a1, a2, a3, a4⟩ := hval 0 (by norm_num)
    obtain ⟨q', rfl⟩ := List.length_eq_one_iff.1 hl
    simp only [List.getElem?_cons_zero, Option.some.injEq] at hq
    subst hq
    congr 1
    obtain ⟨ni, nj, data⟩ := q'
    simp only at a1 a2 a3 a4
    subst a1 a2
    congr 1
    refine List.ext_getElem? fun m => ?_
    by_cases hm : m < ni * nj
    · have hni : 0 < ni := Nat.pos_of_ne_zero fun h => by subst h; simp at hm
      have hi := Nat.mod_lt m hni
      have hj : m / ni < nj := Nat.div_lt_of_lt_mul hm
      have := a4 (m % ni) (m / ni) hi hj
      rw [Nat.mod_add_div] at this
      rw [this]
      simp [hm]
    · rw [List.getElem?_eq_none (by omega), List.getElem?_eq_none (by simp; omega)]
  · unfold simulate2D at e0 ⊢
    simp only [Res.monad_bind_eq] at e0 ⊢
    obtain ⟨a1, q1, e0⟩ := Res.bind_eq_ok.1 e0
    obtain ⟨a2, q2, e0⟩ := Res.bind_eq_ok.1 e0
    obtain ⟨a3, q3, e0⟩ := Res.bind_eq_ok.1 e0
    obtain ⟨a4, q4, e0⟩ := Res.bind_eq_ok.1 e0
    obtain ⟨a5, q5, e0⟩ := Res.bind_eq_ok.1 e0
    obtain ⟨a6, q6, e0⟩ := Res.bind_eq_ok.1 e0
    obtain ⟨a7, q7, e0⟩ := Res.bind_eq_ok.1 e0
    simp only [Res.ok.injEq, Prod.mk.injEq] at e0
    simp only [rgOrNew, Res.ok.injEq] at q6
    have hg0 := (⟨rfl, rfl, Grid2D.wf_mk' a4.ni_tot a4.nj_tot (0 : ℝ)⟩ :
      (Grid2D.mk' a4.ni_tot a4.nj_tot (0 : ℝ)).ni = a4.ni_tot ∧
      (Grid2D.mk' a4.ni_tot a4.nj_tot (0 : ℝ)).nj = a4.nj_tot ∧ _)
    have h1' : (1 : ℤ).toNat = 1 := rfl
    have one : ∀ {A : Type} (body : ℕ → A → Res A) (a : A), forRange 0 1 body a = body 0 a := by
      intro A body a
      rw [forRange_succ (by norm_num)]
      rw [show (forRange (0 + 1) 1 body) = fun a => .ok a from
        funext fun a => forRange_empty (by norm_num) _ _]
      exact bind_ok_self _
    rw [h1', one] at q7
    have htx : a4.ni_tot * a4.nj_tot = tx * ty := by
      unfold fieldStep2 at q7
      rw [Res.monad_bind_eq] at q7
      obtain ⟨b1, q8, q7⟩ := Res.bind_eq_ok.1 q7
      obtain ⟨_, -, q7⟩ := Res.bind_eq_ok.1 q7
      obtain ⟨_, -, q7⟩ := Res.bind_eq_ok.1 q7
      obtain ⟨_, -, q7⟩ := Res.bind_eq_ok.1 q7
      obtain ⟨_, -, q7⟩ := Res.bind_eq_ok.1 q7
      obtain ⟨_, -, q7⟩ := Res.bind_eq_ok.1 q7
      simp only [Res.ok.injEq] at q7
      have := drawNoise2_takes (norm := counting) a4.ni_tot a4.nj_tot hg0 a6.1
      obtain ⟨w, hw⟩ := counting_draws (a4.ni_tot * a4.nj_tot) a6.1
      rw [hw, q8] at this
      cases this with
      | ok h =>
        have h6 := h.2
        have h7 := e0.2.1
        rw [← q7] at h7
        simp only at h7
        rw [h7, ← q6] at h6
        simp only at h6
        omega
    rw [q1, Res.bind_ok, q2, Res.bind_ok, q3, Res.bind_ok, q4, Res.bind_ok, q5, Res.bind_ok]
    cases hr : rgOrNew newRg rg glob with
    | ok g =>
      rw [Res.bind_ok, Res.bind_ok, h1', one]
      unfold fieldStep2
      rw [Res.monad_bind_eq, Res.bind_assoc, ← htx]
      exact (drawNoise2_takes (norm := norm01) a4.ni_tot a4.nj_tot hg0 g.1).bind_notOk
        (fun w hd => hok ⟨g, w, hr, htx ▸ hd⟩) _ _
    | _ => rfl

/-- **C01, C02, C34, C43, three dimensions**, one field. -/
theorem simulate3D_eq {nx ny nz : ℕ} {dx dy dz sx sy sz : ℝ} {padx pady padz : ℤ} (hny : 1 < ny)
    (hnz : 1 < nz) (hx : DirOk p v nx (max v.rangeX v.rangeY) dx padx sx)
    (hy : DirOk p v ny (padRangeY v) dy pady sy) (hz : DirOk p v nz v.rangeZ dz padz sz) :
    ∃ tx ty tz r, IsTotal v nx (max v.rangeX v.rangeY) dx padx true tx ∧
      IsTotal v ny (padRangeY v) dy pady false ty ∧ IsTotal v nz v.rangeZ dz padz false tz ∧
      nx ≤ tx ∧ ny ≤ ty ∧ nz ≤ tz ∧ IsExtents rx ry rz az dp r ∧
      ∀ {F : Fftw} (_ : F.Laws) {γ : Type} (norm01 : γ → Res (ℝ × γ)) (s : γ),
        simulate3D F p norm01 v nx dx ny dy nz dz 1 [] padx pady padz sx sy sz s
          = (draws norm01 (tx * ty * tz) s).bind fun w =>
            .ok ([⟨nx, ny, nz, (List.range (nx * ny * nz)).map fun m =>
              field3 tx ty tz (gridCov3 v r tx dx ty dy tz dz sx sy sz)
                (fun a b c => w.1.getD ((a * ty + b) * tz + c) 0)
                (m % nx) (m / nx % ny) (m / nx / ny)⟩], w.2) := by
  obtain ⟨tx, ty, tz, r, h1, h2, h3, h4, h5, h6, h7, H⟩ := simulate3D_value hv hny hnz hx hy hz
  refine ⟨tx, ty, tz, r, h1, h2, h3, h4, h5, h6, h7, ?_⟩
  intro F hF γ norm01 glob
  obtain ⟨w0, hw0⟩ := counting_draws (1 * (tx * ty * tz)) 0
  obtain ⟨out0, e0, -⟩ := H hF counting 0 _ 1 w0 [] hw0
  have hK : ((1 : ℕ) : ℤ) = 1 := rfl
  rw [hK] at e0
  by_cases hok : ∃ w, draws norm01 (tx * ty * tz) glob = .ok w
  · obtain ⟨w, hw⟩ := hok
    rw [← Nat.one_mul (tx * ty * tz)] at hw
    obtain ⟨gs, eo, hl, hval⟩ := H hF norm01 glob w.2 1 w.1 [] hw
    rw [hK] at eo
    rw [Nat.one_mul] at hw
    rw [eo, hw, Res.bind_ok, List.nil_append]
    congr 2
    obtain ⟨q, hq, a1, a2, a3, a4, a5⟩ := hval 0 (by norm_num)
    obtain ⟨q', rfl⟩ := List.length_eq_one_iff.1 hl
    simp only [List.getElem?_cons_zero, Option.some.injEq] at hq
    subst hq
    congr 1
    obtain ⟨ni, nj, nk, data⟩ := q'
    simp only at a1 a2 a3 a4 a5
    subst a1 a2 a3
    congr 1
    refine List.ext_getElem? fun m => ?_
    by_cases hm : m < ni * nj * nk
    · have hni : 0 < ni := Nat.pos_of_ne_zero fun h => by subst h; simp at hm
      have hnj : 0 < nj := Nat.pos_of_ne_zero fun h => by subst h; simp at hm
      have hi := Nat.mod_lt m hni
      have hj := Nat.mod_lt (m / ni) hnj
      have hk : m / ni / nj < nk := by
        rw [Nat.div_div_eq_div_mul]; exact Nat.div_lt_of_lt_mul hm
      have := a5 (m % ni) (m / ni % nj) (m / ni / nj) hi hj hk
      rw [Nat.mod_add_div, Nat.mod_add_div] at this
      rw [this]
      simp [hm]
    · rw [List.getElem?_eq_none (by omega), List.getElem?_eq_none (by simp; omega)]
  · unfold simulate3D at e0 ⊢
    simp only [Res.monad_bind_eq] at e0 ⊢
    obtain ⟨a1, q1, e0⟩ := Res.bind_eq_ok.1 e0
    obtain ⟨a2, q2, e0⟩ := Res.bind_eq_ok.1 e0
    obtain ⟨a3, q3, e0⟩ := Res.bind_eq_ok.1 e0
    obtain ⟨a3', q3', e0⟩ := Res.bind_eq_ok.1 e0
    obtain ⟨a4, q4, e0⟩ := Res.bind_eq_ok.1 e0
    obtain ⟨a5, q5, e0⟩ := Res.bind_eq_ok.1 e0
    obtain ⟨a7, q7, e0⟩ := Res.bind_eq_ok.1 e0
    simp only [Res.ok.injEq, Prod.mk.injEq] at e0
    have hg0 := (⟨rfl, rfl, rfl, Grid3D.wf_mk' a4.ni_tot a4.nj_tot a4.nk_tot (0 : ℝ)⟩ :
      (Grid3D.mk' a4.ni_tot a4.nj_tot a4.nk_tot (0 : ℝ)).ni = a4.ni_tot ∧
      (Grid3D.mk' a4.ni_tot a4.nj_tot a4.nk_tot (0 : ℝ)).nj = a4.nj_tot ∧
      (Grid3D.mk' a4.ni_tot a4.nj_tot a4.nk_tot (0 : ℝ)).nk = a4.nk_tot ∧ _)
    have h1' : (1 : ℤ).toNat = 1 := rfl
    have one : ∀ {A : Type} (body : ℕ → A → Res A) (a : A), forRange 0 1 body a = body 0 a := by
      intro A body a
      rw [forRange_succ (by norm_num)]
      rw [show (forRange (0 + 1) 1 body) = fun a => .ok a from
        funext fun a => forRange_empty (by norm_num) _ _]
      exact bind_ok_self _
    rw [h1', one] at q7
    have htx : a4.ni_tot * (a4.nj_tot * a4.nk_tot) = tx * ty * tz := by
      unfold fieldStep3 at q7
      rw [Res.monad_bind_eq] at q7
      obtain ⟨b1, q8, q7⟩ := Res.bind_eq_ok.1 q7
      obtain ⟨_, -, q7⟩ := Res.bind_eq_ok.1 q7
      obtain ⟨_, -, q7⟩ := Res.bind_eq_ok.1 q7
      obtain ⟨_, -, q7⟩ := Res.bind_eq_ok.1 q7
      obtain ⟨_, -, q7⟩ := Res.bind_eq_ok.1 q7
      obtain ⟨_, -, q7⟩ := Res.bind_eq_ok.1 q7
      simp only [Res.ok.injEq] at q7
      have := drawNoise3_takes (norm := counting) a4.ni_tot a4.nj_tot a4.nk_tot hg0 0
      obtain ⟨w, hw⟩ := counting_draws (a4.ni_tot * (a4.nj_tot * a4.nk_tot)) 0
      rw [hw, q8] at this
      cases this with
      | ok h =>
        have h6 := h.2
        have h7 := e0.2
        rw [← q7] at h7
        simp only at h7
        rw [h7] at h6
        simp only at h6
        omega
    rw [q1, Res.bind_ok, q2, Res.bind_ok, q3, Res.bind_ok, q3', Res.bind_ok, q4, Res.bind_ok, q5,
      Res.bind_ok, h1', one]
    unfold fieldStep3
    rw [Res.monad_bind_eq, Res.bind_assoc, ← htx]
    exact (drawNoise3_takes (norm := norm01) a4.ni_tot a4.nj_tot a4.nk_tot hg0 glob).bind_notOk
      (fun w hd => hok ⟨w, htx ▸ hd⟩) _ _

end

end Verif
