import Verif.Model.Grid
import Verif.Lemmas.Outcome
import Mathlib.Tactic.Ring
import Mathlib.Tactic.Linarith

/-! Helper lemmas for `Grid2D` and `Grid3D`. -/

namespace Verif

theorem idx2_lt {ni nj i j : ℕ} (hi : i < ni) (hj : j < nj) : i + j * ni < ni * nj := by
  have : (j + 1) * ni ≤ nj * ni := Nat.mul_le_mul_right _ hj
  nlinarith

theorem idx2_inj {ni i j i' j' : ℕ} (hi : i < ni) (hi' : i' < ni)
    (h : i + j * ni = i' + j' * ni) : i = i' ∧ j = j' := by
  have h1 : i = i' := by
    have := congrArg (· % ni) h
    simpa [Nat.add_mul_mod_self_right, Nat.mod_eq_of_lt hi, Nat.mod_eq_of_lt hi'] using this
  subst h1
  refine ⟨rfl, ?_⟩
  have : j * ni = j' * ni := by omega
  exact Nat.eq_of_mul_eq_mul_right (by omega) this

theorem idx3_eq (ni nj i j k : ℕ) : i + j * ni + k * ni * nj = i + (j + k * nj) * ni := by ring

theorem idx3_lt {ni nj nk i j k : ℕ} (hi : i < ni) (hj : j < nj) (hk : k < nk) :
    i + j * ni + k * ni * nj < ni * nj * nk := by
  rw [idx3_eq, mul_assoc]
  exact idx2_lt hi (idx2_lt hj hk)

theorem idx3_inj {ni nj i j k i' j' k' : ℕ} (hi : i < ni) (hi' : i' < ni) (hj : j < nj)
    (hj' : j' < nj) (h : i + j * ni + k * ni * nj = i' + j' * ni + k' * ni * nj) :
    i = i' ∧ j = j' ∧ k = k' := by
  rw [idx3_eq, idx3_eq] at h
  obtain ⟨h1, h2⟩ := idx2_inj hi hi' h
  obtain ⟨h3, h4⟩ := idx2_inj hj hj' h2
  exact ⟨h1, h3, h4⟩

namespace Grid2D
variable {α : Type}

/-- Data length and dimensions agree. -/
def WF (g : Grid2D α) : Prop := g.data.length = g.ni * g.nj

theorem wf_mk' (ni nj : ℕ) (x : α) : (mk' ni nj x).WF := by simp [WF, mk']

theorem get_eq (g : Grid2D α) {i j : ℕ} (hi : i < g.ni) (hj : j < g.nj) :
    g.get i j = rd g.data (i + j * g.ni) := by
  simp [get, getIndex, hi, hj]

theorem set_sat (g : Grid2D α) (hg : g.WF) {i j : ℕ} (hi : i < g.ni) (hj : j < g.nj) (x : α) :
    (g.set i j x).Sat fun g' => g'.ni = g.ni ∧ g'.nj = g.nj ∧ g'.WF ∧
      ∀ a b, a < g.ni → b < g.nj → g'.get a b = if a = i ∧ b = j then .ok x else g.get a b := by
  have hlt : i + j * g.ni < g.data.length := by rw [hg]; exact idx2_lt hi hj
  simp only [set, getIndex, hi, hj, and_self, if_true, Res.bind_ok, wr_ok hlt, Res.sat_ok]
  refine ⟨trivial, trivial, by simp only [WF, List.length_set]; exact hg, ?_⟩
  intro a b ha hb
  rw [get_eq _ (by exact ha) (by exact hb), get_eq g ha hb]
  simp only [rd, List.getElem?_set]
  by_cases h : a = i ∧ b = j
  · obtain ⟨rfl, rfl⟩ := h
    simp [hlt]
  · have hne : i + j * g.ni ≠ a + b * g.ni := fun he => h (by
      obtain ⟨h1, h2⟩ := idx2_inj hi ha he
      exact ⟨h1.symm, h2.symm⟩)
    simp [h, hne]

/-- The grid has the given dimensions and every cell in `S` holds `f`. -/
def Filled (ni nj : ℕ) (S : ℕ → ℕ → Prop) (f : ℕ → ℕ → α) (g : Grid2D α) : Prop :=
  g.ni = ni ∧ g.nj = nj ∧ g.WF ∧ ∀ i j, i < ni → j < nj → S i j → g.get i j = .ok (f i j)

theorem Filled.mono {ni nj : ℕ} {S T : ℕ → ℕ → Prop} {f : ℕ → ℕ → α} {g : Grid2D α}
    (h : Filled ni nj S f g) (hst : ∀ i j, i < ni → j < nj → T i j → S i j) :
    Filled ni nj T f g :=
  ⟨h.1, h.2.1, h.2.2.1, fun i j hi hj ht => h.2.2.2 i j hi hj (hst i j hi hj ht)⟩

theorem Filled.set {ni nj : ℕ} {S : ℕ → ℕ → Prop} {f : ℕ → ℕ → α} {g : Grid2D α}
    (h : Filled ni nj S f g) {i j : ℕ} (hi : i < ni) (hj : j < nj) {x : α} (hx : x = f i j) :
    (g.set i j x).Sat (Filled ni nj (fun a b => S a b ∨ (a = i ∧ b = j)) f) := by
  obtain ⟨h1, h2, h3, h4⟩ := h
  refine (set_sat g h3 (h1 ▸ hi) (h2 ▸ hj) x).mono ?_
  rintro g' ⟨e1, e2, e3, e4⟩
  refine ⟨e1.trans h1, e2.trans h2, e3, ?_⟩
  intro a b ha hb hab
  rw [e4 a b (h1 ▸ ha) (h2 ▸ hb)]
  split
  · rename_i hc; rw [hx, hc.1, hc.2]
  · rename_i hc
    exact h4 a b ha hb (hab.resolve_right hc)

theorem filled_mk' (ni nj : ℕ) (x : α) (f : ℕ → ℕ → α) :
    Filled ni nj (fun _ _ => False) f (mk' ni nj x) :=
  ⟨rfl, rfl, wf_mk' _ _ _, fun _ _ _ _ h => h.elim⟩

end Grid2D

namespace Grid3D
variable {α : Type}

/-- Data length and dimensions agree. -/
def WF (g : Grid3D α) : Prop := g.data.length = g.ni * g.nj * g.nk

theorem wf_mk' (ni nj nk : ℕ) (x : α) : (mk' ni nj nk x).WF := by simp [WF, mk']

theorem get_eq (g : Grid3D α) {i j k : ℕ} (hi : i < g.ni) (hj : j < g.nj) (hk : k < g.nk) :
    g.get i j k = rd g.data (i + j * g.ni + k * g.ni * g.nj) := by
  simp [get, getIndex, hi, hj, hk]

theorem set_sat (g : Grid3D α) (hg : g.WF) {i j k : ℕ} (hi : i < g.ni) (hj : j < g.nj)
    (hk : k < g.nk) (x : α) :
    (g.set i j k x).Sat fun g' => g'.ni = g.ni ∧ g'.nj = g.nj ∧ g'.nk = g.nk ∧ g'.WF ∧
      ∀ a b c, a < g.ni → b < g.nj → c < g.nk →
        g'.get a b c = if a = i ∧ b = j ∧ c = k then .ok x else g.get a b c := by
  have hlt : i + j * g.ni + k * g.ni * g.nj < g.data.length := by rw [hg]; exact idx3_lt hi hj hk
  simp only [set, getIndex, hi, hj, hk, and_self, if_true, Res.bind_ok, wr_ok hlt, Res.sat_ok]
  refine ⟨trivial, trivial, trivial, by simp only [WF, List.length_set]; exact hg, ?_⟩
  intro a b c ha hb hc
  rw [get_eq _ (by exact ha) (by exact hb) (by exact hc), get_eq g ha hb hc]
  simp only [rd, List.getElem?_set]
  by_cases h : a = i ∧ b = j ∧ c = k
  · obtain ⟨rfl, rfl, rfl⟩ := h
    simp [hlt]
  · have hne : i + j * g.ni + k * g.ni * g.nj ≠ a + b * g.ni + c * g.ni * g.nj := fun he => h (by
      obtain ⟨h1, h2, h3⟩ := idx3_inj hi ha hj hb he
      exact ⟨h1.symm, h2.symm, h3.symm⟩)
    simp [h, hne]

/-- The grid has the given dimensions and every cell in `S` holds `f`. -/
def Filled (ni nj nk : ℕ) (S : ℕ → ℕ → ℕ → Prop) (f : ℕ → ℕ → ℕ → α) (g : Grid3D α) : Prop :=
  g.ni = ni ∧ g.nj = nj ∧ g.nk = nk ∧ g.WF ∧
    ∀ i j k, i < ni → j < nj → k < nk → S i j k → g.get i j k = .ok (f i j k)

theorem Filled.mono {ni nj nk : ℕ} {S T : ℕ → ℕ → ℕ → Prop} {f : ℕ → ℕ → ℕ → α} {g : Grid3D α}
    (h : Filled ni nj nk S f g)
    (hst : ∀ i j k, i < ni → j < nj → k < nk → T i j k → S i j k) : Filled ni nj nk T f g :=
  ⟨h.1, h.2.1, h.2.2.1, h.2.2.2.1,
    fun i j k hi hj hk ht => h.2.2.2.2 i j k hi hj hk (hst i j k hi hj hk ht)⟩

theorem Filled.set {ni nj nk : ℕ} {S : ℕ → ℕ → ℕ → Prop} {f : ℕ → ℕ → ℕ → α} {g : Grid3D α}
    (h : Filled ni nj nk S f g) {i j k : ℕ} (hi : i < ni) (hj : j < nj) (hk : k < nk) {x : α}
    (hx : x = f i j k) :
    (g.set i j k x).Sat (Filled ni nj nk (fun a b c => S a b c ∨ (a = i ∧ b = j ∧ c = k)) f) := by
  obtain ⟨h1, h2, h5, h3, h4⟩ := h
  refine (set_sat g h3 (h1 ▸ hi) (h2 ▸ hj) (h5 ▸ hk) x).mono ?_
  rintro g' ⟨e1, e2, e5, e3, e4⟩
  refine ⟨e1.trans h1, e2.trans h2, e5.trans h5, e3, ?_⟩
  intro a b c ha hb hc hab
  rw [e4 a b c (h1 ▸ ha) (h2 ▸ hb) (h5 ▸ hc)]
  split
  · rename_i hq; rw [hx, hq.1, hq.2.1, hq.2.2]
  · rename_i hq
    exact h4 a b c ha hb hc (hab.resolve_right hq)

theorem filled_mk' (ni nj nk : ℕ) (x : α) (f : ℕ → ℕ → ℕ → α) :
    Filled ni nj nk (fun _ _ _ => False) f (mk' ni nj nk x) :=
  ⟨rfl, rfl, rfl, wf_mk' _ _ _ _, fun _ _ _ _ _ _ h => h.elim⟩

end Grid3D

end Verif
