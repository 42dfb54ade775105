import Verif.Props.Volume

/-!
# Thickness, extremes and changes of volumes
-/

namespace Verif

open Classical

/-- The sample points of `RecalculateLZ`. -/
noncomputable def lzSample (V : Volume) (i j : ℕ) : ℝ × ℝ := areaPoint V.x_min V.y_min V.angle (V.lx / 100 * i) (V.ly / 100 * j)

/-- What is known of the thickness after the sample points in `P` have been looked at. -/
def LzInv (V : Volume) (zt zb : ℝ → ℝ → ℝ) (P : ℕ → ℕ → Prop) (lz : ℝ) : Prop :=
  0 ≤ lz ∧ (∀ i j, P i j → ¬ V.top.isMissing (zt (lzSample V i j).1 (lzSample V i j).2) →
    ¬ V.bot.isMissing (zb (lzSample V i j).1 (lzSample V i j).2) →
    zb (lzSample V i j).1 (lzSample V i j).2 - zt (lzSample V i j).1 (lzSample V i j).2 ≤ lz) ∧
  (lz = 0 ∨ ∃ i j, P i j ∧ ¬ V.top.isMissing (zt (lzSample V i j).1 (lzSample V i j).2) ∧
    ¬ V.bot.isMissing (zb (lzSample V i j).1 (lzSample V i j).2) ∧
    lz = zb (lzSample V i j).1 (lzSample V i j).2 - zt (lzSample V i j).1 (lzSample V i j).2)

theorem lzPoint_inv {V : Volume} {zt zb : ℝ → ℝ → ℝ} (ht : V.top.HasHeights zt) (hb : V.bot.HasHeights zb) {P Q : ℕ → ℕ → Prop} {i j : ℕ} {lz : ℝ}
    (hPQ : ∀ a b, Q a b ↔ P a b ∨ (a = i ∧ b = j)) (h : LzInv V zt zb P lz) :
    (V.lzPoint (V.lx / 100) (V.ly / 100) i j lz).Sat (LzInv V zt zb Q) := by
  have e : V.localToGlobal (V.lx / 100 * i) (V.ly / 100 * j) = lzSample V i j := by
    unfold Volume.localToGlobal lzSample areaPoint
    apply Prod.ext <;> simp only <;> ring
  unfold Volume.lzPoint
  simp only [e]
  rw [hb _ _, ht _ _]
  obtain ⟨h0, h1, h2⟩ := h
  show Res.Sat (if _ then Res.ok _ else Res.ok lz) _
  split_ifs with hc
  · refine ⟨_, rfl, h0.trans (le_max_left _ _), ?_, ?_⟩
    · intro a b hab m1 m2
      rcases (hPQ a b).1 hab with g | ⟨rfl, rfl⟩
      · exact (h1 a b g m1 m2).trans (le_max_left _ _)
      · exact le_max_right _ _
    · rcases le_total lz (zb (lzSample V i j).1 (lzSample V i j).2 - zt (lzSample V i j).1 (lzSample V i j).2) with g | g
      · right
        exact ⟨i, j, (hPQ i j).2 (Or.inr ⟨rfl, rfl⟩), hc.2, hc.1, max_eq_right g⟩
      · rw [max_eq_left g]
        rcases h2 with g2 | ⟨a, b, g1, g2⟩
        · exact Or.inl g2
        · exact Or.inr ⟨a, b, (hPQ a b).2 (Or.inl g1), g2⟩
  · refine ⟨_, rfl, h0, ?_, ?_⟩
    · intro a b hab m1 m2
      rcases (hPQ a b).1 hab with g | ⟨rfl, rfl⟩
      · exact h1 a b g m1 m2
      · exact absurd ⟨m2, m1⟩ hc
    · rcases h2 with g2 | ⟨a, b, g1, g2⟩
      · exact Or.inl g2
      · exact Or.inr ⟨a, b, (hPQ a b).2 (Or.inl g1), g2⟩

/-- The height of a volume is the greatest thickness at one hundred times one hundred points of the area where both surfaces are
defined, and zero if there is none with a positive thickness. Missing: the greatest thickness of the volume. -/
theorem recalculateLZ_partial (V : Volume) (harea : 0 < V.lx ∨ 0 < V.ly) {zt zb : ℝ → ℝ → ℝ} (ht : V.top.HasHeights zt) (hb : V.bot.HasHeights zb) :
    ∃ lz, V.recalculateLZ = .ok lz ∧ LzInv V zt zb (fun i j => i < 100 ∧ j < 100) lz := by
  unfold Volume.recalculateLZ
  have z : (0.0 : ℝ) = 0 := by norm_num
  rw [z, if_pos harea]
  simp only
  have start : LzInv V zt zb (fun i _ => i < 0 ∧ True) 0 := ⟨le_rfl, fun i j h => absurd h.1 (Nat.not_lt_zero _), Or.inl rfl⟩
  have := forRange_sat (fun i => LzInv V zt zb (fun a b => a < i ∧ b < 100)) (lo := 0) (hi := 100) (by norm_num)
    (body := fun i lz => forRange 0 100 (fun j lz => V.lzPoint (V.lx / 100) (V.ly / 100) i j lz) lz)
    (s := 0) ⟨le_rfl, fun i j h => absurd h.1 (Nat.not_lt_zero _), Or.inl rfl⟩ (by
      intro i lz _ hi hinv
      have inner := forRange_sat (fun j => LzInv V zt zb (fun a b => (a < i ∧ b < 100) ∨ (a = i ∧ b < j))) (lo := 0) (hi := 100) (by norm_num)
        (body := fun j lz => V.lzPoint (V.lx / 100) (V.ly / 100) i j lz) (s := lz) (by
          obtain ⟨g0, g1, g2⟩ := hinv
          refine ⟨g0, fun a b hab => g1 a b (by rcases hab with h | ⟨_, h⟩; exact h; exact absurd h (Nat.not_lt_zero _)), ?_⟩
          rcases g2 with g | ⟨a, b, g, g'⟩
          · exact Or.inl g
          · exact Or.inr ⟨a, b, Or.inl g, g'⟩) (by
          intro j lz _ hj hinv
          exact lzPoint_inv ht hb (fun a b => by omega) hinv)
      obtain ⟨r, hr, g0, g1, g2⟩ := inner
      refine ⟨r, hr, g0, fun a b hab => g1 a b (by omega), ?_⟩
      rcases g2 with g | ⟨a, b, g, g'⟩
      · exact Or.inl g
      · exact Or.inr ⟨a, b, by omega, g'⟩)
  exact this

/-- A surface with heights `z` and no missing values. -/
def VSurf.plain (z : ℝ → ℝ → ℝ) (lo hi : ℝ) : VSurf := ⟨fun x y => .ok (z x y), fun _ => False, fun _ _ _ _ => true, fun _ _ => true, .ok lo, .ok hi⟩

/-- The volume over the unit square with top 0 and bottom `x`: its thickness at the far side is 1, its height is 0.99. -/
theorem recalculateLZ_violation : ∃ V, Volume.ofSurfaces 0 0 1 1 (.constant 0) (.plain (fun x _ => x) 0 1) 0 = .ok V ∧ V.isInsideXY 1 0 = true ∧
    V.bot.getZ 1 0 = .ok 1 ∧ V.top.getZ 1 0 = .ok 0 ∧ V.lz = 0.99 := by
  obtain ⟨lz, h1, -, h2, h3⟩ := recalculateLZ_partial ⟨0, 0, 1, 1, 0, .constant 0, .plain (fun x _ => x) 0 1, none, none, 0, 1e-6⟩ (by norm_num)
    (zt := fun _ _ => 0) (zb := fun x _ => x) (fun x y => rfl) (fun x y => rfl)
  refine ⟨⟨0, 0, 1, 1, lz, .constant 0, .plain (fun x _ => x) 0 1, none, none, 0, 1e-6⟩, ?_, by norm_num [Volume.isInsideXY], rfl, rfl, ?_⟩
  · unfold Volume.ofSurfaces
    simp only
    rw [h1]
    rfl
  · have g := h2 99 0 ⟨by norm_num, by norm_num⟩ (fun h => h) (fun h => h)
    norm_num [lzSample, areaPoint] at g
    show lz = 0.99
    rcases h3 with h3 | ⟨i, j, ⟨hi, hj⟩, -, -, h3⟩
    · norm_num [h3] at g
    · norm_num [lzSample, areaPoint] at h3
      have : (i : ℝ) ≤ 99 := by exact_mod_cast Nat.le_of_lt_succ hi
      norm_num
      linarith

/-- The centres of the cells of `GetZExtreme`. -/
noncomputable def cellCentre (V : Volume) (nx ny i j : ℕ) : ℝ × ℝ :=
  areaPoint V.x_min V.y_min V.angle ((i + 1 / 2) * (V.lx / nx)) ((j + 1 / 2) * (V.ly / ny))

/-- `r` is the best of the defined heights at the points in `P`, `le` saying which of two is better; if there is none, it is a height all
the same, at a point in `Q`. -/
def Best (S : VSurf) (z : ℝ × ℝ → ℝ) (le : ℝ → ℝ → Prop) (c : ℕ → ℕ → ℝ × ℝ) (P Q : ℕ → ℕ → Prop) (r : ℝ) : Prop :=
  (∃ i j, Q i j ∧ r = z (c i j)) ∧ ∀ i j, P i j → ¬ S.isMissing (z (c i j)) → ¬ S.isMissing r ∧ le r (z (c i j))

theorem extreme_spec (V : Volume) (harea : 0 < V.lx ∨ 0 < V.ly) {nx ny : ℕ} (hnx : 0 < nx) (hny : 0 < ny) (S : VSurf) {z : ℝ → ℝ → ℝ} (hS : S.HasHeights z)
    (getmin : Bool) : ∃ r, V.getZExtreme nx ny S getmin = .ok r ∧
      Best S (fun p => z p.1 p.2) (fun a b => if getmin then a ≤ b else b ≤ a) (cellCentre V nx ny) (fun i j => i < nx ∧ j < ny)
        (fun i j => i < nx ∧ j < ny) r := by
  have z0 : (0.0 : ℝ) = 0 := by norm_num
  have hnx' : (nx : ℝ) ≠ 0 := by positivity
  have hny' : (ny : ℝ) ≠ 0 := by positivity
  unfold Volume.getZExtreme
  rw [z0, if_pos harea]
  unfold divD
  rw [if_neg hnx', if_neg hny']
  simp only [Res.monad_bind_eq, Res.bind_ok]
  have cx : ∀ i j : ℕ, V.x_min + 0.5 * (Real.cos V.angle * (V.lx / nx) + -Real.sin V.angle * (V.ly / ny)) + -Real.sin V.angle * (V.ly / ny) * j +
      Real.cos V.angle * (V.lx / nx) * i = (cellCentre V nx ny i j).1 := by
    intro i j
    norm_num [cellCentre, areaPoint]
    ring
  have cy : ∀ i j : ℕ, V.y_min + 0.5 * (Real.sin V.angle * (V.lx / nx) + Real.cos V.angle * (V.ly / ny)) + Real.cos V.angle * (V.ly / ny) * j +
      Real.sin V.angle * (V.lx / nx) * i = (cellCentre V nx ny i j).2 := by
    intro i j
    norm_num [cellCentre, areaPoint]
    ring
  have c0x := cx 0 0
  have c0y := cy 0 0
  simp only [Nat.cast_zero, mul_zero, add_zero] at c0x c0y
  rw [hS _ _, Res.bind_ok, c0x, c0y]
  set c := cellCentre V nx ny with hc
  set le : ℝ → ℝ → Prop := fun a b => if getmin then a ≤ b else b ≤ a with hle
  have le_refl' : ∀ a, le a a := by intro a; rw [hle]; simp
  have le_trans' : ∀ a b d, le a b → le b d → le a d := by
    intro a b d h1 h2
    rw [hle] at *
    cases getmin
    · simp at *; exact h2.trans h1
    · simp at *; exact h1.trans h2
  -- one point
  have point : ∀ (P P' : ℕ → ℕ → Prop) (i j : ℕ) (r : ℝ), i < nx → j < ny → (∀ a b, P' a b ↔ P a b ∨ (a = i ∧ b = j)) →
      Best S (fun p => z p.1 p.2) le c P (fun i j => i < nx ∧ j < ny) r →
      Best S (fun p => z p.1 p.2) le c P' (fun i j => i < nx ∧ j < ny)
        (if ¬ S.isMissing (z (c i j).1 (c i j).2) ∧ (S.isMissing r ∨ (getmin = true ∧ z (c i j).1 (c i j).2 < r) ∨ (getmin = false ∧ z (c i j).1 (c i j).2 > r))
          then z (c i j).1 (c i j).2 else r) := by
    intro P P' i j r hi hj hPP ⟨g1, g2⟩
    split_ifs with h
    · refine ⟨⟨i, j, ⟨hi, hj⟩, rfl⟩, fun a b hab hm => ⟨h.1, ?_⟩⟩
      rcases (hPP a b).1 hab with g | ⟨rfl, rfl⟩
      · obtain ⟨k1, k2⟩ := g2 a b g hm
        refine le_trans' _ _ _ ?_ k2
        rcases h.2 with h2 | ⟨h2, h3⟩ | ⟨h2, h3⟩
        · exact absurd h2 k1
        · rw [hle]; simp [h2]; exact h3.le
        · rw [hle]; simp [h2]; exact h3.le
      · exact le_refl' _
    · refine ⟨g1, fun a b hab hm => ?_⟩
      rcases (hPP a b).1 hab with g | ⟨rfl, rfl⟩
      · exact g2 a b g hm
      · have hr : ¬ S.isMissing r := fun hc => h ⟨hm, Or.inl hc⟩
        refine ⟨hr, ?_⟩
        rw [hle]
        cases hg : getmin
        · simp
          by_contra hlt
          exact h ⟨hm, Or.inr (Or.inr ⟨hg, not_le.1 hlt⟩)⟩
        · simp
          by_contra hlt
          exact h ⟨hm, Or.inr (Or.inl ⟨hg, not_le.1 hlt⟩)⟩
  have rows := forRange_sat (fun j r => Best S (fun p => z p.1 p.2) le c (fun a b => a < nx ∧ b < j) (fun i j => i < nx ∧ j < ny) r)
    (lo := 0) (hi := ny) (Nat.zero_le _)
    (body := Volume.extremeRow S getmin nx (Real.cos V.angle * (V.lx / nx)) (Real.sin V.angle * (V.lx / nx)) (-Real.sin V.angle * (V.ly / ny))
      (Real.cos V.angle * (V.ly / ny)) (c 0 0).1 (c 0 0).2) (s := z (c 0 0).1 (c 0 0).2)
    ⟨⟨0, 0, ⟨hnx, hny⟩, rfl⟩, fun i j h => absurd h.2 (Nat.not_lt_zero _)⟩ (by
      intro j r _ hj hinv
      unfold Volume.extremeRow
      have inner := forRange_sat (fun i (st : ℝ × ℝ × ℝ) => (i < nx → st.1 = (c i j).1 ∧ st.2.1 = (c i j).2) ∧
          Best S (fun p => z p.1 p.2) le c (fun a b => (a < nx ∧ b < j) ∨ (a < i ∧ b = j)) (fun i j => i < nx ∧ j < ny) st.2.2)
        (lo := 0) (hi := nx) (Nat.zero_le _) (body := Volume.extremePoint S getmin (Real.cos V.angle * (V.lx / nx)) (Real.sin V.angle * (V.lx / nx)))
        (s := ((c 0 0).1 + -Real.sin V.angle * (V.ly / ny) * j, (c 0 0).2 + Real.cos V.angle * (V.ly / ny) * j, r))
        ⟨fun _ => by
          have h1 := cx 0 j
          have h2 := cy 0 j
          simp only [Nat.cast_zero, mul_zero, add_zero] at h1 h2
          rw [← h1, ← h2, ← c0x, ← c0y]
          exact ⟨rfl, rfl⟩, by
          obtain ⟨g1, g2⟩ := hinv
          exact ⟨g1, fun a b hab => g2 a b (by rcases hab with h | ⟨h, _⟩; exact h; exact absurd h (Nat.not_lt_zero _))⟩⟩ (by
          rintro i ⟨x, y, r⟩ _ hi ⟨hp, hinv⟩
          obtain ⟨e1, e2⟩ := hp hi
          simp only at e1 e2 hinv
          subst e1 e2
          unfold Volume.extremePoint
          simp only
          rw [hS _ _]
          refine ⟨_, rfl, fun _ => ?_, ?_⟩
          · have h1 := cx i j
            have h2 := cx (i + 1) j
            have h3 := cy i j
            have h4 := cy (i + 1) j
            push_cast at h2 h4
            constructor
            · simp only; linarith
            · simp only; linarith
          · exact point _ _ i j r hi hj (fun a b => by omega) hinv)
      obtain ⟨st, hst, -, g1, g2⟩ := inner
      simp only [Res.monad_bind_eq]
      rw [hst]
      exact ⟨_, rfl, g1, fun a b hab => g2 a b (by omega)⟩)
  obtain ⟨r, hr, hbest⟩ := rows
  exact ⟨r, hr, hbest⟩

end Verif
