import Verif.Model.SegyTraces
import Verif.Lemmas.SegySetup

/-!
# Lemmas about the traces of a seismic cube
-/

namespace Verif

open Classical

namespace SegyTrace

/-- The traces that a loop does not pass over. -/
noncomputable def present (ts : List (Option SegyTrace)) : List SegyTrace :=
  ts.filterMap fun o => o.bind fun t => if t.HasLines then some t else none

theorem mem_present {ts : List (Option SegyTrace)} {t : SegyTrace} : t ∈ present ts ↔ some t ∈ ts ∧ t.HasLines := by
  unfold present
  rw [List.mem_filterMap]
  constructor
  · rintro ⟨o, ho, h⟩
    obtain ⟨u, rfl, hu⟩ := Option.bind_eq_some_iff.1 h
    split at hu
    · injection hu with hu
      subst hu
      exact ⟨ho, by assumption⟩
    · cases hu
  · rintro ⟨h, hl⟩
    exact ⟨some t, h, by simp [hl]⟩

theorem foldl_visit {α : Type} (f : α → SegyTrace → α) (ts : List (Option SegyTrace)) (a : α) :
    ts.foldl (visit f) a = (present ts).foldl f a := by
  induction ts generalizing a with
  | nil => rfl
  | cons o ts ih =>
    rw [List.foldl_cons, ih]
    cases o with
    | none => simp [visit, present]
    | some t =>
      by_cases h : t.HasLines
      · simp [visit, present, h]
      · simp [visit, present, h]

theorem fold_min (f : SegyTrace → ℤ) (L : List SegyTrace) (m : ℤ) :
    L.foldl (fun m t => if f t < m then f t else m) m ≤ m ∧
    (∀ t ∈ L, L.foldl (fun m t => if f t < m then f t else m) m ≤ f t) ∧
    (L.foldl (fun m t => if f t < m then f t else m) m = m ∨
      ∃ t ∈ L, f t = L.foldl (fun m t => if f t < m then f t else m) m) := by
  induction L generalizing m with
  | nil => simp
  | cons u L ih =>
    rw [List.foldl_cons]
    obtain ⟨h1, h2, h3⟩ := ih (if f u < m then f u else m)
    have hu : (if f u < m then f u else m) ≤ m ∧ (if f u < m then f u else m) ≤ f u := by split <;> omega
    refine ⟨by omega, ?_, ?_⟩
    · intro t ht
      rcases List.mem_cons.1 ht with rfl | ht
      · omega
      · exact h2 t ht
    · rcases h3 with h3 | ⟨t, ht, h3⟩
      · by_cases hc : f u < m
        · right
          rw [if_pos hc] at h3 ⊢
          exact ⟨u, List.mem_cons_self, h3.symm⟩
        · left
          rw [if_neg hc] at h3 ⊢
          exact h3
      · exact .inr ⟨t, List.mem_cons_of_mem _ ht, h3⟩

theorem fold_max (f : SegyTrace → ℤ) (L : List SegyTrace) (m : ℤ) :
    m ≤ L.foldl (fun m t => if f t > m then f t else m) m ∧
    (∀ t ∈ L, f t ≤ L.foldl (fun m t => if f t > m then f t else m) m) ∧
    (L.foldl (fun m t => if f t > m then f t else m) m = m ∨
      ∃ t ∈ L, f t = L.foldl (fun m t => if f t > m then f t else m) m) := by
  induction L generalizing m with
  | nil => simp
  | cons u L ih =>
    rw [List.foldl_cons]
    obtain ⟨h1, h2, h3⟩ := ih (if f u > m then f u else m)
    have hu : m ≤ (if f u > m then f u else m) ∧ f u ≤ (if f u > m then f u else m) := by split <;> omega
    refine ⟨by omega, ?_, ?_⟩
    · intro t ht
      rcases List.mem_cons.1 ht with rfl | ht
      · omega
      · exact h2 t ht
    · rcases h3 with h3 | ⟨t, ht, h3⟩
      · by_cases hc : f u > m
        · right
          rw [if_pos hc] at h3 ⊢
          exact ⟨u, List.mem_cons_self, h3.symm⟩
        · left
          rw [if_neg hc] at h3 ⊢
          exact h3
      · exact .inr ⟨t, List.mem_cons_of_mem _ ht, h3⟩

theorem fold_delta (f : SegyTrace → ℤ) (L : List SegyTrace) (m : ℤ) :
    L.foldl (fun m t => if f t > 0 ∧ f t < m then f t else m) m ≤ m ∧
    (∀ t ∈ L, 0 < f t → L.foldl (fun m t => if f t > 0 ∧ f t < m then f t else m) m ≤ f t) ∧
    (L.foldl (fun m t => if f t > 0 ∧ f t < m then f t else m) m = m ∨
      ∃ t ∈ L, 0 < f t ∧ f t = L.foldl (fun m t => if f t > 0 ∧ f t < m then f t else m) m) := by
  induction L generalizing m with
  | nil => simp
  | cons u L ih =>
    rw [List.foldl_cons]
    obtain ⟨h1, h2, h3⟩ := ih (if f u > 0 ∧ f u < m then f u else m)
    have hu : (if f u > 0 ∧ f u < m then f u else m) ≤ m ∧ (0 < f u → (if f u > 0 ∧ f u < m then f u else m) ≤ f u) := by
      split <;> omega
    refine ⟨by omega, ?_, ?_⟩
    · intro t ht h0
      rcases List.mem_cons.1 ht with rfl | ht
      · have := hu.2 h0
        omega
      · exact h2 t ht h0
    · rcases h3 with h3 | ⟨t, ht, h3⟩
      · by_cases hc : f u > 0 ∧ f u < m
        · right
          rw [if_pos hc] at h3 ⊢
          exact ⟨u, List.mem_cons_self, hc.1, h3.symm⟩
        · left
          rw [if_neg hc] at h3 ⊢
          exact h3
      · exact .inr ⟨t, List.mem_cons_of_mem _ ht, h3⟩

theorem fold_arg {K : Type} [LinearOrder K] (d : SegyTrace → K) (L : List SegyTrace) (s : K × SegyTrace) :
    s.1 ≤ (L.foldl (fun s t => (if d t > s.1 then d t else s.1, if d t > s.1 then t else s.2)) s).1 ∧
    (∀ t ∈ L, d t ≤ (L.foldl (fun s t => (if d t > s.1 then d t else s.1, if d t > s.1 then t else s.2)) s).1) ∧
    (L.foldl (fun s t => (if d t > s.1 then d t else s.1, if d t > s.1 then t else s.2)) s = s ∨
      (L.foldl (fun s t => (if d t > s.1 then d t else s.1, if d t > s.1 then t else s.2)) s).2 ∈ L ∧
      d (L.foldl (fun s t => (if d t > s.1 then d t else s.1, if d t > s.1 then t else s.2)) s).2 =
        (L.foldl (fun s t => (if d t > s.1 then d t else s.1, if d t > s.1 then t else s.2)) s).1) := by
  induction L generalizing s with
  | nil => simp
  | cons u L ih =>
    rw [List.foldl_cons]
    obtain ⟨h1, h2, h3⟩ := ih (if d u > s.1 then d u else s.1, if d u > s.1 then u else s.2)
    by_cases hc : d u > s.1
    · simp only [hc, if_true] at h1 h2 h3 ⊢
      refine ⟨hc.le.trans h1, ?_, ?_⟩
      · intro t ht
        rcases List.mem_cons.1 ht with rfl | ht
        · exact h1
        · exact h2 t ht
      · right
        rcases h3 with h3 | ⟨h3, h4⟩
        · rw [h3]
          exact ⟨List.mem_cons_self, rfl⟩
        · exact ⟨List.mem_cons_of_mem _ h3, h4⟩
    · simp only [hc, if_false] at h1 h2 h3 ⊢
      refine ⟨h1, ?_, ?_⟩
      · intro t ht
        rcases List.mem_cons.1 ht with rfl | ht
        · exact (not_lt.1 hc).trans h1
        · exact h2 t ht
      · rcases h3 with h3 | ⟨h3, h4⟩
        · exact .inl h3
        · exact .inr ⟨List.mem_cons_of_mem _ h3, h4⟩

/-- The squared distance of the lines of two traces. -/
def sqDist (t0 t : SegyTrace) : ℤ := (t.xl - t0.xl) * (t.xl - t0.xl) + (t.il - t0.il) * (t.il - t0.il)

theorem fold_extend (t0 : SegyTrace) (L : List SegyTrace) (e : Extent) :
    (L.foldl (extend t0) e).ilMin = L.foldl (fun m t => if t.il < m then t.il else m) e.ilMin ∧
    (L.foldl (extend t0) e).ilMax = L.foldl (fun m t => if t.il > m then t.il else m) e.ilMax ∧
    (L.foldl (extend t0) e).xlMin = L.foldl (fun m t => if t.xl < m then t.xl else m) e.xlMin ∧
    (L.foldl (extend t0) e).xlMax = L.foldl (fun m t => if t.xl > m then t.xl else m) e.xlMax ∧
    ((L.foldl (extend t0) e).dist1sq, (L.foldl (extend t0) e).p1) =
      L.foldl (fun s t => (if sqDist t0 t > s.1 then sqDist t0 t else s.1, if sqDist t0 t > s.1 then t else s.2))
        (e.dist1sq, e.p1) := by
  induction L generalizing e with
  | nil => exact ⟨rfl, rfl, rfl, rfl, rfl⟩
  | cons u L ih => exact ih (extend t0 e u)

theorem fold_spread (t0 p1 : SegyTrace) (L : List SegyTrace) (s : Spread) :
    (L.foldl (spread t0 p1) s).dIL =
      L.foldl (fun m t => if |t.il - t0.il| > 0 ∧ |t.il - t0.il| < m then |t.il - t0.il| else m) s.dIL ∧
    (L.foldl (spread t0 p1) s).dXL =
      L.foldl (fun m t => if |t.xl - t0.xl| > 0 ∧ |t.xl - t0.xl| < m then |t.xl - t0.xl| else m) s.dXL ∧
    ((L.foldl (spread t0 p1) s).dist2, (L.foldl (spread t0 p1) s).p2) =
      L.foldl (fun s t => (if lineDistance t0 t + lineDistance p1 t > s.1 then lineDistance t0 t + lineDistance p1 t else s.1,
        if lineDistance t0 t + lineDistance p1 t > s.1 then t else s.2)) (s.dist2, s.p2) := by
  induction L generalizing s with
  | nil => exact ⟨rfl, rfl, rfl⟩
  | cons u L ih => exact ih (spread t0 p1 s u)

/-- Three traces that are not on a line give the steps of an affine coordinate. -/
theorem solve_spec {a1 b1 a2 b2 x0 u v : ℝ} (hd : a1 * b2 - b1 * a2 ≠ 0) (hb : b1 ≠ 0) :
    solve a1 b1 a2 b2 x0 (x0 + a1 * u + b1 * v) (x0 + a2 * u + b2 * v) = .ok (u, v) := by
  unfold solve
  simp only [Res.monad_bind_eq]
  split
  · rename_i h
    have h' : b2 ≠ 0 := ne_of_gt h
    have hq : a1 - b1 / b2 * a2 ≠ 0 := by
      intro e
      apply hd
      field_simp at e
      linarith
    have hq' : a1 * b2 - a2 * b1 ≠ 0 := by rwa [mul_comm a2 b1]
    rw [SegyGeometry.divD_eq h', Res.bind_ok, SegyGeometry.divD_eq hq, Res.bind_ok, SegyGeometry.divD_eq h', Res.bind_ok]
    have e1 : (x0 + a1 * u + b1 * v - x0 - b1 / b2 * (x0 + a2 * u + b2 * v - x0)) / (a1 - b1 / b2 * a2) = u := by
      rw [div_eq_iff hq]
      field_simp
      ring
    rw [e1]
    congr 2
    rw [div_eq_iff h']
    ring
  · have hq : a2 - b2 / b1 * a1 ≠ 0 := by
      intro e
      apply hd
      field_simp at e
      linarith
    rw [SegyGeometry.divD_eq hb, Res.bind_ok, SegyGeometry.divD_eq hq, Res.bind_ok, SegyGeometry.divD_eq hb, Res.bind_ok]
    have e1 : (x0 + a2 * u + b2 * v - x0 - b2 / b1 * (x0 + a1 * u + b1 * v - x0)) / (a2 - b2 / b1 * a1) = u := by
      rw [div_eq_iff hq]
      field_simp
      ring
    rw [e1]
    congr 2
    rw [div_eq_iff hb]
    ring

theorem firstTrace_replicate (k : ℕ) (t : SegyTrace) (rest : List (Option SegyTrace)) :
    firstTrace (List.replicate k none ++ some t :: rest) = .ok (t, rest) := by
  induction k with
  | zero => rfl
  | succ k ih => rw [List.replicate_succ]; exact ih

/-- What the third loop does: it puts traces into the places where they belong. -/
theorem place_spec {g : SegyGeometry} {err : ℝ} {N : ℕ} {R : SegyTrace → ℕ → Prop} (hR : ∀ t k k', R t k → R t k' → k = k')
    (ts : List (Option SegyTrace)) (a : List (Option SegyTrace)) (ha : a.length = N)
    (h : ∀ t, some t ∈ ts → t.HasLines ∧ ∃ k < N, R t k ∧
      ∀ a : List (Option SegyTrace), a.length = N → placeOne g err a t = .ok (a.set k (some t))) :
    ∃ b, place g err ts a = .ok b ∧ b.length = N ∧ ∀ k, k < N →
      (b[k]? = a[k]? ∧ ¬ ∃ t, some t ∈ ts ∧ R t k) ∨ ∃ t, some t ∈ ts ∧ R t k ∧ b[k]? = some (some t) := by
  induction ts generalizing a with
  | nil => exact ⟨a, rfl, ha, fun k _ => .inl ⟨rfl, by simp⟩⟩
  | cons o ts ih =>
    cases o with
    | none =>
      obtain ⟨b, h1, h2, h3⟩ := ih a ha (fun t ht => h t (List.mem_cons_of_mem _ ht))
      refine ⟨b, h1, h2, fun k hk => ?_⟩
      rcases h3 k hk with ⟨e, hn⟩ | ⟨t, ht, e⟩
      · exact .inl ⟨e, fun ⟨t, ht, r⟩ => hn ⟨t, by simpa using ht, r⟩⟩
      · exact .inr ⟨t, List.mem_cons_of_mem _ ht, e⟩
    | some u =>
      obtain ⟨hl, m, hm, r, hp⟩ := h u List.mem_cons_self
      obtain ⟨b, h1, h2, h3⟩ := ih (a.set m (some u)) (by rw [List.length_set, ha])
        (fun t ht => h t (List.mem_cons_of_mem _ ht))
      refine ⟨b, ?_, h2, fun k hk => ?_⟩
      · rw [place, if_pos hl]
        simp only [Res.monad_bind_eq]
        rw [hp a ha, Res.bind_ok]
        exact h1
      · rcases h3 k hk with ⟨e, hn⟩ | ⟨t, ht, e⟩
        · by_cases hkm : m = k
          · right
            subst hkm
            refine ⟨u, List.mem_cons_self, r, ?_⟩
            rw [e, List.getElem?_set_self (by omega)]
          · left
            refine ⟨by rw [e, List.getElem?_set_ne hkm], ?_⟩
            rintro ⟨t, ht, rt⟩
            rcases List.mem_cons.1 ht with ht | ht
            · injection ht with ht
              subst ht
              exact hkm (hR _ _ _ r rt)
            · exact hn ⟨t, ht, rt⟩
        · exact .inr ⟨t, List.mem_cons_of_mem _ ht, e⟩

theorem range_min {f : SegyTrace → ℤ} {L : List SegyTrace} {c lo : ℤ} (h0 : lo ≤ c) (h : ∀ t ∈ L, lo ≤ f t)
    (hex : c = lo ∨ ∃ t ∈ L, f t = lo) : L.foldl (fun m t => if f t < m then f t else m) c = lo := by
  obtain ⟨g1, g2, g3⟩ := fold_min f L c
  apply le_antisymm
  · rcases hex with e | ⟨t, ht, e⟩
    · exact g1.trans e.le
    · exact (g2 t ht).trans e.le
  · rcases g3 with e | ⟨t, ht, e⟩
    · rw [e]; exact h0
    · rw [← e]; exact h t ht

theorem range_max {f : SegyTrace → ℤ} {L : List SegyTrace} {c hi : ℤ} (h0 : c ≤ hi) (h : ∀ t ∈ L, f t ≤ hi)
    (hex : c = hi ∨ ∃ t ∈ L, f t = hi) : L.foldl (fun m t => if f t > m then f t else m) c = hi := by
  obtain ⟨g1, g2, g3⟩ := fold_max f L c
  apply le_antisymm
  · rcases g3 with e | ⟨t, ht, e⟩
    · rw [e]; exact h0
    · rw [← e]; exact h t ht
  · rcases hex with e | ⟨t, ht, e⟩
    · exact e.ge.trans g1
    · exact e.ge.trans (g2 t ht)

theorem step_eq {f : SegyTrace → ℤ} {L : List SegyTrace} {c d A : ℤ} (hd : 0 < d) (hA : d ≤ A)
    (hex : ∃ t ∈ L, |f t - c| = d) (h : ∀ t ∈ L, ∃ k : ℤ, f t - c = k * d) :
    L.foldl (fun m t => if |f t - c| > 0 ∧ |f t - c| < m then |f t - c| else m) A = d := by
  obtain ⟨g1, g2, g3⟩ := fold_delta (fun t => |f t - c|) L A
  apply le_antisymm
  · obtain ⟨t, ht, e⟩ := hex
    have := g2 t ht (by simp only [e]; exact hd)
    simp only [e] at this
    exact this
  · rcases g3 with e | ⟨t, ht, e0, e⟩
    · exact hA.trans e.ge
    · rw [← e]
      obtain ⟨k, hk⟩ := h t ht
      rw [hk, abs_mul, abs_of_pos hd] at e0 ⊢
      have : 0 < |k| := pos_of_mul_pos_left e0 hd.le
      nlinarith

theorem far_eq {t0 : SegyTrace} {L : List SegyTrace} {U W : ℤ} (hU : U ≠ 0)
    (hI : ∀ t ∈ L, |t.il - t0.il| ≤ |U| ∧ 0 ≤ (t.il - t0.il) * U) (hX : ∀ t ∈ L, |t.xl - t0.xl| ≤ |W| ∧ 0 ≤ (t.xl - t0.xl) * W)
    (hW : W ≠ 0) (hex : ∃ t ∈ L, t.il - t0.il = U ∧ t.xl - t0.xl = W) {r : ℤ × SegyTrace}
    (hr : r = L.foldl (fun s t => (if sqDist t0 t > s.1 then sqDist t0 t else s.1, if sqDist t0 t > s.1 then t else s.2)) (0, t0)) :
    r.2 ∈ L ∧ r.2.il - t0.il = U ∧ r.2.xl - t0.xl = W ∧ r.1 = W * W + U * U := by
  obtain ⟨g1, g2, g3⟩ := fold_arg (sqDist t0) L ((0 : ℤ), t0)
  rw [← hr] at g1 g2 g3
  obtain ⟨t, ht, e1, e2⟩ := hex
  have d1 := g2 t ht
  unfold sqDist at d1
  rw [e1, e2] at d1
  have pU : 0 < U * U := mul_self_pos.2 hU
  have pW : 0 < W * W := mul_self_pos.2 hW
  rcases g3 with g3 | ⟨g3, g4⟩
  · rw [g3] at d1
    simp only at d1
    omega
  · obtain ⟨a1, a2⟩ := hI _ g3
    obtain ⟨b1, b2⟩ := hX _ g3
    unfold sqDist at g4
    have s1 : (r.2.il - t0.il) * (r.2.il - t0.il) ≤ U * U := abs_le_iff_mul_self_le.1 a1
    have s2 : (r.2.xl - t0.xl) * (r.2.xl - t0.xl) ≤ W * W := abs_le_iff_mul_self_le.1 b1
    have c1 : (r.2.il - t0.il) * (r.2.il - t0.il) = U * U := by omega
    have c2 : (r.2.xl - t0.xl) * (r.2.xl - t0.xl) = W * W := by omega
    refine ⟨g3, ?_, ?_, by omega⟩
    · rcases mul_self_eq_mul_self_iff.1 c1 with e | e
      · exact e
      · rw [e] at a2; nlinarith
    · rcases mul_self_eq_mul_self_iff.1 c2 with e | e
      · exact e
      · rw [e] at b2; nlinarith

/-- The traces in a rectangle of lines from the corner of the first trace. -/
structure Rect (t0 : SegyTrace) (L : List SegyTrace) (U W dI dX : ℤ) : Prop where
  dI0 : 0 < dI
  dX0 : 0 < dX
  U0 : dI ≤ |U|
  W0 : dX ≤ |W|
  il : ∀ t ∈ L, (|t.il - t0.il| ≤ |U| ∧ 0 ≤ (t.il - t0.il) * U) ∧ ∃ k : ℤ, t.il - t0.il = k * dI
  xl : ∀ t ∈ L, (|t.xl - t0.xl| ≤ |W| ∧ 0 ≤ (t.xl - t0.xl) * W) ∧ ∃ k : ℤ, t.xl - t0.xl = k * dX
  diag : ∃ t ∈ L, t.il - t0.il = U ∧ t.xl - t0.xl = W
  side : ∃ t ∈ L, t.il - t0.il = 0 ∧ t.xl - t0.xl = W
  nextI : ∃ t ∈ L, |t.il - t0.il| = dI
  nextX : ∃ t ∈ L, |t.xl - t0.xl| = dX

theorem near_range {c U : ℤ} {f : SegyTrace → ℤ} {L : List SegyTrace} (h : ∀ t ∈ L, |f t - c| ≤ |U| ∧ 0 ≤ (f t - c) * U)
    (hU : U ≠ 0) (hex : ∃ t ∈ L, f t - c = U) :
    L.foldl (fun m t => if f t < m then f t else m) c = min c (c + U) ∧
    L.foldl (fun m t => if f t > m then f t else m) c = max c (c + U) := by
  obtain ⟨t1, ht1, e1⟩ := hex
  have key : ∀ t ∈ L, min c (c + U) ≤ f t ∧ f t ≤ max c (c + U) := by
    intro t ht
    obtain ⟨h1, h2⟩ := h t ht
    rcases lt_or_gt_of_ne hU with hn | hp
    · have : f t - c ≤ 0 := by by_contra hc; nlinarith
      rw [abs_of_nonpos this, abs_of_neg hn] at h1
      omega
    · have : 0 ≤ f t - c := by by_contra hc; nlinarith
      rw [abs_of_nonneg this, abs_of_pos hp] at h1
      omega
  constructor
  · refine range_min (by omega) (fun t ht => (key t ht).1) ?_
    rcases lt_or_gt_of_ne hU with hn | hp
    · exact .inr ⟨t1, ht1, by omega⟩
    · left; omega
  · refine range_max (by omega) (fun t ht => (key t ht).2) ?_
    rcases lt_or_gt_of_ne hU with hn | hp
    · left; omega
    · exact .inr ⟨t1, ht1, by omega⟩

/-- Among the traces in a rectangle of lines, one with the greatest sum of distances to opposite corners is not on the diagonal. -/
theorem not_collinear {u1 w1 u2 w2 : ℝ} (hu : u1 ≠ 0) (hw : w1 ≠ 0) (h0 : 0 ≤ u2 / u1) (h1 : u2 / u1 ≤ 1)
    (h : |u1| + |w1| ≤ √(w2 * w2 + u2 * u2) + √((w2 - w1) * (w2 - w1) + (u2 - u1) * (u2 - u1))) :
    u1 * w2 - w1 * u2 ≠ 0 := by
  intro e
  set t := u2 / u1 with ht
  have e1 : u2 = t * u1 := by rw [ht]; field_simp
  have e2 : w2 = t * w1 := by
    rw [e1] at e
    have : u1 * (w2 - t * w1) = 0 := by linarith
    rcases mul_eq_zero.1 this with h | h
    · exact absurd h hu
    · linarith
  have s1 : √(w2 * w2 + u2 * u2) = t * √(u1 ^ 2 + w1 ^ 2) := by
    rw [e1, e2, show t * w1 * (t * w1) + t * u1 * (t * u1) = t ^ 2 * (u1 ^ 2 + w1 ^ 2) by ring, Real.sqrt_mul (sq_nonneg t),
      Real.sqrt_sq h0]
  have s2 : √((w2 - w1) * (w2 - w1) + (u2 - u1) * (u2 - u1)) = (1 - t) * √(u1 ^ 2 + w1 ^ 2) := by
    rw [e1, e2, show (t * w1 - w1) * (t * w1 - w1) + (t * u1 - u1) * (t * u1 - u1) = (1 - t) ^ 2 * (u1 ^ 2 + w1 ^ 2) by ring,
      Real.sqrt_mul (sq_nonneg _), Real.sqrt_sq (by linarith)]
  rw [s1, s2] at h
  have p1 := abs_pos.2 hu
  have p2 := abs_pos.2 hw
  have : √(u1 ^ 2 + w1 ^ 2) < |u1| + |w1| := by
    rw [Real.sqrt_lt' (by positivity)]
    nlinarith [sq_abs u1, sq_abs w1]
  linarith

theorem rect_extent {t0 : SegyTrace} {ts : List (Option SegyTrace)} {U W dI dX : ℤ} (h : Rect t0 (present ts) U W dI dX) :
    (extentOf t0 ts).ilMin = min t0.il (t0.il + U) ∧ (extentOf t0 ts).ilMax = max t0.il (t0.il + U) ∧
    (extentOf t0 ts).xlMin = min t0.xl (t0.xl + W) ∧ (extentOf t0 ts).xlMax = max t0.xl (t0.xl + W) ∧
    (extentOf t0 ts).p1 ∈ present ts ∧ (extentOf t0 ts).p1.il - t0.il = U ∧ (extentOf t0 ts).p1.xl - t0.xl = W ∧
    (extentOf t0 ts).dist1sq = W * W + U * U := by
  have U0 : U ≠ 0 := by rintro rfl; have := h.U0; have := h.dI0; simp at *; omega
  have W0 : W ≠ 0 := by rintro rfl; have := h.W0; have := h.dX0; simp at *; omega
  have hext : extentOf t0 ts = (present ts).foldl (extend t0) ⟨t0.il, t0.il, t0.xl, t0.xl, 0, t0⟩ := foldl_visit _ _ _
  obtain ⟨f1, f2, f3, f4, f5⟩ := fold_extend t0 (present ts) ⟨t0.il, t0.il, t0.xl, t0.xl, 0, t0⟩
  obtain ⟨t, ht, e1, e2⟩ := h.diag
  have n1 := near_range (f := fun t => t.il) (fun t ht => (h.il t ht).1) U0 ⟨t, ht, e1⟩
  have n2 := near_range (f := fun t => t.xl) (fun t ht => (h.xl t ht).1) W0 ⟨t, ht, e2⟩
  have fe := far_eq U0 (fun t ht => (h.il t ht).1) (fun t ht => (h.xl t ht).1) W0 h.diag f5
  rw [hext]
  exact ⟨f1.trans n1.1, f2.trans n1.2, f3.trans n2.1, f4.trans n2.2, fe⟩

theorem rect_spread {t0 : SegyTrace} {ts : List (Option SegyTrace)} {U W dI dX : ℤ} (h : Rect t0 (present ts) U W dI dX) :
    (spreadOf t0 (extentOf t0 ts) ts).dIL = dI ∧ (spreadOf t0 (extentOf t0 ts) ts).dXL = dX ∧
    (spreadOf t0 (extentOf t0 ts) ts).p2 ∈ present ts ∧
    |(U : ℝ)| + |(W : ℝ)| ≤ (spreadOf t0 (extentOf t0 ts) ts).dist2 ∧
    (spreadOf t0 (extentOf t0 ts) ts).dist2 =
      lineDistance t0 (spreadOf t0 (extentOf t0 ts) ts).p2 + lineDistance (extentOf t0 ts).p1 (spreadOf t0 (extentOf t0 ts) ts).p2 := by
  obtain ⟨a1, a2, a3, a4, a5, a6, a7, a8⟩ := rect_extent h
  set P := (extentOf t0 ts).p1
  have hspr : spreadOf t0 (extentOf t0 ts) ts = (present ts).foldl (spread t0 P) ⟨(extentOf t0 ts).ilMax - (extentOf t0 ts).ilMin,
    (extentOf t0 ts).xlMax - (extentOf t0 ts).xlMin, 0, t0⟩ := foldl_visit _ _ _
  obtain ⟨s1, s2, s3⟩ := fold_spread t0 P (present ts) ⟨(extentOf t0 ts).ilMax - (extentOf t0 ts).ilMin,
    (extentOf t0 ts).xlMax - (extentOf t0 ts).xlMin, 0, t0⟩
  rw [← hspr] at s1 s2 s3
  set S := spreadOf t0 (extentOf t0 ts) ts
  simp only at s1 s2 s3
  have mm : ∀ c V : ℤ, max c (c + V) - min c (c + V) = |V| := by
    intro c V
    rcases abs_cases V with ⟨e, h⟩ | ⟨e, h⟩ <;> omega
  rw [a1, a2, mm] at s1
  rw [a3, a4, mm] at s2
  have q1 := step_eq (f := fun t => t.il) h.dI0 h.U0 h.nextI (fun t ht => (h.il t ht).2)
  have q2 := step_eq (f := fun t => t.xl) h.dX0 h.W0 h.nextX (fun t ht => (h.xl t ht).2)
  obtain ⟨g1, g2, g3⟩ := fold_arg (fun t => lineDistance t0 t + lineDistance P t) (present ts) ((0 : ℝ), t0)
  rw [← s3] at g1 g2 g3
  obtain ⟨t, ht, e1, e2⟩ := h.side
  have d1 := g2 t ht
  have l1 : lineDistance t0 t = |(W : ℝ)| := by
    unfold lineDistance
    rw [e1, e2]
    push_cast
    rw [add_zero, Real.sqrt_mul_self_eq_abs]
  have l2 : lineDistance P t = |(U : ℝ)| := by
    unfold lineDistance
    rw [show t.xl - P.xl = 0 by omega, show t.il - P.il = -U by omega]
    push_cast
    rw [zero_add, Real.sqrt_mul_self_eq_abs, abs_neg]
  simp only at d1 g3
  rw [l1, l2] at d1
  refine ⟨s1.trans q1, s2.trans q2, ?_, by linarith, ?_⟩
  all_goals
    rcases g3 with g3 | ⟨g3, g4⟩
    · exfalso
      have z := congrArg Prod.fst g3
      simp only at z
      have u0 : (0 : ℝ) < |(U : ℝ)| := by
        have := h.U0
        have := h.dI0
        have : (0 : ℤ) < |U| := by omega
        exact_mod_cast this
      have := abs_nonneg (W : ℝ)
      linarith
    · first
        | exact g3
        | exact g4.symm

theorem rect_directions {t0 : SegyTrace} {ts : List (Option SegyTrace)} {U W dI dX : ℤ} (h : Rect t0 (present ts) U W dI dX)
    {vI vX : ℝ × ℝ} (hp : ∀ t ∈ present ts, t.x = t0.x + (t.il - t0.il : ℤ) * vI.1 + (t.xl - t0.xl : ℤ) * vX.1 ∧
      t.y = t0.y + (t.il - t0.il : ℤ) * vI.2 + (t.xl - t0.xl : ℤ) * vX.2) :
    directions t0 (extentOf t0 ts).p1 (spreadOf t0 (extentOf t0 ts) ts).p2 (extentOf t0 ts).dist1sq
      (spreadOf t0 (extentOf t0 ts) ts).dist2 = .ok (vI, vX) := by
  obtain ⟨a1, a2, a3, a4, a5, a6, a7, a8⟩ := rect_extent h
  obtain ⟨b1, b2, b3, b4, b5⟩ := rect_spread h
  set P := (extentOf t0 ts).p1
  set S := spreadOf t0 (extentOf t0 ts) ts
  have oneU : (1 : ℝ) ≤ |(U : ℝ)| := by
    have := h.U0
    have := h.dI0
    have : (1 : ℤ) ≤ |U| := by omega
    exact_mod_cast this
  have oneW : (1 : ℝ) ≤ |(W : ℝ)| := by
    have := h.W0
    have := h.dX0
    have : (1 : ℤ) ≤ |W| := by omega
    exact_mod_cast this
  have U0 : (U : ℝ) ≠ 0 := by intro e; rw [e, abs_zero] at oneU; linarith
  have W0 : (W : ℝ) ≠ 0 := by intro e; rw [e, abs_zero] at oneW; linarith
  obtain ⟨x1, y1⟩ := hp P a5
  obtain ⟨x2, y2⟩ := hp S.p2 b3
  obtain ⟨⟨i1, i2⟩, -⟩ := h.il S.p2 b3
  have big : S.dist2 > √((extentOf t0 ts).dist1sq : ℝ) + 0.005 := by
    rw [a8]
    have : √((W * W + U * U : ℤ) : ℝ) < |(U : ℝ)| + |(W : ℝ)| - 0.005 := by
      rw [Real.sqrt_lt' (by norm_num; linarith)]
      push_cast
      norm_num
      nlinarith [abs_mul_abs_self (U : ℝ), abs_mul_abs_self (W : ℝ), mul_nonneg (sub_nonneg.2 oneU) (sub_nonneg.2 oneW)]
    linarith
  have det : (U : ℝ) * (S.p2.xl - t0.xl : ℤ) - W * (S.p2.il - t0.il : ℤ) ≠ 0 := by
    have i1' : |((S.p2.il - t0.il : ℤ) : ℝ)| ≤ |(U : ℝ)| := by exact_mod_cast i1
    have i2' : (0 : ℝ) ≤ ((S.p2.il - t0.il : ℤ) : ℝ) * U := by exact_mod_cast i2
    have q : ((S.p2.il - t0.il : ℤ) : ℝ) / U = ((S.p2.il - t0.il : ℤ) : ℝ) * U / (U * U) := by field_simp
    refine not_collinear U0 W0 (by rw [q]; exact div_nonneg i2' (mul_self_nonneg _)) ?_ ?_
    · refine (le_abs_self _).trans ?_
      rw [abs_div]
      exact div_le_one_of_le₀ i1' (abs_nonneg _)
    · refine b4.trans (le_of_eq ?_)
      rw [b5]
      unfold lineDistance
      rw [show S.p2.xl - P.xl = S.p2.xl - t0.xl - W by omega, show S.p2.il - P.il = S.p2.il - t0.il - U by omega]
      push_cast
      rfl
  unfold directions
  simp only [Res.monad_bind_eq]
  rw [if_pos big, x1, y1, x2, y2, a6, a7, solve_spec det W0, Res.bind_ok, solve_spec det W0, Res.bind_ok]

end SegyTrace
end Verif
