import Mathlib.Tactic.Ring
import Mathlib.Tactic.Linarith
import Mathlib.Tactic.FieldSimp
import Mathlib.Tactic.NormNum
import Mathlib.Data.List.Perm.Basic
import Verif.Lemmas.Outcome
import Verif.Model.SegyCheck
import Verif.Model.TraceHeader

/-!
C162: the control of trace headers with a fourth trace. C163: inline and crossline numbers that do not match the steps.
-/

namespace Verif.SegyCheck

open Verif

private theorem fdiv_ok {x y : ℝ} (h : y ≠ 0) : fdiv x y = .ok (x / y) := if_neg h

/-! ### Headers and the control of four traces -/

/-- **C162**: a header is accepted exactly when none of its numbers is negative. -/
theorem segy_header_ok (t : Header) :
    headerOk t = true ↔ 0 ≤ t.xl ∧ 0 ≤ t.il ∧ 0 ≤ t.x ∧ 0 ≤ t.y := by
  unfold headerOk
  split <;> rename_i h
  · simp only [Bool.false_eq_true, false_iff]
    rintro ⟨h1, h2, h3, h4⟩
    rcases h with h | h | h | h
    · omega
    · omega
    · linarith
    · linarith
  · simp only [not_or, not_lt] at h
    simpa using h

/-- **C162**: a header in a format without one of the coordinates is refused, whatever is in it, also when coordinates
have been set. -/
theorem segy_header_missing (h : TraceHeader.Header) (il xl : ℤ) (x y : ℝ) (hf : h.fmt.utmx < 0 ∨ h.fmt.utmy < 0) :
    headerOk ⟨il, xl, ((h.setUtmx x).setUtmy y).getUtmx, ((h.setUtmx x).setUtmy y).getUtmy⟩ = false := by
  have f : ((h.setUtmx x).setUtmy y).fmt = h.fmt := by
    unfold TraceHeader.Header.setUtmx TraceHeader.Header.setUtmy
    split <;> split <;> rfl
  rw [Bool.eq_false_iff, ne_eq, segy_header_ok]
  rintro ⟨_, _, h1, h2⟩
  simp only [TraceHeader.Header.getUtmx, TraceHeader.Header.getUtmy, f] at h1 h2
  rcases hf with hf | hf
  · rw [if_pos hf] at h1; norm_num at h1
  · rw [if_pos hf] at h2; norm_num at h2

/-- A case of `segy_header_missing`: a format in which the first coordinate is -1. -/
theorem segy_header_missing_example (h : TraceHeader.Header) :
    headerOk ⟨5, 7, (({ h with fmt := { h.fmt with utmx := -1 } }.setUtmx 100).setUtmy 200).getUtmx,
      (({ h with fmt := { h.fmt with utmx := -1 } }.setUtmx 100).setUtmy 200).getUtmy⟩ = false :=
  segy_header_missing _ 5 7 100 200 (Or.inl (show (-1 : ℤ) < 0 by decide))

/-- The trace lies on the grid with the origin `(x0, y0)`, the steps `(ax, ay)` for each crossline and `(bx, by)` for
each inline. -/
def OnGrid (x0 y0 ax ay bx by' : ℝ) (t : Header) : Prop :=
  t.x = x0 + t.xl * ax + t.il * bx ∧ t.y = y0 + t.xl * ay + t.il * by'

private theorem delta_eq {x0 ax bx x1 x2 x3 a b c d : ℝ} {l1 l2 l3 k1 k2 k3 : ℝ}
    (h1 : x1 = x0 + l1 * ax + k1 * bx) (h2 : x2 = x0 + l2 * ax + k2 * bx) (h3 : x3 = x0 + l3 * ax + k3 * bx)
    (ha : a = l2 - l1) (hb : b = k2 - k1) (hc : c = l3 - l1) (hd : d = k3 - k1) :
    a * (x3 - x1) - c * (x2 - x1) = bx * (a * d - c * b) ∧ x2 - x1 = a * ax + b * bx := by
  subst h1 h2 h3 ha hb hc hd
  exact ⟨by ring, by ring⟩

/-- **C162**: the steps that are found from three traces on a grid, when the numbers divide. -/
private theorem find_eq {x0 y0 ax ay bx by' : ℝ} {t1 t2 t3 : Header} (h1 : OnGrid x0 y0 ax ay bx by' t1)
    (h2 : OnGrid x0 y0 ax ay bx by' t2) (h3 : OnGrid x0 y0 ax ay bx by' t3) (hxl : t2.xl ≠ t1.xl)
    (hn : (t2.xl - t1.xl) * (t3.il - t1.il) + (t3.xl - t1.xl) * (t2.il - t1.il) ≠ 0) (f : Bool) :
    let a : ℝ := ((t2.xl - t1.xl : ℤ) : ℝ)
    let b : ℝ := ((t2.il - t1.il : ℤ) : ℝ)
    let c : ℝ := ((t3.xl - t1.xl : ℤ) : ℝ)
    let d : ℝ := ((t3.il - t1.il : ℤ) : ℝ)
    let e : ℝ := if f then bx else by'
    let g : ℝ := if f then ax else ay
    findDelta t1 t2 t3 f = .ok (e * (a * d - c * b) / (a * d + c * b),
      (a * g + b * e - b * (e * (a * d - c * b) / (a * d + c * b))) / a) := by
  intro a b c d e g
  have ha : a ≠ 0 := by
    show ((t2.xl - t1.xl : ℤ) : ℝ) ≠ 0
    exact_mod_cast sub_ne_zero.2 hxl
  have hn' : a * d + c * b ≠ 0 := by
    show ((t2.xl - t1.xl : ℤ) : ℝ) * ((t3.il - t1.il : ℤ) : ℝ) + ((t3.xl - t1.xl : ℤ) : ℝ) * ((t2.il - t1.il : ℤ) : ℝ) ≠ 0
    exact_mod_cast hn
  have hc : (((t2.xl - t1.xl) * (t3.il - t1.il) + (t3.xl - t1.xl) * (t2.il - t1.il) : ℤ) : ℝ) = a * d + c * b := by
    push_cast [a, b, c, d]; ring
  have key : ∀ (o : ℝ) (z1 z2 z3 : ℝ), z1 = o + t1.xl * g + t1.il * e → z2 = o + t2.xl * g + t2.il * e →
      z3 = o + t3.xl * g + t3.il * e → a * (z3 - z1) - c * (z2 - z1) = e * (a * d - c * b) ∧ z2 - z1 = a * g + b * e := by
    intro o z1 z2 z3 e1 e2 e3
    exact delta_eq e1 e2 e3 (by push_cast [a]; ring) (by push_cast [b]; ring) (by push_cast [c]; ring)
      (by push_cast [d]; ring)
  unfold findDelta
  simp only [hc]
  cases f
  · obtain ⟨k1, k2⟩ := key y0 t1.y t2.y t3.y h1.2 h2.2 h3.2
    simp only [Bool.false_eq_true, if_false]
    rw [show ((t2.xl - t1.xl : ℤ) : ℝ) = a from rfl, show ((t3.xl - t1.xl : ℤ) : ℝ) = c from rfl,
      show ((t2.il - t1.il : ℤ) : ℝ) = b from rfl, k1, k2, fdiv_ok hn', Res.monad_bind_eq, Res.bind_ok, fdiv_ok ha,
      Res.monad_bind_eq, Res.bind_ok]
    rfl
  · obtain ⟨k1, k2⟩ := key x0 t1.x t2.x t3.x h1.1 h2.1 h3.1
    simp only [if_true]
    rw [show ((t2.xl - t1.xl : ℤ) : ℝ) = a from rfl, show ((t3.xl - t1.xl : ℤ) : ℝ) = c from rfl,
      show ((t2.il - t1.il : ℤ) : ℝ) = b from rfl, k1, k2, fdiv_ok hn', Res.monad_bind_eq, Res.bind_ok, fdiv_ok ha,
      Res.monad_bind_eq, Res.bind_ok]
    rfl

/-- **C162**: from three traces of a grid, the first two on one inline and the third on another (or the third on the
crossline of the first, and on another inline), exactly the steps of the grid are found. -/
theorem segy_steps_partial {x0 y0 ax ay bx by' : ℝ} {t1 t2 t3 : Header} (h1 : OnGrid x0 y0 ax ay bx by' t1)
    (h2 : OnGrid x0 y0 ax ay bx by' t2) (h3 : OnGrid x0 y0 ax ay bx by' t3) (hxl : t2.xl ≠ t1.xl) (hil : t3.il ≠ t1.il)
    (hs : t2.il = t1.il ∨ t3.xl = t1.xl) :
    findDelta t1 t2 t3 true = .ok (bx, ax) ∧ findDelta t1 t2 t3 false = .ok (by', ay) := by
  have hcb : (t3.xl - t1.xl) * (t2.il - t1.il) = 0 := by
    rcases hs with h | h <;> simp [h]
  have had : (t2.xl - t1.xl) * (t3.il - t1.il) ≠ 0 := mul_ne_zero (sub_ne_zero.2 hxl) (sub_ne_zero.2 hil)
  have hn : (t2.xl - t1.xl) * (t3.il - t1.il) + (t3.xl - t1.xl) * (t2.il - t1.il) ≠ 0 := by rw [hcb]; simpa using had
  have hcb' : ((t3.xl - t1.xl : ℤ) : ℝ) * ((t2.il - t1.il : ℤ) : ℝ) = 0 := by exact_mod_cast hcb
  have had' : ((t2.xl - t1.xl : ℤ) : ℝ) * ((t3.il - t1.il : ℤ) : ℝ) ≠ 0 := by exact_mod_cast had
  have ha : ((t2.xl - t1.xl : ℤ) : ℝ) ≠ 0 := left_ne_zero_of_mul had'
  have e1 := find_eq h1 h2 h3 hxl hn true
  have e2 := find_eq h1 h2 h3 hxl hn false
  simp only [hcb', sub_zero, add_zero, mul_div_cancel_right₀ _ had', add_sub_cancel_right,
    mul_div_cancel_left₀ _ ha, if_true, Bool.false_eq_true, if_false] at e1 e2
  exact ⟨e1, e2⟩

/-- **C162**, violated: for three traces of a grid in other places, with numbers that divide, the steps of the grid are
found only if the inlines have no step in the coordinate: the denominator has the wrong sign. -/
theorem segy_steps_violation {x0 y0 ax ay bx by' : ℝ} {t1 t2 t3 : Header} (h1 : OnGrid x0 y0 ax ay bx by' t1)
    (h2 : OnGrid x0 y0 ax ay bx by' t2) (h3 : OnGrid x0 y0 ax ay bx by' t3) (hxl : t2.xl ≠ t1.xl)
    (hn : (t2.xl - t1.xl) * (t3.il - t1.il) + (t3.xl - t1.xl) * (t2.il - t1.il) ≠ 0)
    (hb : t2.il ≠ t1.il) (hc : t3.xl ≠ t1.xl) :
    findDelta t1 t2 t3 true = .ok (bx, ax) ↔ bx = 0 := by
  have hn' : ((t2.xl - t1.xl : ℤ) : ℝ) * ((t3.il - t1.il : ℤ) : ℝ) + ((t3.xl - t1.xl : ℤ) : ℝ) * ((t2.il - t1.il : ℤ) : ℝ) ≠ 0 := by
    exact_mod_cast hn
  have hcb' : ((t3.xl - t1.xl : ℤ) : ℝ) * ((t2.il - t1.il : ℤ) : ℝ) ≠ 0 := by
    exact_mod_cast mul_ne_zero (sub_ne_zero.2 hc) (sub_ne_zero.2 hb)
  have ha : ((t2.xl - t1.xl : ℤ) : ℝ) ≠ 0 := by exact_mod_cast sub_ne_zero.2 hxl
  have e1 := find_eq h1 h2 h3 hxl hn true
  simp only [if_true] at e1
  rw [e1]
  generalize ((t2.xl - t1.xl : ℤ) : ℝ) = a at *
  generalize ((t3.xl - t1.xl : ℤ) : ℝ) = c at *
  generalize ((t2.il - t1.il : ℤ) : ℝ) = b at *
  generalize ((t3.il - t1.il : ℤ) : ℝ) = d at *
  constructor
  · intro h
    have h := (Prod.mk.inj (Res.ok.inj h)).1
    rw [div_eq_iff hn'] at h
    have : bx * (c * b) = 0 := by linarith
    rcases mul_eq_zero.1 this with h | h
    · exact h
    · exact absurd h hcb'
  · intro h
    subst h
    simp [mul_div_cancel_left₀ _ ha]

/-- **C162**, violated: when the first two traces are on one crossline, no steps are found (a division by zero), for
every third trace. -/
theorem segy_steps_crossline_violation (t1 t2 t3 : Header) (hxl : t2.xl = t1.xl) (f : Bool) :
    ∃ w, findDelta t1 t2 t3 f = .nonfinite w := by
  unfold findDelta
  simp only [hxl, sub_self, Int.cast_zero]
  by_cases h : (((0 : ℤ) * (t3.il - t1.il) + (t3.xl - t1.xl) * (t2.il - t1.il) : ℤ) : ℝ) = 0
  · rw [fdiv, if_pos h]
    exact ⟨_, rfl⟩
  · rw [fdiv_ok h, Res.monad_bind_eq, Res.bind_ok, fdiv, if_pos rfl]
    exact ⟨_, rfl⟩

/-- **C162**: with three such traces of a grid, a fourth trace is accepted exactly when each of its coordinates is
within 5 of its place in the grid. -/
theorem segy_control_partial {x0 y0 ax ay bx by' : ℝ} {t1 t2 t3 : Header} (h1 : OnGrid x0 y0 ax ay bx by' t1)
    (h2 : OnGrid x0 y0 ax ay bx by' t2) (h3 : OnGrid x0 y0 ax ay bx by' t3) (hxl : t2.xl ≠ t1.xl) (hil : t3.il ≠ t1.il)
    (hs : t2.il = t1.il ∨ t3.xl = t1.xl) (t4 : Header) :
    ∃ r, control t1 t2 t3 t4 = .ok r ∧ (r = true ↔ |x0 + t4.xl * ax + t4.il * bx - t4.x| ≤ 5 ∧
      |y0 + t4.xl * ay + t4.il * by' - t4.y| ≤ 5) := by
  obtain ⟨e1, e2⟩ := segy_steps_partial h1 h2 h3 hxl hil hs
  have p1 : t1.x + ((t4.xl - t1.xl : ℤ) : ℝ) * ax + ((t4.il - t1.il : ℤ) : ℝ) * bx = x0 + t4.xl * ax + t4.il * bx := by
    rw [h1.1]; push_cast; ring
  have p2 : t1.y + ((t4.xl - t1.xl : ℤ) : ℝ) * ay + ((t4.il - t1.il : ℤ) : ℝ) * by' = y0 + t4.xl * ay + t4.il * by' := by
    rw [h1.2]; push_cast; ring
  unfold control
  simp only [e1, e2, Res.monad_bind_eq, Res.bind_ok, p1, p2]
  split
  · rename_i h
    exact ⟨false, rfl, by simp only [Bool.false_eq_true, false_iff, not_and, not_le]; intro h'; linarith⟩
  · rename_i h
    split
    · rename_i h'
      exact ⟨false, rfl, by simp only [Bool.false_eq_true, false_iff, not_and, not_le]; intro _; linarith⟩
    · rename_i h'
      exact ⟨true, rfl, by simpa using ⟨not_lt.1 h, not_lt.1 h'⟩⟩

/-- The trace of a grid with 25 between inlines (x) and 25 between crosslines (y). -/
def trace25 (il xl : ℤ) : Header := ⟨il, xl, 0 + xl * 0 + il * 25, 0 + xl * 25 + il * 0⟩

/-- A case of `segy_control_partial`: four traces of a grid are accepted. -/
theorem segy_control_example :
    control (trace25 100 7) (trace25 100 8) (trace25 101 7) (trace25 105 9) = .ok true := by
  have g : ∀ i k, OnGrid 0 0 0 25 25 0 (trace25 i k) := fun i k => ⟨rfl, rfl⟩
  obtain ⟨r, h, hr⟩ := segy_control_partial (g 100 7) (g 100 8) (g 101 7) (by decide) (by decide) (Or.inl rfl)
    (trace25 105 9)
  rw [h, hr.2 (by unfold trace25; norm_num)]

/-- **C162**, violated: four traces that lie exactly on the same grid are refused; the first two differ in inline and
crossline. -/
theorem segy_control_violation :
    control (trace25 0 0) (trace25 1 1) (trace25 1 2) (trace25 5 9) = .ok false := by
  have g : ∀ i k, OnGrid 0 0 0 25 25 0 (trace25 i k) := fun i k => ⟨rfl, rfl⟩
  have e1 := find_eq (g 0 0) (g 1 1) (g 1 2) (by decide) (by decide) true
  have e2 := find_eq (g 0 0) (g 1 1) (g 1 2) (by decide) (by decide) false
  unfold control
  rw [e1, Res.monad_bind_eq, Res.bind_ok, e2, Res.monad_bind_eq, Res.bind_ok]
  unfold trace25
  norm_num

/-! ### Numbers that do not match the steps -/

private theorem mem_tab (l : List ℤ) : ∀ acc : List ℤ, ∀ v,
    v ∈ l.foldl (fun acc v => if v ∈ acc then acc else acc ++ [v]) acc ↔ v ∈ acc ∨ v ∈ l := by
  induction l with
  | nil => simp
  | cons a l ih =>
    intro acc v
    rw [List.foldl_cons, ih]
    split
    · rename_i h
      simp only [List.mem_cons]
      constructor
      · rintro (h' | h')
        · exact Or.inl h'
        · exact Or.inr (Or.inr h')
      · rintro (h' | rfl | h')
        · exact Or.inl h'
        · exact Or.inl h
        · exact Or.inr h'
    · simp [or_assoc]

private theorem nodup_tab (l : List ℤ) : ∀ acc : List ℤ, acc.Nodup →
    (l.foldl (fun acc v => if v ∈ acc then acc else acc ++ [v]) acc).Nodup := by
  induction l with
  | nil => exact fun _ h => h
  | cons a l ih =>
    intro acc h
    rw [List.foldl_cons]
    apply ih
    split
    · exact h
    · rename_i ha
      rw [List.nodup_append]
      refine ⟨h, by simp, ?_⟩
      intro x hx y hy hxy
      rw [List.mem_singleton] at hy
      exact ha (hy ▸ hxy ▸ hx)

/-- **C163**: the numbers are those of the traces, each once, in increasing order. -/
theorem segy_numbers (l : List ℤ) : (∀ v, v ∈ numbers l ↔ v ∈ l) ∧ (numbers l).Pairwise (· < ·) := by
  have hp : (numbers l).Perm (tabulate l) := List.perm_insertionSort _ _
  have hn : (numbers l).Nodup := hp.nodup_iff.2 (nodup_tab l [] List.nodup_nil)
  refine ⟨fun v => ?_, ?_⟩
  · rw [hp.mem_iff, tabulate, mem_tab]; simp
  · have hs : (numbers l).Pairwise (· ≤ ·) := List.pairwise_insertionSort _ _
    exact (hs.and hn).imp fun h => lt_of_le_of_ne h.1 h.2

private theorem numbers_eq {l m : List ℤ} (hm : m.Pairwise (· < ·)) (h : ∀ v, v ∈ l ↔ v ∈ m) : numbers l = m := by
  obtain ⟨h1, h2⟩ := segy_numbers l
  refine List.Perm.eq_of_pairwise (le := (· < ·)) (fun a b _ _ h h' => absurd h' (lt_asymm h)) h2 hm ?_
  exact (List.perm_ext_iff_of_nodup (h2.imp ne_of_lt) (hm.imp ne_of_lt)).2 fun v => (h1 v).trans (h v)

private theorem mem_add {m : List (ℤ × ℕ)} (hm : m.Pairwise (·.1 < ·.1)) (s k : ℤ) (c : ℕ) :
    (k, c) ∈ addStep m s ↔ (k ≠ s ∧ (k, c) ∈ m) ∨
      (k = s ∧ ((∃ c', (s, c') ∈ m ∧ c = c' + 1) ∨ ((∀ c', (s, c') ∉ m) ∧ c = 1))) := by
  induction m with
  | nil => simp [addStep]
  | cons e r ih =>
    obtain ⟨k0, c0⟩ := e
    rw [List.pairwise_cons] at hm
    have hr := ih hm.2
    have hlt : ∀ c', (s, c') ∈ r → k0 < s := fun c' h => hm.1 _ h
    unfold addStep
    split
    · rename_i h
      have no : ∀ c', (s, c') ∉ r := fun c' h' => by have := hlt c' h'; omega
      have no0 : s ≠ k0 := by omega
      simp only [List.mem_cons, Prod.mk.injEq, no, no0, false_and, false_or, or_self, exists_false, not_false_eq_true,
        implies_true, true_and]
      constructor
      · rintro (⟨rfl, rfl⟩ | ⟨rfl, rfl⟩ | h')
        · exact Or.inr ⟨rfl, rfl⟩
        · exact Or.inl ⟨fun h => no0 h.symm, Or.inl ⟨rfl, rfl⟩⟩
        · exact Or.inl ⟨fun h => no c (h ▸ h'), Or.inr h'⟩
      · rintro (⟨_, h' | h'⟩ | ⟨rfl, rfl⟩)
        · exact Or.inr (Or.inl h')
        · exact Or.inr (Or.inr h')
        · exact Or.inl ⟨rfl, rfl⟩
    · split
      · rename_i h1 h2
        subst h2
        have no : ∀ c', (s, c') ∉ r := fun c' h' => by have := hlt c' h'; omega
        simp only [List.mem_cons, Prod.mk.injEq, no, true_and, or_false]
        constructor
        · rintro (⟨rfl, rfl⟩ | h')
          · exact Or.inr ⟨rfl, Or.inl ⟨c0, rfl, rfl⟩⟩
          · exact Or.inl ⟨fun h => no c (h ▸ h'), Or.inr h'⟩
        · rintro (⟨h, ⟨rfl, _⟩ | h'⟩ | ⟨rfl, ⟨c', rfl, rfl⟩ | ⟨h, _⟩⟩)
          · exact absurd rfl h
          · exact Or.inr h'
          · exact Or.inl ⟨rfl, rfl⟩
          · exact absurd rfl (h c0)
      · rename_i h1 h2
        simp only [List.mem_cons, Prod.mk.injEq, h2, false_and, false_or, hr]
        constructor
        · rintro (⟨rfl, rfl⟩ | ⟨h, h'⟩ | h)
          · exact Or.inl ⟨fun h => h2 h.symm, Or.inl ⟨rfl, rfl⟩⟩
          · exact Or.inl ⟨h, Or.inr h'⟩
          · exact Or.inr h
        · rintro (⟨h, h' | h'⟩ | h)
          · exact Or.inl h'
          · exact Or.inr (Or.inl ⟨h, h'⟩)
          · exact Or.inr (Or.inr h)

private theorem sorted_add {m : List (ℤ × ℕ)} (hm : m.Pairwise (·.1 < ·.1)) (s : ℤ) :
    (addStep m s).Pairwise (·.1 < ·.1) := by
  induction m with
  | nil => simp [addStep]
  | cons e r ih =>
    obtain ⟨k0, c0⟩ := e
    have hm' := hm
    rw [List.pairwise_cons] at hm
    unfold addStep
    split
    · rename_i h
      refine List.pairwise_cons.2 ⟨?_, hm'⟩
      intro a ha
      rcases List.mem_cons.1 ha with rfl | ha
      · exact h
      · exact lt_trans h (hm.1 a ha)
    · split
      · exact List.pairwise_cons.2 ⟨hm.1, hm.2⟩
      · rename_i h1 h2
        refine List.pairwise_cons.2 ⟨?_, ih hm.2⟩
        rintro ⟨k, c⟩ ha
        rw [mem_add hm.2] at ha
        rcases ha with ⟨_, h⟩ | ⟨rfl, _⟩
        · exact hm.1 _ h
        · show k0 < k
          omega

private theorem fold_add (l : List ℤ) : (l.foldl addStep []).Pairwise (·.1 < ·.1) ∧
    ∀ k c, (k, c) ∈ l.foldl addStep [] ↔ c = l.count k ∧ 0 < c := by
  induction l using List.reverseRecOn with
  | nil =>
    refine ⟨List.Pairwise.nil, fun k c => ?_⟩
    simp only [List.foldl_nil, List.not_mem_nil, List.count_nil, false_iff]
    omega
  | append_singleton l s ih =>
    rw [List.foldl_append, List.foldl_cons, List.foldl_nil]
    refine ⟨sorted_add ih.1 s, fun k c => ?_⟩
    rw [mem_add ih.1]
    simp only [ih.2, List.count_append, List.count_singleton, beq_iff_eq]
    by_cases hk : k = s
    · subst hk
      simp only [if_true, ne_eq, not_true_eq_false, false_and, false_or, true_and]
      constructor
      · rintro (⟨c', ⟨h1, h2⟩, h3⟩ | ⟨h1, h2⟩)
        · omega
        · have := h1 (l.count k)
          omega
      · rintro ⟨h1, h2⟩
        by_cases h0 : l.count k = 0
        · exact Or.inr ⟨fun c' => by omega, by omega⟩
        · exact Or.inl ⟨l.count k, ⟨rfl, by omega⟩, h1⟩
    · rw [if_neg (fun h => hk h.symm)]
      simp [hk]

/-- **C163**: the table of steps has exactly the steps between neighbours, with how often they occur, each once. -/
theorem segy_step_counts (l : List ℤ) : (stepMap l).Pairwise (·.1 < ·.1) ∧
    ∀ k c, (k, c) ∈ stepMap l ↔ c = (stepsOf l).count k ∧ 0 < c := fold_add _

private theorem frequent_fold (m : List (ℤ × ℕ)) : ∀ st : ℤ × ℕ,
    let r := m.foldl (fun (st : ℤ × ℕ) e => if st.2 < e.2 then (e.1, e.2) else st) st
    (r = st ∨ r ∈ m) ∧ st.2 ≤ r.2 ∧ ∀ e ∈ m, e.2 ≤ r.2 := by
  induction m with
  | nil => intro st; simp
  | cons e m ih =>
    intro st
    obtain ⟨h1, h2, h3⟩ := ih (if st.2 < e.2 then (e.1, e.2) else st)
    simp only [List.foldl_cons]
    refine ⟨?_, ?_, ?_⟩
    · rcases h1 with h | h
      · rw [h]
        split
        · exact Or.inr (by simp)
        · exact Or.inl rfl
      · exact Or.inr (List.mem_cons_of_mem _ h)
    · refine le_trans ?_ h2
      split
      · rename_i h; exact h.le
      · exact le_rfl
    · intro a ha
      rcases List.mem_cons.1 ha with rfl | ha
      · refine le_trans ?_ h2
        split
        · exact le_rfl
        · rename_i h; exact not_lt.1 h
      · exact h3 a ha

/-- **C163**: the step that is taken as correct occurs, and no step occurs more often. -/
theorem segy_frequent (l : List ℤ) (h : stepsOf l ≠ []) :
    frequent (stepMap l) ∈ stepsOf l ∧ ∀ s, (stepsOf l).count s ≤ (stepsOf l).count (frequent (stepMap l)) := by
  obtain ⟨h1, h2, h3⟩ := frequent_fold (stepMap l) (0, 0)
  have hm := (segy_step_counts l).2
  have all : ∀ s, s ∈ stepsOf l → (s, (stepsOf l).count s) ∈ stepMap l := fun s hs =>
    (hm _ _).2 ⟨rfl, List.count_pos_iff.2 hs⟩
  obtain ⟨s0, hs0⟩ := List.exists_mem_of_ne_nil _ h
  have p0 := h3 _ (all s0 hs0)
  have q0 : 0 < (stepsOf l).count s0 := List.count_pos_iff.2 hs0
  have hr : (stepMap l).foldl (fun (st : ℤ × ℕ) e => if st.2 < e.2 then (e.1, e.2) else st) (0, 0) ∈ stepMap l := by
    rcases h1 with h | h
    · rw [h] at p0
      simp only at p0
      omega
    · exact h
  obtain ⟨e1, e2⟩ := (hm (frequent (stepMap l)) _).1 hr
  refine ⟨List.count_pos_iff.1 (e1 ▸ e2), fun s => ?_⟩
  rw [← e1]
  by_cases hs : s ∈ stepsOf l
  · exact h3 _ (all s hs)
  · rw [List.count_eq_zero.2 hs]; exact Nat.zero_le _

private theorem steps_mem {l : List ℤ} {s : ℤ} : s ∈ stepsOf l ↔ ∃ p a b q, l = p ++ a :: b :: q ∧ s = b - a := by
  induction l with
  | nil => simp [stepsOf]
  | cons a l ih =>
    cases l with
    | nil =>
      simp only [stepsOf, List.not_mem_nil, false_iff]
      rintro ⟨p, x, y, q, h, _⟩
      have := congrArg List.length h
      simp at this
      omega
    | cons b r =>
      simp only [stepsOf, List.mem_cons, ih]
      constructor
      · rintro (h | ⟨p, x, y, q, h, hs⟩)
        · exact ⟨[], a, b, r, rfl, h⟩
        · exact ⟨a :: p, x, y, q, by rw [h]; rfl, hs⟩
      · rintro ⟨p, x, y, q, h, hs⟩
        cases p with
        | nil =>
          simp only [List.nil_append, List.cons.injEq] at h
          exact Or.inl (by rw [hs, h.1, h.2.1])
        | cons z p =>
          simp only [List.cons_append, List.cons.injEq] at h
          exact Or.inr ⟨p, x, y, q, h.2, hs⟩

/-- **C163**: a number is wrong only if it is next to a step that is not the most frequent one. -/
private theorem wrong_mem {s v : ℤ} : ∀ {l : List ℤ}, v ∈ wrong s l →
    ∃ p a b q, l = p ++ a :: b :: q ∧ b - a ≠ s ∧ (v = a ∨ v = b)
  | [], h => by simp [wrong] at h
  | [_], h => by simp [wrong] at h
  | [_, _], h => by simp [wrong] at h
  | a :: b :: c :: r, h => by
    rw [wrong, List.mem_append] at h
    rcases h with h | h
    · split at h
      · rename_i hn
        exact ⟨[], a, b, c :: r, rfl, hn, Or.inl (List.mem_singleton.1 h)⟩
      · split at h
        · rename_i hn
          exact ⟨[a], b, c, r, rfl, hn, Or.inr (List.mem_singleton.1 h)⟩
        · simp at h
    · obtain ⟨p, x, y, q, e, hn, hv⟩ := wrong_mem h
      exact ⟨a :: p, x, y, q, by rw [e]; rfl, hn, hv⟩

/-- **C163**: as many traces as before, and each keeps both of its numbers or has none. -/
theorem segy_bogus_keeps (tr : List (ℤ × ℤ)) : (setBogus tr).length = tr.length ∧
    ∀ (i : ℕ) (h : i < tr.length) (t : ℤ × ℤ), (setBogus tr)[i]? = some (some t) → t = tr[i] := by
  unfold setBogus
  simp only
  split
  · refine ⟨by simp, fun i h t ht => ?_⟩
    rw [List.getElem?_map, List.getElem?_eq_getElem h, Option.map_some, Option.some.injEq] at ht
    split at ht
    · simp at ht
    · exact (Option.some.inj ht).symm
  · refine ⟨by simp, fun i h t ht => ?_⟩
    rw [List.getElem?_map, List.getElem?_eq_getElem h, Option.map_some, Option.some.injEq] at ht
    exact (Option.some.inj ht).symm

/-- **C163**: a trace loses its numbers only if its inline or its crossline is next to a gap, in the numbers of all
traces, that is not the most frequent step. -/
theorem segy_bogus_only (tr : List (ℤ × ℤ)) (i : ℕ) (hi : i < tr.length) (h : (setBogus tr)[i]? = some none) :
    (∃ p a b q, numbers (tr.map Prod.fst) = p ++ a :: b :: q ∧ (tr[i].1 = a ∨ tr[i].1 = b) ∧
      b - a ≠ frequent (stepMap (numbers (tr.map Prod.fst)))) ∨
    (∃ p a b q, numbers (tr.map Prod.snd) = p ++ a :: b :: q ∧ (tr[i].2 = a ∨ tr[i].2 = b) ∧
      b - a ≠ frequent (stepMap (numbers (tr.map Prod.snd)))) := by
  unfold setBogus at h
  simp only at h
  split at h
  · rw [List.getElem?_map, List.getElem?_eq_getElem hi, Option.map_some, Option.some.injEq] at h
    split at h
    · rename_i hw
      rcases hw with hw | hw
      · obtain ⟨p, a, b, q, e, hn, hv⟩ := wrong_mem hw
        exact Or.inl ⟨p, a, b, q, e, hv, hn⟩
      · obtain ⟨p, a, b, q, e, hn, hv⟩ := wrong_mem hw
        exact Or.inr ⟨p, a, b, q, e, hv, hn⟩
    · simp at h
  · rw [List.getElem?_map, List.getElem?_eq_getElem hi, Option.map_some, Option.some.injEq] at h
    simp at h

private theorem uniform_short {l : List ℤ} {s : ℤ} (h : ∀ t ∈ stepsOf l, t = s) : (stepMap l).length ≤ 1 := by
  obtain ⟨hp, hm⟩ := segy_step_counts l
  match hq : stepMap l with
  | [] => simp
  | [_] => simp
  | (a, c) :: (b, d) :: r =>
    rw [hq] at hp hm
    have ha : a = s := h a (List.count_pos_iff.1 (by
      obtain ⟨e, f⟩ := (hm a c).1 (by simp)
      omega))
    have hb : b = s := h b (List.count_pos_iff.1 (by
      obtain ⟨e, f⟩ := (hm b d).1 (by simp)
      omega))
    have := (List.pairwise_cons.1 hp).1 (b, d) (by simp)
    simp only at this
    omega

private theorem steps_progression (a s : ℤ) : ∀ n : ℕ, ∀ t ∈ stepsOf ((List.range n).map fun k : ℕ => a + k * s), t = s := by
  intro n t ht
  obtain ⟨p, x, y, q, e, rfl⟩ := steps_mem.1 ht
  have hl := congrArg List.length e
  simp only [List.length_map, List.length_range, List.length_append, List.length_cons] at hl
  have e1 := congrArg (·[p.length]?) e
  have e2 := congrArg (·[p.length + 1]?) e
  simp only [List.getElem?_map, List.getElem?_append_right (Nat.le_add_right _ _), List.getElem?_append_right (Nat.le_refl _)] at e1 e2
  rw [List.getElem?_range (by omega)] at e1 e2
  simp at e1 e2
  rw [← e1, ← e2]
  ring

/-- **C163**: when the inlines of the traces are all numbers of a progression with a positive step, and the crosslines
those of another, every trace keeps its numbers. Traces need not be in order, and not every pair need be there. -/
theorem segy_bogus_regular (tr : List (ℤ × ℤ)) (a s b u : ℤ) (n k : ℕ) (hs : 0 < s) (hu : 0 < u)
    (hi : ∀ v, v ∈ tr.map Prod.fst ↔ ∃ j : ℕ, j < n ∧ v = a + j * s)
    (hx : ∀ v, v ∈ tr.map Prod.snd ↔ ∃ j : ℕ, j < k ∧ v = b + j * u) :
    setBogus tr = tr.map some := by
  have key : ∀ (l : List ℤ) (a s : ℤ) (n : ℕ), 0 < s → (∀ v, v ∈ l ↔ ∃ j : ℕ, j < n ∧ v = a + j * s) →
      (stepMap (numbers l)).length ≤ 1 := by
    intro l a s n hs h
    rw [numbers_eq (m := (List.range n).map fun k : ℕ => a + k * s)]
    · exact uniform_short (steps_progression a s n)
    · rw [List.pairwise_map]
      refine List.pairwise_lt_range.imp ?_
      intro i j hij
      have : (i : ℤ) < j := by exact_mod_cast hij
      nlinarith
    · intro v
      rw [h, List.mem_map]
      constructor
      · rintro ⟨j, hj, rfl⟩; exact ⟨j, List.mem_range.2 hj, rfl⟩
      · rintro ⟨j, hj, rfl⟩; exact ⟨j, List.mem_range.1 hj, rfl⟩
  unfold setBogus
  simp only
  rw [if_neg]
  have h1 := key _ a s n hs hi
  have h2 := key _ b u k hu hx
  omega

/-- A case of `segy_bogus_regular`: three inlines in steps of two, out of order. -/
theorem segy_bogus_regular_example :
    setBogus [(14, 5), (10, 5), (12, 6), (10, 6)] = [some (14, 5), some (10, 5), some (12, 6), some (10, 6)] := by
  decide +kernel

/-- `n` numbers in steps of `s`, from `a`. -/
private def prog (a s : ℤ) : ℕ → List ℤ
  | 0 => []
  | n + 1 => a :: prog (a + s) s n

private theorem prog_mem (s v : ℤ) : ∀ (n : ℕ) (a : ℤ), v ∈ prog a s n ↔ ∃ j : ℕ, j < n ∧ v = a + j * s
  | 0, a => by simp [prog]
  | n + 1, a => by
    rw [prog, List.mem_cons, prog_mem s v n]
    constructor
    · rintro (rfl | ⟨j, hj, rfl⟩)
      · exact ⟨0, by omega, by simp⟩
      · exact ⟨j + 1, by omega, by push_cast; ring⟩
    · rintro ⟨j, hj, rfl⟩
      cases j with
      | zero => left; simp
      | succ j => right; exact ⟨j, by omega, by push_cast; ring⟩

private theorem prog_sorted {s : ℤ} (hs : 0 < s) : ∀ (n : ℕ) (a : ℤ), (prog a s n).Pairwise (· < ·)
  | 0, _ => List.Pairwise.nil
  | n + 1, a => by
    rw [prog, List.pairwise_cons]
    refine ⟨fun v hv => ?_, prog_sorted hs n _⟩
    obtain ⟨j, _, rfl⟩ := (prog_mem s v n _).1 hv
    have : 0 ≤ (j : ℤ) * s := by positivity
    linarith

private theorem prog_steps (s : ℤ) : ∀ (n : ℕ) (a : ℤ), stepsOf (prog a s (n + 1)) = List.replicate n s
  | 0, _ => rfl
  | n + 1, a => by
    have ih := prog_steps s n (a + s)
    simp only [prog, stepsOf, List.replicate_succ] at ih ⊢
    rw [ih, add_sub_cancel_left]

private theorem prog_steps_end (s z : ℤ) : ∀ (n : ℕ) (a : ℤ),
    stepsOf (prog a s (n + 1) ++ [z]) = List.replicate n s ++ [z - (a + n * s)]
  | 0, _ => by simp [prog, stepsOf]
  | n + 1, a => by
    have ih := prog_steps_end s z n (a + s)
    simp only [prog, List.cons_append, stepsOf, List.replicate_succ] at ih ⊢
    rw [ih, add_sub_cancel_left]
    push_cast
    congr 4
    ring

private theorem prog_wrong (s : ℤ) : ∀ (n : ℕ) (a : ℤ), wrong s (prog a s n) = []
  | 0, _ => rfl
  | 1, _ => rfl
  | 2, _ => rfl
  | n + 3, a => by
    have ih := prog_wrong s (n + 2) (a + s)
    simp only [prog, wrong] at ih ⊢
    rw [ih]
    simp

private theorem prog_wrong_end (s z : ℤ) : ∀ (n : ℕ) (a : ℤ), z ≠ a + (n + 2 : ℕ) * s →
    wrong s (prog a s (n + 2) ++ [z]) = [z]
  | 0, a, h => by
    have : ¬ z - (a + s) = s := fun h' => h (by push_cast; linarith)
    simp [prog, wrong, this]
  | n + 1, a, h => by
    have ih := prog_wrong_end s z n (a + s) (fun h' => h (by rw [h']; push_cast; ring))
    simp only [prog, List.cons_append, wrong] at ih ⊢
    rw [ih]
    simp

private theorem prog_frequent_wrong (b u : ℤ) (k : ℕ) :
    wrong (frequent (stepMap (prog b u k))) (prog b u k) = [] := by
  match k with
  | 0 => rfl
  | 1 => rfl
  | 2 => rfl
  | k + 3 =>
    have hne : stepsOf (prog b u (k + 3)) ≠ [] := by rw [prog_steps]; simp
    have h := (segy_frequent _ hne).1
    rw [prog_steps] at h
    rw [List.eq_of_mem_replicate h]
    exact prog_wrong _ _ _

/-- **C163**: three or more inlines in steps of `s`, and one number `z` beyond them that does not continue them; the
crosslines are regular. Exactly the traces with the inline `z` lose their numbers, however many there are. -/
theorem segy_bogus_outlier (tr : List (ℤ × ℤ)) (a s b u z : ℤ) (n k : ℕ) (hs : 0 < s) (hu : 0 < u) (hn : 3 ≤ n)
    (hz : ∀ j : ℕ, j < n → a + j * s < z) (hz' : z ≠ a + n * s)
    (hi : ∀ v, v ∈ tr.map Prod.fst ↔ (∃ j : ℕ, j < n ∧ v = a + j * s) ∨ v = z)
    (hx : ∀ v, v ∈ tr.map Prod.snd ↔ ∃ j : ℕ, j < k ∧ v = b + j * u) :
    setBogus tr = tr.map fun t => if t.1 = z then none else some t := by
  obtain ⟨n, rfl⟩ := Nat.exists_eq_add_of_le' hn
  have e1 : numbers (tr.map Prod.fst) = prog a s (n + 3) ++ [z] := by
    apply numbers_eq
    · rw [List.pairwise_append]
      refine ⟨prog_sorted hs _ _, List.pairwise_singleton _ _, ?_⟩
      intro v hv w hw
      rw [List.mem_singleton.1 hw]
      obtain ⟨j, hj, rfl⟩ := (prog_mem s v _ _).1 hv
      exact hz j hj
    · intro v
      rw [hi, List.mem_append, prog_mem, List.mem_singleton]
  have e2 : numbers (tr.map Prod.snd) = prog b u k :=
    numbers_eq (prog_sorted hu _ _) fun v => by rw [hx, prog_mem]
  have est := prog_steps_end s z (n + 2) a
  have ht : z - (a + ((n + 2 : ℕ) : ℤ) * s) ≠ s := fun h => hz' (by push_cast at h ⊢; linarith)
  have hne : stepsOf (prog a s (n + 3) ++ [z]) ≠ [] := by rw [est]; simp
  have hfr : frequent (stepMap (prog a s (n + 3) ++ [z])) = s := by
    by_contra hc
    have h := (segy_frequent _ hne).2 s
    rw [est, List.count_append, List.count_append, List.count_replicate_self, List.count_replicate,
      if_neg (by simpa using fun h => hc h.symm), List.count_singleton, List.count_singleton] at h
    split at h <;> split at h <;> omega
  have hlen : 1 < (stepMap (prog a s (n + 3) ++ [z])).length := by
    have hm := (segy_step_counts (prog a s (n + 3) ++ [z])).2
    have m1 := (hm s _).2 ⟨rfl, List.count_pos_iff.2 (by rw [est]; simp)⟩
    have m2 := (hm (z - (a + ((n + 2 : ℕ) : ℤ) * s)) _).2 ⟨rfl, List.count_pos_iff.2 (by rw [est]; simp)⟩
    match hq : stepMap (prog a s (n + 3) ++ [z]) with
    | [] => rw [hq] at m1; simp at m1
    | [e] =>
      rw [hq, List.mem_singleton] at m1 m2
      exact absurd (congrArg Prod.fst (m2.trans m1.symm)) ht
    | _ :: _ :: _ => simp
  unfold setBogus
  simp only [e1, e2]
  rw [if_pos (Or.inl hlen), hfr, prog_wrong_end s z (n + 1) a (by exact_mod_cast hz'), prog_frequent_wrong]
  simp

/-- A case of `segy_bogus_only` and `segy_bogus_outlier`: a single number far from the others is the only one that is lost. -/
theorem segy_bogus_example :
    setBogus [(10, 5), (11, 5), (12, 5), (13, 5), (999, 5)] =
      [some (10, 5), some (11, 5), some (12, 5), some (13, 5), none] := by decide +kernel

/-- **C163**, violated: inlines 1 to 7 of which 4 has no trace. All numbers match the step 1, but the traces of the
inlines 3 and 5 are set undefined. -/
theorem segy_bogus_violation :
    setBogus [(1, 5), (2, 5), (3, 5), (5, 5), (6, 5), (7, 5)] =
      [some (1, 5), some (2, 5), none, none, some (6, 5), some (7, 5)] := by decide +kernel

/-- **C163**, violated: a wrong number between the others (12 in a survey with inlines in steps of five): its right
neighbours are lost with it. -/
theorem segy_bogus_between_violation :
    setBogus [(0, 5), (5, 5), (10, 5), (12, 5), (15, 5), (20, 5), (25, 5)] =
      [some (0, 5), some (5, 5), none, none, some (15, 5), some (20, 5), some (25, 5)] := by decide +kernel

end Verif.SegyCheck
