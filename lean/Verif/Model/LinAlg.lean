import Verif.Model.Kriging

/-!
# Small functions of the linear algebra

Models `FindLargestElement`, `IdentityMatrix` and `Sort3x3` of src/nrlib/flens/nrlib_flens.cpp. Doubles are real numbers. Indices are not
checked (assertions are not compiled), so an index of -1 is `ub`.
-/

namespace Verif

namespace LinAlg

open Classical in
/-- `FindLargestElement`, lines 212-222: `none` is minus infinity. -/
noncomputable def findLargest (v : List ℝ) : Res (Option ℝ) :=
  forRange 0 v.length (fun i (m : Option ℝ) => (rd v i).bind fun x => .ok (match m with
    | none => some x
    | some y => if x > y then some x else some y)) none

/-- `IdentityMatrix`, lines 288-297, with `ZeroMatrix` and `InitializeMatrix`. -/
def identityMatrix (n : ℕ) : Res (ℕ → ℕ → ℝ) := do
  let z ← forRange 0 n (fun i A => forRange 0 n (fun j (A : ℕ → ℕ → ℝ) => .ok (fun a b => if a = i ∧ b = j then 0.0 else A a b)) A)
    fun _ _ => 0
  forRange 0 n (fun i (A : ℕ → ℕ → ℝ) => .ok (fun a b => if a = i ∧ b = i then 1.0 else A a b)) z

open Classical in
/-- `Sort3x3`, lines 312-320, one turn: `max` and `index`. -/
noncomputable def sortPick (eval : List ℝ) (j i : ℕ) (st : ℝ × List ℤ) : Res (ℝ × List ℤ) := do
  let i0 ← rd st.2 0
  let i1 ← rd st.2 1
  (if j = 0 ∨ (j = 1 ∧ (i : ℤ) ≠ i0) ∨ (j = 2 ∧ (i : ℤ) ≠ i0 ∧ (i : ℤ) ≠ i1) then do
    let e ← rd eval i
    (if e > st.1 then do
      let idx ← wr st.2 j (i : ℤ)
      .ok (e, idx)
    else .ok st : Res (ℝ × List ℤ))
  else .ok st : Res (ℝ × List ℤ))

/-- `Evec(k, index(j))`. -/
noncomputable def sortCol (evec : ℕ → ℕ → ℝ) (idx : List ℤ) (j k : ℕ) : Res ℝ := do
  let c ← rd idx j
  if c < 0 ∨ 3 ≤ c then .ub "index outside a matrix" else .ok (evec k c.toNat)

/-- Lines 310-326, one turn: `index`, `h1` and `H2`. -/
noncomputable def sortStep (eval : List ℝ) (evec : ℕ → ℕ → ℝ) (j : ℕ) (st : List ℤ × List ℝ × (ℕ → ℕ → ℝ)) :
    Res (List ℤ × List ℝ × (ℕ → ℕ → ℝ)) := do
  let p ← forRange 0 3 (sortPick eval j) (-100000.0, st.1)
  let h1 ← wr st.2.1 j p.1
  let h2 ← forRange 0 3 (fun k (H : ℕ → ℕ → ℝ) => (sortCol evec p.2 j k).bind fun v => .ok (fun a b => if a = k ∧ b = j then v else H a b)) st.2.2
  .ok (p.2, h1, h2)

/-- `Sort3x3`, lines 299-333: the eigenvalues and the matrix of eigenvectors. -/
noncomputable def sort3x3 (eval : List ℝ) (evec : ℕ → ℕ → ℝ) : Res (List ℝ × (ℕ → ℕ → ℝ)) := do
  let s ← forRange 0 3 (sortStep eval evec) ([-1, -1, -1], [0, 0, 0], fun _ _ => 0)
  .ok (s.2.1, s.2.2)

end LinAlg

end Verif
