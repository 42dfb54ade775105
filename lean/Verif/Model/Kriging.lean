import Verif.Model.Variogram
import Mathlib.LinearAlgebra.Matrix.PosDef
import Mathlib.LinearAlgebra.Matrix.NonsingularInverse

/-!
# Kriging in one dimension

Models `Krig1D` of src/nrlib/statistics/kriging.cpp and `CholeskyInvert` and `CholeskySolve` of
src/nrlib/flens/nrlib_flens.cpp. LAPACK (`potrf`, `potri`, `posv`) is not followed; it is modelled by what it
documents: success with the exact inverse or solution if the matrix is positive definite, an error if not.
With no data the arrays given to LAPACK have leading dimension 0, which it does not allow; that is `ub` here. An index outside a
vector or matrix is `ub`.
-/

namespace Verif

/-- A `SymmetricMatrix`: an assignment to `K(i,j)` is one to `K(j,i)` as well. -/
abbrev SymMat := ℕ → ℕ → ℝ

/-- The assignment `K(i,j) = v`. -/
def SymMat.set (K : SymMat) (i j : ℕ) (v : ℝ) : SymMat :=
  fun a b => if (a = i ∧ b = j) ∨ (a = j ∧ b = i) then v else K a b

/-- The loops that fill a matrix: for `i < n`, for `j <= i`, `K(j,i) = f(i,j)`; kriging.cpp lines 80-82,
975-982 and 1090-1098. The memory is not initialised before; it is given as 0 here and overwritten. -/
def fillSymm (n : ℕ) (f : ℕ → ℕ → Res ℝ) : Res SymMat :=
  forRange 0 n (fun i K => forRange 0 (i + 1) (fun j K => (f i j).bind fun v => .ok (K.set j i v)) K)
    fun _ _ => 0

/-- The loops that fill a vector: for `i < n`, `k(i) = f(i)`; kriging.cpp lines 90-91, 996-1000 and
1112-1116. -/
def fillVec (n : ℕ) (f : ℕ → Res ℝ) : Res (List ℝ) :=
  forRange 0 n (fun i k => (f i).bind fun v => wr k i v) (List.replicate n 0)

/-- The leading `n` by `n` part as a matrix. -/
def SymMat.toMatrix (K : SymMat) (n : ℕ) : Matrix (Fin n) (Fin n) ℝ := Matrix.of fun a b => K a b

/-- A vector of `n` numbers. -/
def toVec (n : ℕ) (b : List ℝ) : Fin n → ℝ := fun a => b.getD a 0

/-- The product of two vectors, as of kriging.cpp line 93. -/
def dotList (a b : List ℝ) : ℝ := (List.zipWith (· * ·) a b).sum

open Classical in
/-- `CholeskyInvert` followed by the product of the inverse and a vector, nrlib_flens.cpp lines 128-137 and
kriging.cpp lines 84-85. -/
noncomputable def choleskyInvertMul (n : ℕ) (K : SymMat) (b : List ℝ) : Res (List ℝ) :=
  if n = 0 then .ub "LAPACK called with leading dimension 0"
  else if (K.toMatrix n).PosDef then .ok (List.ofFn (((K.toMatrix n)⁻¹).mulVec (toVec n b)))
  else .throws "Error in Cholesky inversion"

open Classical in
/-- `CholeskySolve`, nrlib_flens.cpp lines 57-80. -/
noncomputable def choleskySolve (n : ℕ) (K : SymMat) (b : List ℝ) : Res (List ℝ) :=
  if n = 0 then .ub "LAPACK called with leading dimension 0"
  else if (K.toMatrix n).PosDef then .ok (List.ofFn (((K.toMatrix n)⁻¹).mulVec (toVec n b)))
  else .throws "Error in Cholesky: The leading minor is not positive definite."

namespace Krig1

/-- kriging.cpp lines 58-64, one turn: the residual vector and `j`. -/
noncomputable def residualStep (field obs : List ℝ) (is_known : List Bool) (i : ℕ) (st : List ℝ × ℕ) :
    Res (List ℝ × ℕ) := do
  let known ← rd is_known i
  if known = true then
    let o ← rd obs st.2
    let f ← rd field i
    let r ← wr st.1 st.2 (o - f)
    .ok (r, st.2 + 1)
  else .ok st

/-- kriging.cpp lines 72-77, one turn: `x_known` and `x_unknown`. -/
noncomputable def splitStep (is_known : List Bool) (dx : ℝ) (i : ℕ) (st : List ℝ × List ℝ) :
    Res (List ℝ × List ℝ) := do
  let known ← rd is_known i
  if known = true then .ok (st.1 ++ [i * dx], st.2) else .ok (st.1, st.2 ++ [i * dx])

/-- kriging.cpp lines 88-101, one turn: the field, `j` and `kk`. -/
noncomputable def cellStep (vario : Variogram) (is_known : List Bool) (obs x_known x_unknown K_res : List ℝ)
    (k : ℕ) (st : List ℝ × ℕ × ℕ) : Res (List ℝ × ℕ × ℕ) := do
  let known ← rd is_known k
  if known = false then
    let k_vec ← fillVec obs.length fun i => do
      let a ← rd x_known i
      let b ← rd x_unknown st.2.1
      .ok (vario.corr (a - b))
    let prod := dotList k_vec K_res
    let f ← rd st.1 k
    let field ← wr st.1 k (f + prod)
    .ok (field, st.2.1 + 1, st.2.2)
  else
    let o ← rd obs st.2.2
    let field ← wr st.1 k o
    .ok (field, st.2.1, st.2.2 + 1)

end Krig1

/-- `Krig1D`, kriging.cpp lines 46-102: the new field. The two `assert`s are part of the model. -/
noncomputable def krig1D (field : List ℝ) (is_known : List Bool) (obs : List ℝ) (dx : ℝ) (vario : Variogram) :
    Res (List ℝ) := do
  if ¬ (field.length = is_known.length ∧ obs.length ≤ field.length) then .ub "assert in Krig1D"
  else
    let n_obs := obs.length
    let res ← forRange 0 is_known.length (Krig1.residualStep field obs is_known) (List.replicate n_obs 0, 0)
    let x ← forRange 0 is_known.length (Krig1.splitStep is_known dx) ([], [])
    let K ← fillSymm n_obs fun i j => do
      let a ← rd x.1 i
      let b ← rd x.1 j
      .ok (vario.corr (a - b))
    let K_res ← choleskyInvertMul n_obs K res.1
    let st ← forRange 0 field.length (Krig1.cellStep vario is_known obs x.1 x.2 K_res) (field, 0, 0)
    .ok st.1

end Verif
