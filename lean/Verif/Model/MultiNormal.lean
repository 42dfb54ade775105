import Verif.Model.Kriging
import Verif.Model.Distr
import Mathlib.LinearAlgebra.Matrix.PosDef
import Mathlib.Analysis.SpecialFunctions.Trigonometric.Basic

/-!
# Cholesky factors and normal vectors

Models `CholeskyFactorize` and `CholeskyDeFactorize` of src/nrlib/flens/nrlib_flens.cpp and src/nrlib/statistics/multinormal.{hpp,cpp}.
Doubles are real numbers; assertions are not compiled. LAPACK and BLAS are modelled by what they promise to return; they are called with a
leading dimension of 0 if a matrix is empty, which is `ub`. The upper triangle of a symmetric matrix is stored, which is what flens does
if it is not told otherwise.
-/

namespace Verif

/-- The upper triangle that is stored, with zeros below. -/
def upTri (n : ℕ) (S : SymMat) : Matrix (Fin n) (Fin n) ℝ := Matrix.of fun a b => if a ≤ b then S a b else 0

/-- The symmetric matrix whose upper triangle is stored. -/
def symUp (n : ℕ) (K : SymMat) : Matrix (Fin n) (Fin n) ℝ := Matrix.of fun a b => K (min a b) (max a b)

/-- What LAPACK's `potrf` leaves in the memory of a symmetric matrix `K`: the upper triangle is the factor `U` of `K = Uᵀ U`, with a
positive diagonal. -/
structure IsChol (n : ℕ) (K S : SymMat) : Prop where
  symm : ∀ a b, S a b = S b a
  pos : ∀ a < n, 0 < S a a
  fac : (upTri n S).transpose * upTri n S = symUp n K

open Classical in
/-- `CholeskyFactorize`, nrlib_flens.cpp lines 156-165. The factor overwrites the matrix, which stays a *symmetric* matrix for flens. -/
noncomputable def choleskyFactorize (n : ℕ) (K : SymMat) : Res SymMat :=
  if n = 0 then .ub "LAPACK called with leading dimension 0"
  else if h : ∃ S, IsChol n K S then .ok h.choose
  else .throws "Error in Cholesky: The leading minor is not positive definite."

/-- Lines 176-181: `m1`, which starts as zeros, gets the upper triangle. -/
def copyUpper (n : ℕ) (A : SymMat) : Res (ℕ → ℕ → ℝ) :=
  forRange 0 n (fun j M => forRange 0 (j + 1) (fun i M => .ok (fun a b => if a = i ∧ b = j then A i j else M a b)) M) fun _ _ => 0

/-- `CholeskyDeFactorize`, lines 167-184. -/
noncomputable def choleskyDeFactorize (n : ℕ) (A : SymMat) : Res SymMat := do
  let m1 ← copyUpper n A
  if n = 0 then .ub "BLAS called with leading dimension 0"
  else .ok (fun a b => ∑ k : Fin n, m1 k (min a b) * m1 k (max a b))

/-- The members of a `MultiNormal`, multinormal.hpp lines 50-52. -/
structure MultiNormal where
  exp : List ℝ
  /-- The dimension of `chol_fac_cov_`. -/
  cholDim : ℕ
  chol : SymMat
  /-- The dimension of `cov_`. -/
  dim : ℕ
  cov : SymMat

namespace MultiNormal

/-- `MultiNormal()`, multinormal.cpp lines 28-31. -/
def default : MultiNormal := ⟨[], 0, fun _ _ => 0, 0, fun _ _ => 0⟩

/-- `MultiNormal(exp, cov)`, lines 33-41. -/
noncomputable def new (exp : List ℝ) (n : ℕ) (cov : SymMat) : Res MultiNormal := do
  let c ← choleskyFactorize n cov
  .ok ⟨exp, n, c, n, cov⟩

/-- `SetParameters`, multinormal.hpp lines 56-62. -/
def setParameters (m : MultiNormal) (exp : List ℝ) (n : ℕ) (cov : SymMat) : MultiNormal := { m with exp := exp, dim := n, cov := cov }

/-- `Draw`, multinormal.cpp lines 49-80, with `z i` the `i`-th standard normal number drawn. The product with a symmetric matrix reads
the upper triangle for both halves. -/
noncomputable def draw (m : MultiNormal) (z : ℕ → ℝ) : Res (List ℝ) :=
  if m.cholDim = 0 then .ub "BLAS called with leading dimension 0"
  else if m.exp.length ≠ m.cholDim then .ub "matrix and vector of different sizes"
  else .ok (List.ofFn fun a : Fin m.exp.length =>
    m.exp.getD a 0 + ∑ k : Fin m.exp.length, (if a ≤ k then m.chol a k else m.chol k a) * z k)

/-- Line 112. -/
noncomputable def potInner (diff : List ℝ) (em : ℕ → ℕ → ℝ) (r1q1s : ℝ) (j k : ℕ) (sum : ℝ) : Res ℝ := do
  let r2 ← rd diff k
  let q2 := em k j
  .ok (sum + r1q1s * r2 * q2)

/-- Lines 104-114. -/
noncomputable def potMiddle (n : ℕ) (diff inv : List ℝ) (em : ℕ → ℕ → ℝ) (r1 : ℝ) (i j : ℕ) (sum : ℝ) : Res ℝ := do
  let q1 := em i j
  let s ← rd inv j
  let r1q1s := r1 * q1 * s
  forRange 0 n (potInner diff em r1q1s j) sum

/-- Lines 100-115. -/
noncomputable def potOuter (n : ℕ) (diff inv : List ℝ) (em : ℕ → ℕ → ℝ) (i : ℕ) (sum : ℝ) : Res ℝ := do
  let r1 ← rd diff i
  forRange 0 n (potMiddle n diff inv em r1 i) sum

/-- `Potential`, lines 83-120. `ev` and `em` are the eigenvalues and the matrix of eigenvectors that LAPACK's `syev` returned for `cov_`.
The constant `Log2Pi` is modelled as the logarithm of 2π. -/
noncomputable def potential (m : MultiNormal) (ev : List ℝ) (em : ℕ → ℕ → ℝ) (x : List ℝ) : Res ℝ := do
  if m.dim = 0 then .ub "LAPACK called with leading dimension 0"
  else if x.length ≠ m.exp.length then .ub "vectors of different sizes"
  else do
    let det ← forRange 0 m.dim (fun i det => (rd ev i).bind fun e => .ok (det * e)) 1.0
    let diff ← fillVec m.exp.length fun i => do
      let a ← rd x i
      let b ← rd m.exp i
      .ok (a - b)
    let inv ← fillVec m.dim fun i => (rd ev i).bind fun e => fdiv 1.0 e
    let sum ← forRange 0 m.dim (potOuter m.dim diff inv em) 0.0
    let l ← flog det
    .ok (0.5 * (m.dim * Real.log (2 * Real.pi) + l + sum))

end MultiNormal

end Verif
