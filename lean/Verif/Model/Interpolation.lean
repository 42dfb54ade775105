import Verif.Model.Kriging
import Verif.Model.Surface

/-!
# Interpolation in one dimension

Models src/nrlib/geometry/interpolation.cpp. Doubles are real numbers. Vectors have fewer than 2^31 elements.
-/

namespace Verif.Interp

/-- The loop of `FindNearestNeighborIndex`, interpolation.cpp lines 187-196: `i`, `dist` and `idx`, where `none` is the
index -1, and the elements of `x_in` from `i` on. -/
noncomputable def nearestLoop (x : ℝ) : ℕ → ℝ → Option ℕ → List ℝ → Option ℕ
  | _, _, idx, [] => idx
  | i, dist, idx, a :: as =>
    if x - a > 0.0 ∧ x - a < dist then nearestLoop x (i + 1) (x - a) (some i) as
    else if x - a < 0.0 then idx
    else nearestLoop x (i + 1) dist idx as

/-- `FindNearestNeighborIndex`, interpolation.cpp lines 181-198. -/
noncomputable def findNearest (x : ℝ) (x_in : List ℝ) : Option ℕ := nearestLoop x 0 1e10 none x_in

/-- A `size_t` difference. -/
def subSize (n k : ℕ) : ℕ := (n + 2 ^ 64 - k) % 2 ^ 64

/-- A division whose result is only looked at later; `none` is a result that is not finite. -/
noncomputable def quot (a b : ℝ) : Option ℝ := if b = 0 then none else some (a / b)

/-- The vectors `dx`, `dy`, `slope` and `intercept` of interpolation.cpp line 72. -/
structure Segments where
  dx : List ℝ
  dy : List ℝ
  slope : List (Option ℝ)
  intercept : List (Option ℝ)

/-- interpolation.cpp lines 75-86, one turn. A sum or product with a number that is not finite is not finite. -/
noncomputable def segStep (x_in y_in : List ℝ) (i : ℕ) (s : Segments) : Res Segments := do
  let x1 ← rd x_in (i + 1)
  let x0 ← rd x_in i
  let y1 ← rd y_in (i + 1)
  let y0 ← rd y_in i
  let d ← (if x1 = x0 ∧ y1 = y0 ∧ i > 0 then do
      let a ← rd s.dx (i - 1)
      let b ← rd s.dy (i - 1)
      .ok (a, b)
    else .ok (x1 - x0, y1 - y0) : Res (ℝ × ℝ))
  let dx ← wr s.dx i d.1
  let dy ← wr s.dy i d.2
  let q := quot d.2 d.1
  let slope ← wr s.slope i q
  let intercept ← wr s.intercept i (q.map fun m => y0 - x0 * m)
  .ok ⟨dx, dy, slope, intercept⟩

/-- `v[x_in.size()-1] = v[x_in.size()-2]`, interpolation.cpp lines 87-90. -/
def copyLast {α : Type} (n : ℕ) (v : List α) : Res (List α) := do
  let a ← rd v (subSize n 2)
  wr v (subSize n 1) a

/-- interpolation.cpp lines 92-95, the value at one place. -/
noncomputable def lineAt (x_in : List ℝ) (s : Segments) (x : ℝ) : Res ℝ := do
  let idx := (findNearest x x_in).getD 0
  let m ← rd s.slope idx
  let c ← rd s.intercept idx
  match m, c with
  | some m, some c => .ok (m * x + c)
  | _, _ => .nonfinite "a slope that is not finite"

/-- `Linear1D`, interpolation.cpp lines 66-99. -/
noncomputable def linear1D (x_in y_in x_out : List ℝ) : Res (List ℝ) := do
  if x_in.length ≠ y_in.length then .ub "assert in Linear1D"
  else
    let n := x_in.length
    let s ← forRange 0 (subSize n 1) (segStep x_in y_in)
      ⟨List.replicate n 0, List.replicate n 0, List.replicate n (some 0), List.replicate n (some 0)⟩
    let dx ← copyLast n s.dx
    let dy ← copyLast n s.dy
    let slope ← copyLast n s.slope
    let intercept ← copyLast n s.intercept
    fillVec x_out.length fun i => do
      let x ← rd x_out i
      lineAt x_in ⟨dx, dy, slope, intercept⟩ x

/-- interpolation.cpp line 121. -/
noncomputable def stepH (x_in : List ℝ) (i : ℕ) : Res ℝ := do
  let a ← rd x_in (i + 1)
  let b ← rd x_in i
  .ok (a - b)

/-- interpolation.cpp line 122. -/
noncomputable def stepB (y_in h : List ℝ) (i : ℕ) : Res ℝ := do
  let a ← rd y_in (i + 1)
  let b ← rd y_in i
  let hi ← rd h i
  divD (6.0 * (a - b)) hi

/-- interpolation.cpp lines 129-132, one turn: `u` and `v`. -/
noncomputable def stepUV (h b : List ℝ) (i : ℕ) (st : List ℝ × List ℝ) : Res (List ℝ × List ℝ) := do
  let hi ← rd h i
  let hm ← rd h (i - 1)
  let um ← rd st.1 (i - 1)
  let q ← divD (hm * hm) um
  let u ← wr st.1 i (2.0 * (hi + hm) - q)
  let bi ← rd b i
  let bm ← rd b (i - 1)
  let vm ← rd st.2 (i - 1)
  let um ← rd u (i - 1)
  let q ← divD (hm * vm) um
  let v ← wr st.2 i (bi - bm - q)
  .ok (u, v)

/-- interpolation.cpp lines 136-138, the turn for `i = n_in-2-k`. -/
noncomputable def stepZ (n : ℕ) (h u v : List ℝ) (k : ℕ) (z : List ℝ) : Res (List ℝ) := do
  let i := n - 2 - k
  let vi ← rd v i
  let hi ← rd h i
  let z1 ← rd z (i + 1)
  let ui ← rd u i
  let q ← divD (vi - hi * z1) ui
  wr z i q

/-- interpolation.cpp line 145. -/
noncomputable def coefA (h z : List ℝ) (i : ℕ) : Res ℝ := do
  let hi ← rd h i
  let q ← divD 1 (6.0 * hi)
  let z1 ← rd z (i + 1)
  let z0 ← rd z i
  .ok (q * (z1 - z0))

/-- interpolation.cpp line 146. -/
noncomputable def coefB (z : List ℝ) (i : ℕ) : Res ℝ := do
  let z0 ← rd z i
  .ok (z0 * 0.5)

/-- interpolation.cpp line 147. -/
noncomputable def coefC (y_in h z : List ℝ) (i : ℕ) : Res ℝ := do
  let hi ← rd h i
  let z1 ← rd z (i + 1)
  let z0 ← rd z i
  let q ← divD 1 hi
  let y1 ← rd y_in (i + 1)
  let y0 ← rd y_in i
  .ok (-hi / 6.0 * z1 - hi / 3 * z0 + q * (y1 - y0))

/-- interpolation.cpp lines 151-174, the value at one place; `extrap` is the extrapolation value if it is used. -/
noncomputable def splineAt (x_in y_in A B C : List ℝ) (extrap : Option ℝ) (x : ℝ) : Res ℝ := do
  let n := x_in.length
  let found := findNearest x x_in
  let xa ← rd x_in 0
  let xb ← rd x_in (n - 1)
  let outside := (found = none ∧ x < xa) ∨ (found.getD 0 = n - 1 ∧ x > xb)
  let idx := if found.getD 0 = n - 1 then n - 2 else found.getD 0
  let y ← rd y_in idx
  let xi ← rd x_in idx
  let c ← rd C idx
  let b ← rd B idx
  let a ← rd A idx
  let r := y + (x - xi) * (c + (x - xi) * (b + (x - xi) * a))
  match extrap with
  | some e => if outside then .ok e else .ok r
  | none => .ok r

/-- `Spline1D`, interpolation.cpp lines 103-178. A number that is not finite gives `nonfinite` for the whole result. The
reads of `x_in[0]` and `x_in[n_in-1]` are there whether they are needed or not. -/
noncomputable def spline1D (x_in y_in x_out : List ℝ) (extrap : Option ℝ) : Res (List ℝ) := do
  if x_in.length ≠ y_in.length then .ub "assert in Spline1D"
  else if x_in.length = 0 then .throws "length_error: a vector of 2^64-1 elements"
  else
    let n := x_in.length
    let h ← fillVec (n - 1) (stepH x_in)
    let b ← fillVec (n - 1) (stepB y_in h)
    let h0 ← rd h 0
    let h1 ← rd h 1
    let u ← wr (List.replicate n 0) 1 (2.0 * (h0 + h1))
    let b1 ← rd b 1
    let b0 ← rd b 0
    let v ← wr (List.replicate n 0) 1 (b1 - b0)
    let uv ← forRange 2 (n - 1) (stepUV h b) (u, v)
    let z ← wr (List.replicate n 0) (n - 1) 0.0
    let z ← forRange 0 (n - 2) (stepZ n h uv.1 uv.2) z
    let z ← wr z 0 0.0
    let A ← fillVec (n - 1) (coefA h z)
    let B ← fillVec (n - 1) (coefB z)
    let C ← fillVec (n - 1) (coefC y_in h z)
    fillVec x_out.length fun i => do
      let x ← rd x_out i
      splineAt x_in y_in A B C extrap x

/-- `Interpolate1D` without extrapolation value, interpolation.cpp lines 24-42. -/
noncomputable def interpolate1D (x_in y_in x_out : List ℝ) (method : String) : Res (List ℝ) :=
  if method = "linear" then linear1D x_in y_in x_out
  else if method = "spline" then spline1D x_in y_in x_out none
  else .throws "Interpolation method is not implemented."

/-- `Interpolate1D` with extrapolation value, interpolation.cpp lines 45-64. -/
noncomputable def interpolate1DExtrap (x_in y_in x_out : List ℝ) (method : String) (extrap_value : ℝ) : Res (List ℝ) :=
  if method = "spline" then spline1D x_in y_in x_out (some extrap_value)
  else if method = "linear" then .throws "Interpolation method 'linear' does not take extrapolation value as input."
  else .throws "Interpolation method is not implemented."

/-- `InterpolateBetweenPoints`, interpolation.cpp lines 14-22. -/
noncomputable def interpolateBetweenPoints (x_in y_in : List ℝ) (x : ℝ) : Res ℝ := do
  let y ← interpolate1D x_in y_in [x] "linear"
  rd y 0

end Verif.Interp
