import Verif.Model.Kriging
import Verif.Model.Loop
import Verif.Model.Geometry
import Verif.Model.Distr

/-!
# Conditional normal distributions

Models src/nrlib/statistics/posteriormultinormal.cpp. Doubles are real numbers; assertions are not compiled. LAPACK is modelled as in
`Model/Kriging`; BLAS is called with a leading dimension of 0 if there is no unknown, which is `ub`. A symmetric matrix is given by its
upper triangle, which is all that the code fills.
-/

namespace Verif

namespace PostNormal

/-- Lines 80-86, 161-177, the loops that fill a matrix: for `i < cols`, for `j < rows`, `M(j,i) = f(i,j)`. -/
def fillMat (rows cols : ℕ) (f : ℕ → ℕ → Res ℝ) : Res (ℕ → ℕ → ℝ) :=
  forRange 0 cols (fun i M => forRange 0 rows (fun j M => (f i j).bind fun v => .ok (fun a b => if a = j ∧ b = i then v else M a b)) M)
    fun _ _ => 0

/-- Lines 54-59, 128-134: for `i < n`, for `j < n`, `K(i,j) = f(i,j)`; both triangles are filled. -/
def fillFull (n : ℕ) (f : ℕ → ℕ → Res ℝ) : Res SymMat :=
  forRange 0 n (fun i K => forRange 0 n (fun j K => (f i j).bind fun v => .ok (fun a b => if a = i ∧ b = j then v else K a b)) K)
    fun _ _ => 0

open Classical in
/-- `CondDistrMultiNormalCore`, lines 204-225: the expectation and the covariance matrix. -/
noncomputable def core (nu nk : ℕ) (s11 : SymMat) (s12 : ℕ → ℕ → ℝ) (s22 : SymMat) (mu delta : List ℝ) : Res (List ℝ × SymMat) :=
  if nk = 0 then .ub "LAPACK called with leading dimension 0"
  else if (s22.toMatrix nk).PosDef then
    if nu = 0 then .ub "BLAS called with leading dimension 0"
    else
      let P := (s22.toMatrix nk)⁻¹
      let S12 : Matrix (Fin nu) (Fin nk) ℝ := Matrix.of fun a i => s12 a i
      let help := S12 * (P * S12.transpose)
      .ok (List.ofFn (fun a => toVec nu mu a + S12.mulVec (P.mulVec (toVec nk delta)) a),
        fun a b => if h : min a b < nu ∧ max a b < nu then s11 a b - help ⟨min a b, h.1⟩ ⟨max a b, h.2⟩ else 0)
  else .throws "Error in Cholesky inversion"

/-- `std1[i]*std2[j]*vario.GetCorr(x1[i]-x2[j])`. -/
noncomputable def cov1 (vario : Variogram) (std1 std2 x1 x2 : List ℝ) (i j : ℕ) : Res ℝ := do
  let s ← rd std1 i
  let t ← rd std2 j
  let a ← rd x1 i
  let b ← rd x2 j
  .ok (s * t * vario.corr (a - b))

/-- `known_values[i] - exp_known[i]`, lines 66-68 and 141-143. -/
noncomputable def delta (known_values exp_known : List ℝ) (n : ℕ) : Res (List ℝ) :=
  fillVec n fun i => do
    let v ← rd known_values i
    let e ← rd exp_known i
    .ok (v - e)

/-- `CondDistrMultiNormal`, lines 36-104. The two loops over the known places are modelled one after the other. -/
noncomputable def condDistr (x_known known_values x_unknown exp_known exp_unknown std_known std_unknown : List ℝ) (vario : Variogram) :
    Res (List ℝ × SymMat) :=
  if x_known.length = 0 then do
    let e ← fillVec x_unknown.length fun i => rd exp_unknown i
    let c ← fillFull x_unknown.length (cov1 vario std_unknown std_unknown x_unknown x_unknown)
    .ok (e, c)
  else do
    let d ← delta known_values exp_known x_known.length
    let mu ← fillVec x_unknown.length fun i => rd exp_unknown i
    let s11 ← fillSymm x_unknown.length (cov1 vario std_unknown std_unknown x_unknown x_unknown)
    let s22 ← fillSymm x_known.length (cov1 vario std_known std_known x_known x_known)
    let s12 ← fillMat x_unknown.length x_known.length (cov1 vario std_known std_unknown x_known x_unknown)
    core x_unknown.length x_known.length s11 s12 s22 mu d

/-- `std1[i]*std2[j]*vario.GetCorr(pos1[i].x-pos2[j].x, pos1[i].y-pos2[j].y)` with the correlation multiplied by `f`. -/
noncomputable def cov2 (vario : Variogram) (f : ℕ → ℕ → Res ℝ) (std1 std2 : List ℝ) (pos1 pos2 : List Geo.Pt) (i j : ℕ) : Res ℝ := do
  let c ← f i j
  let s ← rd std1 i
  let t ← rd std2 j
  let p ← rd pos1 i
  let q ← rd pos2 j
  .ok (s * t * (c * vario.corr2 (p.x - q.x) (p.y - q.y)))

open Classical in
/-- Lines 277-284: the correlation as `IdentifyLargeCorr` sees it. -/
noncomputable def chainCorr (vario : Variogram) (pos_known : List Geo.Pt) (local_corr : List ℝ) (i j : ℕ) : Res ℝ := do
  let ci ← rd local_corr i
  let cj ← rd local_corr j
  let corr := if ci > cj then cj else if cj > ci then cj else 1.0
  let p ← rd pos_known i
  let q ← rd pos_known j
  .ok (corr * vario.corr2 (p.x - q.x) (p.y - q.y))

open Classical in
/-- Lines 275-289, one turn: `obs_chain_map` and `chain`. -/
noncomputable def chainStep (vario : Variogram) (pos_known : List Geo.Pt) (local_corr : List ℝ) (chain_no : ℤ) (i j : ℕ) (st : List ℤ × List ℕ) :
    Res (List ℤ × List ℕ) := do
  let m ← rd st.1 j
  (if m < 0 then do
    let corr ← chainCorr vario pos_known local_corr i j
    (if corr > 0.999 then do
      let map ← wr st.1 j chain_no
      .ok (map, st.2 ++ [j])
    else .ok st : Res (List ℤ × List ℕ))
  else .ok st : Res (List ℤ × List ℕ))

/-- Lines 273-290, one turn of the loop over the chain, which grows: `cur`, `obs_chain_map` and `chain`. -/
noncomputable def curStep (vario : Variogram) (pos_known : List Geo.Pt) (local_corr : List ℝ) (chain_no : ℤ) (st : ℕ × List ℤ × List ℕ) :
    Res (Option Unit × ℕ × List ℤ × List ℕ) :=
  if st.1 < st.2.2.length then do
    let i ← rd st.2.2 st.1
    let s ← forRange (i + 1) pos_known.length (chainStep vario pos_known local_corr chain_no i) st.2
    .ok (none, st.1 + 1, s)
  else .ok (some (), st)

/-- Lines 268-294, one turn: `obs_chain_map`, `obs_chains` and `chain_no`. -/
noncomputable def baseStep (vario : Variogram) (pos_known : List Geo.Pt) (local_corr : List ℝ) (base : ℕ) (st : List ℤ × List (List ℕ) × ℤ) :
    Res (List ℤ × List (List ℕ) × ℤ) := do
  let m ← rd st.1 base
  (if m < 0 then do
    let map ← wr st.1 base st.2.2
    let r ← untilLoop (curStep vario pos_known local_corr st.2.2) (0, map, [base])
    .ok (r.2.2.1, st.2.1 ++ [r.2.2.2], st.2.2 + 1)
  else .ok st : Res (List ℤ × List (List ℕ) × ℤ))

/-- `IdentifyLargeCorr`, lines 253-296. -/
noncomputable def identify (vario : Variogram) (pos_known : List Geo.Pt) (local_corr : List ℝ) : Res (List ℤ × List (List ℕ)) := do
  let st ← forRange 0 pos_known.length (baseStep vario pos_known local_corr) (List.replicate pos_known.length (-1), [], 0)
  .ok (st.1, st.2.1)

/-- Lines 237-247: the observations that are kept. -/
noncomputable def keep {α : Type} (l : List α) : List (List ℕ) → Res (List α)
  | [] => .ok []
  | c :: cs => do
    let k ← rd c 0
    let x ← rd l k
    let xs ← keep l cs
    .ok (x :: xs)

open Classical in
/-- Lines 163-171: the factor of the correlation of two observations. -/
noncomputable def obsFactor (local_corr : List ℝ) (i j : ℕ) : Res ℝ := do
  let ci ← rd local_corr i
  let cj ← rd local_corr j
  .ok (if ci > cj then cj else if cj > ci then ci else 1.0)

/-- `SecondayCondDistrMultiNormal2D`, lines 109-201. -/
noncomputable def secondary (pos_known : List Geo.Pt) (known_values local_corr : List ℝ) (pos_unknown : List Geo.Pt)
    (exp_known exp_unknown std_known std_unknown : List ℝ) (vario : Variogram) : Res (List ℝ × SymMat) :=
  if pos_known.length = 0 then do
    let e ← fillVec pos_unknown.length fun i => rd exp_unknown i
    let c ← fillFull pos_unknown.length (cov2 vario (fun _ _ => .ok 1) std_unknown std_unknown pos_unknown pos_unknown)
    .ok (e, c)
  else do
    let d ← delta known_values exp_known pos_known.length
    let mu ← fillVec pos_unknown.length fun i => rd exp_unknown i
    let s11 ← fillSymm pos_unknown.length (cov2 vario (fun _ _ => .ok 1) std_unknown std_unknown pos_unknown pos_unknown)
    let chains ← identify vario pos_known local_corr
    let pos_used ← keep pos_known chains.2
    let d_used ← keep d chains.2
    let std_used ← keep std_known chains.2
    let s22 ← fillSymm pos_used.length (cov2 vario (obsFactor local_corr) std_used std_used pos_used pos_used)
    let s12 ← fillMat pos_unknown.length pos_used.length (cov2 vario (fun i _ => rd local_corr i) std_used std_unknown pos_used pos_unknown)
    core pos_unknown.length pos_used.length s11 s12 s22 mu d_used

/-- `Posterior1DNormal`, lines 300-313. -/
noncomputable def posterior1D (exp_prior cov_prior exp_obs cov_obs corr obs : ℝ) : Res (ℝ × ℝ) := do
  let q ← fdiv cov_prior cov_obs
  let r ← fsqrt q
  .ok (exp_prior + corr * r * (obs - exp_obs), (1 - corr * corr) * cov_prior)

end PostNormal

end Verif
