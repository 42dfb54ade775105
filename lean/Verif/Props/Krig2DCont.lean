import Verif.Lemmas.Krig2DCont
import Verif.Props.Krig2D
import Verif.Props.Surface
import Verif.Props.SurfaceEdge
import Verif.Model.Ieee
import Verif.Lemmas.Ieee

/-!
# C96: kriging in two dimensions, from data between nodes, all at once

The surface holds the trend `T` at its nodes; at the points, `t` is the trend that `GetZ` gives. `fl` is the conversion
to `float`. Points whose value is 99999 as a `float` are left out.
-/

namespace Verif

open MeasureTheory

/-- The points that are used, with their values as `float`. -/
noncomputable def usedPoints (fl : ℝ → ℝ) (points : List Pt) : List Pt :=
  (points.filter fun p => fl p.z ≠ 99999).map fun p => { p with z := fl p.z }

/-- The covariances between points. -/
noncomputable def pointCov (v : Variogram) (d : List Pt) : Matrix (Fin d.length) (Fin d.length) ℝ :=
  Matrix.of fun a b => v.cov2 (d[a].x - d[b].x) (d[a].y - d[b].y)

/-- A kriging task on a surface: the setting of the theorems. -/
structure SurfTask (s : RegSurf) (T : ℕ → ℕ → ℝ) (points : List Pt) (t : ℝ → ℝ → ℝ) : Prop where
  nodes : HasNodes s T
  wf : s.grid.data.length = s.grid.ni * s.grid.nj
  trend : ∀ p ∈ points, s.getZ p.x p.y = .ok (t p.x p.y)

/-- There is a trend at all points that are not extremely far away. -/
theorem surfTask_exists {s : RegSurf} {T : ℕ → ℕ → ℝ} {points : List Pt} (h : HasNodes s T)
    (hw : s.grid.data.length = s.grid.ni * s.grid.nj) (hr : ∀ p ∈ points, InReach s p.x p.y) :
    ∃ t, SurfTask s T points t :=
  ⟨fun x y => if weightAt s T x y = 0 then s.missing else sumAt s T x y / weightAt s T x y, h, hw,
    fun p hp => getZ_weighted h (hr p hp)⟩

section
variable {v : Variogram} {s : RegSurf} {T : ℕ → ℕ → ℝ} {points : List Pt} {t : ℝ → ℝ → ℝ} {fl : ℝ → ℝ}

theorem SurfTask.filled (h : SurfTask s T points t) : Grid2D.Holds s.grid.ni s.grid.nj T s.grid :=
  ⟨rfl, rfl, h.wf, fun i j hi hj _ => h.nodes.read i j hi hj⟩

theorem SurfTask.used (h : SurfTask s T points t) : ∀ p ∈ usedPoints fl points, s.getZ p.x p.y = .ok (t p.x p.y) := by
  intro p hp
  obtain ⟨q, hq, rfl⟩ := List.mem_map.1 hp
  exact h.trend q (List.mem_filter.1 hq).1

theorem cov2_even (v : Variogram) (x y : ℝ) : v.cov2 (-x) (-y) = v.cov2 x y := by
  unfold Variogram.cov2
  rw [(corr_neg v x y 0).2.1]

/-- The whole outcome, all data at once. -/
theorem krigCont_all {sort : BlockSort (List Pt)} (hsort : ∀ l, (sort l).Perm l) (h : SurfTask s T points t)
    (gr : Bool) (P : ℝ) {d : List Pt} (hd : d = usedPoints fl points) (h0 : d ≠ []) (hl : d.length ≤ s.grid.ni * s.grid.nj) :
    (¬ (pointCov v d).PosDef → ∃ msg, krig2DCont fl sort s points v gr true P = .throws msg) ∧
    ((pointCov v d).PosDef → ∃ out, krig2DCont fl sort s points v gr true P = .ok { s with grid := out } ∧
      Grid2D.Holds s.grid.ni s.grid.nj (fun i j => (if gr = true then 0 else T i j)
        + ptKrig v d (fun a => d[a].z - fl (t d[a].x d[a].y)) (s.x_min + i * s.dx) (s.y_min + j * s.dy)) out) := by
  have hdat : contData fl points = d := (contData_eq fl points).trans hd.symm
  obtain ⟨k1, k2⟩ := overBlocksCont_ok (fl := fl) (v := v) (s := s) (gr := gr) (n_blocks_x := 1) (n_blocks_y := 1) (nxb := s.grid.ni)
    (nyb := s.grid.nj) h.nodes.ni_lt h.nodes.nj_lt (cov2_even v) (L := [((0, 0), d)]) (t := t) (by simp) (by simp) (by simpa using hl)
    (by
      intro b hb p hp
      rw [List.mem_singleton] at hb
      subst hb
      exact h.used (fl := fl) p (hd ▸ hp)) h.filled
  have hstart : krig2DCont fl sort s points v gr true P
      = (overBlocks (fun bx by_ db => krigBlockCont fl s db v bx by_ s.grid.ni s.grid.nj 1 1 gr) [((0, 0), d)] s.grid).bind
        fun g => .ok { s with grid := g } := by
    unfold krig2DCont krigBlocks
    simp only [Res.monad_bind_eq, if_true]
    rw [hdat, Res.bind_ok]
    dsimp only
    rw [cellsPerBlock_one, cellsPerBlock_one, List.perm_singleton.1 (hsort [((0, 0), d)])]
  rw [hstart]
  constructor
  · intro hp
    obtain ⟨msg, hm⟩ := k1 ⟨((0, 0), d), by simp, h0, hp⟩
    rw [hm]
    exact ⟨msg, rfl⟩
  · intro hp
    obtain ⟨g, hg, T', hT', e, -⟩ := k2 (by
      intro b hb hb0
      rw [List.mem_singleton] at hb
      subst hb
      exact hp)
    rw [hg]
    refine ⟨g, rfl, hT'.congr fun i hi j hj => ?_⟩
    rw [e ((0, 0), d) (by simp) i hi j hj ⟨by simp, by simpa [blockEnd] using hi, by simp, by simpa [blockEnd] using hj⟩, if_neg h0]

/-- **C96.** Every node gets the trend plus the weighted residuals of the data, with the weights that solve the kriging
system. If residuals are asked for, the trend is left out. Nothing else of the surface changes. -/
theorem krigCont_spec {sort : BlockSort (List Pt)} (hsort : ∀ l, (sort l).Perm l) (h : SurfTask s T points t)
    (gr : Bool) (P : ℝ) {d : List Pt} (hd : d = usedPoints fl points) (h0 : d ≠ []) (hl : d.length ≤ s.grid.ni * s.grid.nj)
    (hK : (pointCov v d).PosDef) :
    ∃ out, krig2DCont fl sort s points v gr true P = .ok { s with grid := out } ∧ out.ni = s.grid.ni ∧ out.nj = s.grid.nj ∧
      ∀ i < s.grid.ni, ∀ j < s.grid.nj, ∀ w : Fin d.length → ℝ,
        (∀ a : Fin d.length, ∑ b : Fin d.length, v.cov2 (d[a].x - d[b].x) (d[a].y - d[b].y) * w b
          = v.cov2 (d[a].x - (s.getXY i j).1) (d[a].y - (s.getXY i j).2)) →
        out.get i j = .ok ((if gr = true then 0 else T i j)
          + ∑ a : Fin d.length, w a * (d[a].z - fl (t d[a].x d[a].y))) := by
  obtain ⟨out, ho, hT⟩ := (krigCont_all (v := v) hsort h gr P hd h0 hl).2 hK
  refine ⟨out, ho, hT.1, hT.2.1, ?_⟩
  intro i hi j hj w hw
  rw [hT.get hi hj]
  congr 2
  exact dot_inv_mulVec hK (w := w) (k := fun a => v.cov2 (d[a].x - (s.getXY i j).1) (d[a].y - (s.getXY i j).2)) (funext hw) _

/-- **C96.** The function throws exactly if the covariance matrix of the data is not positive definite. -/
theorem krigCont_throws {sort : BlockSort (List Pt)} (hsort : ∀ l, (sort l).Perm l) (h : SurfTask s T points t)
    (gr : Bool) (P : ℝ) {d : List Pt} (hd : d = usedPoints fl points) (h0 : d ≠ []) (hl : d.length ≤ s.grid.ni * s.grid.nj) :
    (∃ msg, krig2DCont fl sort s points v gr true P = .throws msg) ↔ ¬ (pointCov v d).PosDef := by
  obtain ⟨h1, h2⟩ := krigCont_all (v := v) hsort h gr P hd h0 hl
  constructor
  · rintro ⟨msg, hm⟩ hK
    obtain ⟨out, ho, -⟩ := h2 hK
    rw [ho] at hm
    cases hm
  · exact h1

/-- **C96.** Two data at the same point make it throw, whatever their values. -/
theorem krigCont_same {sort : BlockSort (List Pt)} (hsort : ∀ l, (sort l).Perm l) (h : SurfTask s T points t)
    (gr : Bool) (P : ℝ) {d : List Pt} (hd : d = usedPoints fl points) (hl : d.length ≤ s.grid.ni * s.grid.nj)
    {a b : Fin d.length} (hab : a ≠ b) (hx : d[a].x = d[b].x) (hy : d[a].y = d[b].y) :
    ∃ msg, krig2DCont fl sort s points v gr true P = .throws msg := by
  have h0 : d ≠ [] := List.ne_nil_of_length_pos (lt_of_le_of_lt (Nat.zero_le _) a.2)
  refine (krigCont_throws (v := v) hsort h gr P hd h0 hl).2 fun hK => ?_
  have hdet : (pointCov v d).det = 0 := by
    refine Matrix.det_zero_of_row_eq hab ?_
    funext c
    show v.cov2 _ _ = v.cov2 _ _
    rw [hx, hy]
  exact hK.det_pos.ne' hdet

/-- **C96.** With the Gaussian variogram, and a variance that is not zero, data at different points never make it
throw. -/
theorem krigCont_gauss {sort : BlockSort (List Pt)} (hsort : ∀ l, (sort l).Perm l) (h : SurfTask s T points t)
    (gr : Bool) (P : ℝ) {d : List Pt} (hd : d = usedPoints fl points) (h0 : d ≠ []) (hl : d.length ≤ s.grid.ni * s.grid.nj)
    {p rx ry rz az dp sd : ℝ} (hv : Variogram.create .gaussian p rx ry rz az dp sd = .ok v) (hvar : 0 < v.var)
    (hdist : (d.map fun e => (e.x, e.y)).Nodup) :
    (pointCov v d).PosDef ∧ ∃ out, krig2DCont fl sort s points v gr true P = .ok out := by
  have hK : (pointCov v d).PosDef := by
    have hinj : Function.Injective fun a : Fin d.length => (d[a].x, d[a].y) := by
      intro a b hab
      rw [List.nodup_iff_injective_get] at hdist
      have := @hdist ⟨a, by rw [List.length_map]; exact a.2⟩ ⟨b, by rw [List.length_map]; exact b.2⟩ (by
        simp only [List.get_eq_getElem, List.getElem_map]
        exact hab)
      exact Fin.ext (by simpa using this)
    have := (corr2_gauss_posDef hv rfl hinj).smul hvar
    convert this using 1
    ext a b
    rfl
  obtain ⟨out, ho, -⟩ := krigCont_spec hsort h gr P hd h0 hl hK
  exact ⟨hK, _, ho⟩

/-- At a datum the kriged residual is its residual. -/
theorem ptKrig_data {d : List Pt} (hK : (pointCov v d).PosDef) (r : Fin d.length → ℝ) (b : Fin d.length) :
    ptKrig v d r d[b].x d[b].y = r b := by
  have h := congrFun (weights_exist hK r) b
  rw [← h]
  show ptKrig v d r _ _ = ∑ a, pointCov v d b a * ((pointCov v d)⁻¹.mulVec r) a
  unfold ptKrig
  refine Finset.sum_congr rfl fun a _ => ?_
  have : v.cov2 (d[a].x - d[b].x) (d[a].y - d[b].y) = pointCov v d b a := by
    show v.cov2 _ _ = v.cov2 _ _
    rw [← cov2_even]
    congr 1 <;> ring
  rw [this]
  rfl

/-- **C96.** A datum at a node is honoured: the node gets its value, up to the conversions to `float`. -/
theorem krigCont_honours {sort : BlockSort (List Pt)} (hsort : ∀ l, (sort l).Perm l) (h : SurfTask s T points t)
    (gr : Bool) (P : ℝ) {d : List Pt} (hd : d = usedPoints fl points) (h0 : d ≠ []) (hl : d.length ≤ s.grid.ni * s.grid.nj)
    (hK : (pointCov v d).PosDef) :
    ∃ out, krig2DCont fl sort s points v gr true P = .ok { s with grid := out } ∧
      ∀ p ∈ d, ∀ i < s.grid.ni, ∀ j < s.grid.nj, (p.x, p.y) = s.getXY i j →
        out.get i j = .ok ((if gr = true then 0 else T i j) + (p.z - fl (T i j))) := by
  obtain ⟨out, ho, hT⟩ := (krigCont_all (v := v) hsort h gr P hd h0 hl).2 hK
  refine ⟨out, ho, ?_⟩
  intro p hp i hi j hj hij
  obtain ⟨a, ha, rfl⟩ := List.getElem_of_mem hp
  rw [hT.get hi hj]
  have hxy : s.getXY i j = (s.x_min + i * s.dx, s.y_min + j * s.dy) := rfl
  have hx : d[a].x = s.x_min + i * s.dx := congrArg Prod.fst (hij.trans hxy)
  have hy : d[a].y = s.y_min + j * s.dy := congrArg Prod.snd (hij.trans hxy)
  have e := ptKrig_data hK (fun a => d[a].z - fl (t d[a].x d[a].y)) ⟨a, ha⟩
  rw [show d[(⟨a, ha⟩ : Fin d.length)].x = d[a].x from rfl, show d[(⟨a, ha⟩ : Fin d.length)].y = d[a].y from rfl] at e
  rw [← hx, ← hy, e]
  have ht := h.used (fl := fl) d[a] (by rw [← hd]; exact hp)
  rw [hx, hy] at ht
  have hn : s.getZ (s.x_min + i * s.dx) (s.y_min + j * s.dy) = .ok (T i j) := getZ_node h.nodes hi hj
  have htt : t (s.x_min + i * s.dx) (s.y_min + j * s.dy) = T i j := by
    rw [hn] at ht
    exact (Res.ok.inj ht).symm
  rw [show d[(⟨a, ha⟩ : Fin d.length)] = d[a] from rfl, hx, hy, htt]

/-- **C96.** With no data, or with more data than nodes, the surface stays as it is, also if residuals are asked for. -/
theorem krigCont_idle {sort : BlockSort (List Pt)} (hsort : ∀ l, (sort l).Perm l) (gr : Bool) (P : ℝ)
    (hl : usedPoints fl points = [] ∨ s.grid.ni * s.grid.nj < (usedPoints fl points).length) :
    krig2DCont fl sort s points v gr true P = .ok s := by
  have hdat : contData fl points = usedPoints fl points := contData_eq fl points
  unfold krig2DCont krigBlocks
  simp only [Res.monad_bind_eq, if_true]
  rw [hdat, Res.bind_ok]
  dsimp only
  rw [List.perm_singleton.1 (hsort [((0, 0), usedPoints fl points)]), overBlocks, krigBlockCont_idle hl, Res.bind_ok]
  rfl

/-- Points with other values at the same places. -/
def withZ (points : List Pt) (z : ℝ → ℝ → ℝ) : List Pt := points.map fun p => { p with z := z p.x p.y }

theorem usedPoints_withZ {z : ℝ → ℝ → ℝ} (hz : ∀ p ∈ points, z p.x p.y ≠ 99999) :
    usedPoints id (withZ points z) = withZ points z := by
  unfold usedPoints
  rw [List.filter_eq_self.2]
  · exact List.map_id _
  · intro p hp
    obtain ⟨q, hq, rfl⟩ := List.mem_map.1 hp
    simpa using hz q hq

/-- The places of the data and of the nodes. -/
def places (s : RegSurf) (points : List Pt) : Set (ℝ × ℝ) :=
  {q | (∃ p ∈ points, (p.x, p.y) = q) ∨ ∃ i < s.grid.ni, ∃ j < s.grid.nj, s.getXY i j = q}

/-- **C96.** Kriging is the best linear prediction. Let `Z` be random variables at the points and nodes, whose mean is
the trend, and whose covariances are those of the variogram, up to a factor. From the values at the points, the
function computes in each node the predictor with the least mean squared error among all affine functions of these values. -/
theorem krigCont_best {sort : BlockSort (List Pt)} (hsort : ∀ l, (sort l).Perm l) (h : SurfTask s T points t)
    (P : ℝ) (h0 : points ≠ []) (hl : points.length ≤ s.grid.ni * s.grid.nj) (hK : (pointCov v points).PosDef)
    {Ω : Type} [MeasurableSpace Ω] {μ : Measure Ω} [IsProbabilityMeasure μ] {Z : ℝ → ℝ → Ω → ℝ} {m : ℝ → ℝ → ℝ} {c0 : ℝ}
    (hZ : ∀ q ∈ places s points, MemLp (Z q.1 q.2) 2 μ) (hmean : ∀ q ∈ places s points, ∫ ω, Z q.1 q.2 ω ∂μ = m q.1 q.2)
    (hnode : ∀ i < s.grid.ni, ∀ j < s.grid.nj, m (s.getXY i j).1 (s.getXY i j).2 = T i j)
    (hpoint : ∀ p ∈ points, m p.x p.y = t p.x p.y)
    (hc : ∀ q ∈ places s points, ∀ r ∈ places s points,
      ∫ ω, (Z q.1 q.2 ω - m q.1 q.2) * (Z r.1 r.2 ω - m r.1 r.2) ∂μ = c0 * v.cov2 (q.1 - r.1) (q.2 - r.2))
    (hno : ∀ p ∈ points, ∀ ω, Z p.x p.y ω ≠ 99999) :
    ∃ out : Ω → Grid2D ℝ,
      (∀ ω, krig2DCont id sort s (withZ points fun x y => Z x y ω) v false true P = .ok { s with grid := out ω }) ∧
      ∀ i < s.grid.ni, ∀ j < s.grid.nj, ∃ z : Ω → ℝ, (∀ ω, (out ω).get i j = .ok (z ω)) ∧
        ∀ (c : ℝ) (u : Fin points.length → ℝ),
          ∫ ω, (Z (s.getXY i j).1 (s.getXY i j).2 ω - z ω) ^ 2 ∂μ
            ≤ ∫ ω, (Z (s.getXY i j).1 (s.getXY i j).2 ω
                - (c + ∑ a : Fin points.length, u a * Z points[a].x points[a].y ω)) ^ 2 ∂μ := by
  have hlen : ∀ ω, (withZ points fun x y => Z x y ω).length = points.length := fun ω => List.length_map _
  have e : ∀ ω, ∀ a : Fin (withZ points fun x y => Z x y ω).length,
      (withZ points fun x y => Z x y ω)[a] = { points[Fin.cast (hlen ω) a] with
        z := Z points[Fin.cast (hlen ω) a].x points[Fin.cast (hlen ω) a].y ω } := fun ω a => List.getElem_map _
  have hK' : ∀ ω, (pointCov v (withZ points fun x y => Z x y ω)).PosDef := by
    intro ω
    have h := hK.submatrix (e := Fin.cast (hlen ω)) (Fin.cast_injective (hlen ω))
    convert h using 1
    ext a b
    rw [Matrix.submatrix_apply]
    unfold pointCov
    rw [Matrix.of_apply, Matrix.of_apply, e ω a, e ω b]
  have htask : ∀ ω, SurfTask s T (withZ points fun x y => Z x y ω) t := fun ω =>
    ⟨h.nodes, h.wf, by
      intro p hp
      obtain ⟨q, hq, rfl⟩ := List.mem_map.1 hp
      exact h.trend q hq⟩
  have key : ∀ ω, ∃ out, krig2DCont id sort s (withZ points fun x y => Z x y ω) v false true P = .ok { s with grid := out } ∧ _ :=
    fun ω => krigCont_spec (fl := id) hsort (htask ω) false P (usedPoints_withZ fun p hp => hno p hp ω).symm
      (fun hn => h0 (List.map_eq_nil_iff.1 hn)) (by rw [hlen ω]; exact hl) (hK' ω)
  choose out h1 _ _ h5 using key
  refine ⟨out, h1, ?_⟩
  intro i hi j hj
  have hw := weights_exist hK fun a => v.cov2 (points[a].x - (s.getXY i j).1) (points[a].y - (s.getXY i j).2)
  generalize ((pointCov v points)⁻¹.mulVec fun a => v.cov2 (points[a].x - (s.getXY i j).1) (points[a].y - (s.getXY i j).2)) = w at hw
  refine ⟨fun ω => T i j + ∑ a : Fin points.length, w a * (Z points[a].x points[a].y ω - t points[a].x points[a].y), ?_, ?_⟩
  · intro ω
    rw [h5 ω i hi j hj (fun a => w (Fin.cast (hlen ω) a))]
    · rw [if_neg (by decide)]
      congr 2
      refine Fintype.sum_equiv (finCongr (hlen ω)) _ _ fun a => ?_
      rw [e ω a]
      rfl
    · intro a
      have := congrFun hw (Fin.cast (hlen ω) a)
      rw [e ω a]
      dsimp only
      rw [← this]
      refine Fintype.sum_equiv (finCongr (hlen ω)) _ _ fun b => ?_
      rw [e ω b]
      rfl
  · intro c u
    have hp : ∀ a : Fin points.length, m points[a].x points[a].y = t points[a].x points[a].y := fun a =>
      hpoint _ (List.getElem_mem _)
    have in1 : ∀ a : Fin points.length, (points[a].x, points[a].y) ∈ places s points := fun a =>
      .inl ⟨_, List.getElem_mem _, rfl⟩
    have in2 : s.getXY i j ∈ places s points := .inr ⟨i, hi, j, hj, rfl⟩
    exact best_linear (s := c0) (X := fun a : Fin points.length => Z points[a].x points[a].y) (K := pointCov v points)
      (m := fun a => t points[a].x points[a].y)
      (k := fun a => v.cov2 (points[a].x - (s.getXY i j).1) (points[a].y - (s.getXY i j).2)) (fun a => hZ _ (in1 a)) (hZ _ in2)
      (fun a => by rw [← hp]; exact hmean _ (in1 a)) (by rw [hmean _ in2, hnode i hi j hj])
      (fun a b => by rw [← hp a, ← hp b]; exact hc _ (in1 a) _ (in1 b))
      (fun a => by rw [← hp a, ← hnode i hi j hj]; exact hc _ (in1 a) _ in2) hw c u

/-- The kriging of a single datum. -/
theorem krigCont_one {sort : BlockSort (List Pt)} (hsort : ∀ l, (sort l).Perm l) (h : SurfTask s T points t)
    (gr : Bool) (P : ℝ) {p : Pt} (hd : usedPoints fl points = [p]) (hn : 1 ≤ s.grid.ni * s.grid.nj)
    (hv : 0 < v.cov2 0 0) :
    ∃ out, krig2DCont fl sort s points v gr true P = .ok { s with grid := out } ∧ out.ni = s.grid.ni ∧ out.nj = s.grid.nj ∧
      ∀ i < s.grid.ni, ∀ j < s.grid.nj, out.get i j = .ok ((if gr = true then 0 else T i j)
        + v.cov2 (p.x - (s.getXY i j).1) (p.y - (s.getXY i j).2) / v.cov2 0 0 * (p.z - fl (t p.x p.y))) := by
  have hK : (pointCov v [p]).PosDef := by
    have e : pointCov v [p] = Matrix.diagonal fun _ => v.cov2 0 0 := by
      ext a b
      have ha : a = ⟨0, by simp⟩ := Fin.ext (by have := a.2; simp at this; simpa using this)
      have hb : b = ⟨0, by simp⟩ := Fin.ext (by have := b.2; simp at this; simpa using this)
      subst ha hb
      rw [Matrix.diagonal_apply_eq]
      show v.cov2 (p.x - p.x) (p.y - p.y) = _
      rw [sub_self, sub_self]
    rw [e]
    exact Matrix.PosDef.diagonal fun _ => hv
  obtain ⟨out, h1, h2, h3, h4⟩ := krigCont_spec (v := v) hsort h gr P hd.symm (by simp) (by simpa using hn) hK
  refine ⟨out, h1, h2, h3, ?_⟩
  intro i hi j hj
  rw [h4 i hi j hj fun _ => v.cov2 (p.x - (s.getXY i j).1) (p.y - (s.getXY i j).2) / v.cov2 0 0]
  · congr 2
    exact (Fin.sum_univ_one _).trans rfl
  · intro a
    have ha : a = ⟨0, by simp⟩ := Fin.ext (by have := a.2; simp at this; simpa using this)
    subst ha
    refine (Fin.sum_univ_one _).trans ?_
    show v.cov2 (p.x - p.x) (p.y - p.y) * _ = _
    rw [sub_self, sub_self]
    exact mul_div_cancel₀ _ hv.ne'

end

/-! ### Cases -/

theorem gaussVario_cov (x y : ℝ) : gaussVario.cov2 x y = Real.exp (-(3 * (x ^ 2 + y ^ 2))) := by
  show 1 * Real.exp (-3.0 * √(1 * x * x + 1 * y * y + 0 * x * y) * √(1 * x * x + 1 * y * y + 0 * x * y)) = _
  rw [one_mul, mul_assoc, Real.mul_self_sqrt (by nlinarith [sq_nonneg x, sq_nonneg y])]
  congr 1
  norm_num
  ring

/-- A surface with one row of nodes at distance one. -/
noncomputable def rowSurf (l : List ℝ) : RegSurf :=
  (RegSurf.ofGrid 0 0 ((l.length - 1 : ℕ) : ℝ) 1 ⟨l.length, 1, l⟩).setMissingValue (-999)

theorem rowSurf_dx (l : List ℝ) : (rowSurf l).dx = 1 := by
  show spacing l.length ((l.length - 1 : ℕ) : ℝ) = 1
  unfold spacing
  split
  · rename_i h
    refine div_self ?_
    exact_mod_cast (by omega : l.length - 1 ≠ 0)
  · norm_num

theorem rowSurf_xy (l : List ℝ) (i : ℕ) : (rowSurf l).getXY i 0 = ((i : ℝ), 0) := by
  unfold RegSurf.getXY
  rw [rowSurf_dx]
  simp [rowSurf, RegSurf.setMissingValue, RegSurf.ofGrid]

theorem rowSurf_task {l : List ℝ} (hl : l.length < 2 ^ 31) (points : List Pt)
    (hp : ∀ p ∈ points, |p.x| ≤ 1000 ∧ p.y = 0) :
    ∃ t, SurfTask (rowSurf l) (fun i j => l.getD (i + j * l.length) 0) points t := by
  have hn : HasNodes (rowSurf l) (fun i j => l.getD (i + j * l.length) 0) :=
    hasNodes_ofGrid (by simp) hl (by norm_num) (fun h => by
      have h : 1 < l.length := h
      exact_mod_cast (by omega : l.length - 1 ≠ 0)) (fun _ => one_ne_zero)
  refine surfTask_exists hn (by simp [rowSurf, RegSurf.setMissingValue, RegSurf.ofGrid]) fun p hpp => ?_
  obtain ⟨h1, h2⟩ := hp p hpp
  rw [abs_le] at h1
  unfold InReach
  rw [rowSurf_dx, h2]
  have : (rowSurf l).x_min = 0 ∧ (rowSurf l).y_min = 0 ∧ (rowSurf l).dy = 1 := by
    refine ⟨rfl, rfl, ?_⟩
    show spacing 1 1 = 1
    norm_num [spacing]
  rw [this.1, this.2.1, this.2.2]
  norm_num
  constructor <;> linarith

/-- Two data on a row of three nodes, one of them between nodes: the other one is honoured, also in `float`. -/
example : ∃ out, krig2DCont rnd32 id (rowSurf [5, 5, 5]) [⟨0.5, 0, 7⟩, ⟨2, 0, 4⟩] gaussVario false true 2
    = .ok { rowSurf [5, 5, 5] with grid := out } ∧ out.get 2 0 = .ok 4 := by
  obtain ⟨t, h⟩ := rowSurf_task (l := [5, 5, 5]) (by norm_num) [⟨0.5, 0, 7⟩, ⟨2, 0, 4⟩] (by
    intro p hp
    simp only [List.mem_cons, List.not_mem_nil, or_false] at hp
    rcases hp with rfl | rfl <;> norm_num [abs_le])
  have e7 : rnd32 7 = 7 := by exact_mod_cast rnd32_nat (n := 7) (by norm_num)
  have e4 : rnd32 4 = 4 := by exact_mod_cast rnd32_nat (n := 4) (by norm_num)
  have e5 : rnd32 5 = 5 := by exact_mod_cast rnd32_nat (n := 5) (by norm_num)
  have hd : ([⟨0.5, 0, 7⟩, ⟨2, 0, 4⟩] : List Pt) = usedPoints rnd32 [⟨0.5, 0, 7⟩, ⟨2, 0, 4⟩] := by
    unfold usedPoints
    rw [List.filter_cons_of_pos (by norm_num [e7]), List.filter_cons_of_pos (by norm_num [e4]), List.filter_nil]
    simp [e7, e4]
  have hs : ∀ l, (id l : List ((ℕ × ℕ) × List Pt)).Perm l := fun l => List.Perm.refl _
  obtain ⟨hK, -⟩ := krigCont_gauss (fl := rnd32) hs h false 2 hd (by simp) (by simp [rowSurf, RegSurf.setMissingValue, RegSurf.ofGrid])
    gaussVario_create one_pos (by norm_num)
  obtain ⟨out, ho, hh⟩ := krigCont_honours (fl := rnd32) hs h false 2 hd (by simp)
    (by simp [rowSurf, RegSurf.setMissingValue, RegSurf.ofGrid]) hK
  refine ⟨out, ho, ?_⟩
  rw [hh ⟨2, 0, 4⟩ (by simp) 2 (by simp [rowSurf, RegSurf.setMissingValue, RegSurf.ofGrid]) 0
    (by simp [rowSurf, RegSurf.setMissingValue, RegSurf.ofGrid]) (by rw [rowSurf_xy]; norm_num)]
  simp [e5]

/-- Two data at the same point. -/
example : ∃ msg, krig2DCont id id (rowSurf [5, 5, 5]) [⟨0.5, 0, 7⟩, ⟨0.5, 0, 7⟩] gaussVario false true 2 = .throws msg := by
  obtain ⟨t, h⟩ := rowSurf_task (l := [5, 5, 5]) (by norm_num) [⟨0.5, 0, 7⟩, ⟨0.5, 0, 7⟩] (by
    intro p hp
    simp only [List.mem_cons, List.not_mem_nil, or_false] at hp
    rcases hp with rfl | rfl <;> norm_num [abs_le])
  have hd : ([⟨0.5, 0, 7⟩, ⟨0.5, 0, 7⟩] : List Pt) = usedPoints id [⟨0.5, 0, 7⟩, ⟨0.5, 0, 7⟩] := by
    unfold usedPoints
    rw [List.filter_cons_of_pos (by norm_num), List.filter_cons_of_pos (by norm_num), List.filter_nil]
    simp
  exact krigCont_same (a := ⟨0, by simp⟩) (b := ⟨1, by simp⟩) (fun l => List.Perm.refl _) h false 2 hd
    (by simp [rowSurf, RegSurf.setMissingValue, RegSurf.ofGrid]) (by simp) rfl rfl

/-- A datum and a node with mean 0 and unit variance whose correlation is that of the variogram, made from two
independent signs. -/
noncomputable def halfField (x _y : ℝ) (ω : Bool × Bool) : ℝ :=
  if x = 0 then (if ω.1 then 1 else -1)
  else gaussVario.cov2 (1 / 2) 0 * (if ω.1 then 1 else -1) + √(1 - gaussVario.cov2 (1 / 2) 0 ^ 2) * (if ω.2 then 1 else -1)

/-- The theorem on prediction for a single node and a datum half a node away. -/
example : ∃ out : Bool × Bool → Grid2D ℝ,
    (∀ ω, krig2DCont id id (rowSurf [0]) (withZ [⟨1 / 2, 0, 0⟩] fun x y => halfField x y ω) gaussVario false true 1
      = .ok { rowSurf [0] with grid := out ω }) ∧
      ∀ i < 1, ∀ j < 1, ∃ z : Bool × Bool → ℝ, (∀ ω, (out ω).get i j = .ok (z ω)) ∧ ∀ (c : ℝ) (u : Fin 1 → ℝ),
        ∫ ω, (halfField ((rowSurf [0]).getXY i j).1 ((rowSurf [0]).getXY i j).2 ω - z ω) ^ 2
            ∂(PMF.uniformOfFintype (Bool × Bool)).toMeasure
          ≤ ∫ ω, (halfField ((rowSurf [0]).getXY i j).1 ((rowSurf [0]).getXY i j).2 ω
              - (c + ∑ a : Fin 1, u a * halfField (1 / 2) 0 ω)) ^ 2 ∂(PMF.uniformOfFintype (Bool × Bool)).toMeasure := by
  have hc1 : 0 ≤ gaussVario.cov2 (1 / 2) 0 ∧ gaussVario.cov2 (1 / 2) 0 ≤ 1 := by
    rw [gaussVario_cov]
    exact ⟨(Real.exp_pos _).le, Real.exp_le_one_iff.2 (by norm_num)⟩
  have hc0 : gaussVario.cov2 0 0 = 1 := by rw [gaussVario_cov]; norm_num
  have hcm : gaussVario.cov2 (-(1 / 2)) 0 = gaussVario.cov2 (1 / 2) 0 := by
    have := cov2_even gaussVario (1 / 2) 0
    simpa using this
  have hs : √(1 - gaussVario.cov2 (1 / 2) 0 ^ 2) * √(1 - gaussVario.cov2 (1 / 2) 0 ^ 2) = 1 - gaussVario.cov2 (1 / 2) 0 ^ 2 :=
    Real.mul_self_sqrt (by nlinarith)
  have hs1 : √(1 - gaussVario.cov2 (1 / 2) 0 ^ 2) ≤ 1 := Real.sqrt_le_one.2 (by nlinarith)
  have hs0 : 0 ≤ √(1 - gaussVario.cov2 (1 / 2) 0 ^ 2) := Real.sqrt_nonneg _
  obtain ⟨t, h⟩ := rowSurf_task (l := [0]) (by norm_num) [⟨1 / 2, 0, 0⟩] (by norm_num [abs_le])
  have hplace : ∀ q ∈ places (rowSurf [0]) [⟨1 / 2, 0, 0⟩], q = (1 / 2, 0) ∨ q = (0, 0) := by
    rintro q (⟨p, hp, rfl⟩ | ⟨i, hi, j, hj, rfl⟩)
    · left
      rw [List.mem_singleton] at hp
      subst hp
      rfl
    · right
      have hi : i < 1 := hi
      have hj : j < 1 := hj
      obtain rfl : i = 0 := by omega
      obtain rfl : j = 0 := by omega
      rw [rowSurf_xy]
      simp
  have ht : t (1 / 2) 0 = 0 := by
    have e1 := h.trend ⟨1 / 2, 0, 0⟩ (by simp)
    rw [getZ_weighted h.nodes] at e1
    · have e2 := Res.ok.inj e1
      dsimp only at e2
      rw [← e2]
      have hz : sumAt (rowSurf [0]) (fun i j => [0].getD (i + j * [(0 : ℝ)].length) 0) (1 / 2) 0 = 0 := by
        unfold sumAt weightedSum
        refine Finset.sum_eq_zero fun i hi => Finset.sum_eq_zero fun j hj => ?_
        rw [Finset.mem_range] at hi hj
        have hi : i < 1 := hi
        have hj : j < 1 := hj
        obtain rfl : i = 0 := by omega
        obtain rfl : j = 0 := by omega
        simp
      rw [hz, zero_div, if_neg]
      intro hw
      rw [weightAt_eq_zero h.nodes.dx_ne h.nodes.dy_ne] at hw
      have := hw 0 0 (by simp [rowSurf, RegSurf.setMissingValue, RegSurf.ofGrid])
        (by simp [rowSurf, RegSurf.setMissingValue, RegSurf.ofGrid])
        (by rw [nodeX, rowSurf_xy, rowSurf_dx]; norm_num [abs_lt])
        (by norm_num [nodeY, rowSurf, RegSurf.getXY, RegSurf.setMissingValue, RegSurf.ofGrid, spacing])
      norm_num [rowSurf, RegSurf.setMissingValue] at this
    · norm_num [InReach, rowSurf, RegSurf.setMissingValue, RegSurf.ofGrid, spacing]
  have hK : (pointCov gaussVario [⟨1 / 2, 0, 0⟩]).PosDef :=
    (krigCont_gauss (fl := id) (points := [⟨1 / 2, 0, 0⟩]) (d := [⟨1 / 2, 0, 0⟩]) (sort := id) (fun l => List.Perm.refl _) h false 1
      (by unfold usedPoints; rw [List.filter_cons_of_pos (by norm_num), List.filter_nil]; rfl)
      (by simp) (by simp [rowSurf, RegSurf.setMissingValue, RegSurf.ofGrid]) gaussVario_create one_pos (by simp)).1
  refine krigCont_best (points := [⟨1 / 2, 0, 0⟩]) (Z := halfField) (m := fun _ _ => 0) (c0 := 1) (t := t) (fun l => List.Perm.refl _) h 1 (by simp)
    (by simp [rowSurf, RegSurf.setMissingValue, RegSurf.ofGrid]) hK ?_ ?_ ?_ ?_ ?_ ?_
  · intro q _
    exact MemLp.of_discrete
  · intro q hq
    rw [PMF.integral_eq_sum, Fintype.sum_prod_type, Fintype.sum_bool, Fintype.sum_bool, Fintype.sum_bool]
    rcases hplace q hq with rfl | rfl
    · simp [halfField, PMF.uniformOfFintype_apply]
      ring
    · simp [halfField, PMF.uniformOfFintype_apply]
  · intro i hi j hj
    have hi : i < 1 := hi
    have hj : j < 1 := hj
    obtain rfl : i = 0 := by omega
    obtain rfl : j = 0 := by omega
    simp
  · intro p hp
    rw [List.mem_singleton] at hp
    subst hp
    exact ht.symm
  · intro q hq r hr
    rw [PMF.integral_eq_sum, Fintype.sum_prod_type, Fintype.sum_bool, Fintype.sum_bool, Fintype.sum_bool]
    have hc0' := hc0
    generalize hρ : √(1 - gaussVario.cov2 (1 / 2) 0 ^ 2) = ρ at hs
    rcases hplace q hq with rfl | rfl <;> rcases hplace r hr with rfl | rfl <;> norm_num at hc0 hcm hs hρ ⊢ <;>
      norm_num [halfField, PMF.uniformOfFintype_apply, hc0, hcm, hρ] <;> nlinarith
  · intro p hp ω
    rw [List.mem_singleton] at hp
    subst hp
    unfold halfField
    rw [if_neg (by norm_num)]
    intro he
    have b1 : ∀ b : Bool, |(if b = true then (1 : ℝ) else -1)| ≤ 1 := by intro b; cases b <;> norm_num
    have h1 := abs_le.1 (b1 ω.1)
    have h2 := abs_le.1 (b1 ω.2)
    nlinarith

/-- **C96.** A datum outside the surface is compared with the code for missing values: on a surface with trend 0, kriging
the datum 0 at a point one node away changes the node to more than 40. -/
theorem krigCont_outside_violation : ∃ (s : RegSurf) (p : Pt) (out : Grid2D ℝ) (y : ℝ), p.z = 0 ∧
    (∀ i < s.grid.ni, ∀ j < s.grid.nj, s.grid.get i j = .ok 0) ∧
    krig2DCont id id s [p] gaussVario false true 2 = .ok { s with grid := out } ∧ out.get 0 0 = .ok y ∧ 40 < y := by
  obtain ⟨t, h⟩ := rowSurf_task (l := [0]) (by norm_num) [⟨1, 0, 0⟩] (by norm_num [abs_le])
  have ht : t 1 0 = -999 := by
    have e1 := h.trend ⟨1, 0, 0⟩ (by simp)
    rw [getZ_far h.nodes] at e1
    · exact (Res.ok.inj e1).symm
    · norm_num [InReach, rowSurf, RegSurf.setMissingValue, RegSurf.ofGrid, spacing]
    · intro i j hi hj hx _
      have hi : i < 1 := hi
      obtain rfl : i = 0 := by omega
      rw [nodeX, rowSurf_xy, rowSurf_dx] at hx
      norm_num at hx
  obtain ⟨out, h1, -, -, h4⟩ := krigCont_one (fl := id) (v := gaussVario) (sort := id) (fun l => List.Perm.refl _) h false 2 (p := ⟨1, 0, 0⟩)
    (by unfold usedPoints; rw [List.filter_cons_of_pos (by norm_num), List.filter_nil]; rfl)
    (by simp [rowSurf, RegSurf.setMissingValue, RegSurf.ofGrid]) (by rw [gaussVario_cov]; exact Real.exp_pos _)
  refine ⟨rowSurf [0], ⟨1, 0, 0⟩, out, _, rfl, ?_, h1, h4 0 (by simp [rowSurf, RegSurf.setMissingValue, RegSurf.ofGrid]) 0
    (by simp [rowSurf, RegSurf.setMissingValue, RegSurf.ofGrid]), ?_⟩
  · intro i hi j hj
    rw [h.nodes.read i j hi hj]
    have hi : i < 1 := hi
    have hj : j < 1 := hj
    obtain rfl : i = 0 := by omega
    obtain rfl : j = 0 := by omega
    simp
  · rw [rowSurf_xy, gaussVario_cov, gaussVario_cov, ht]
    have e : Real.exp 3 < 21 := by
      have := Real.exp_one_lt_d9
      have e : Real.exp 3 = Real.exp 1 ^ 3 := by rw [← Real.exp_nat_mul]; norm_num
      rw [e]
      calc Real.exp 1 ^ 3 ≤ 2.7182818286 ^ 3 := pow_le_pow_left₀ (Real.exp_pos _).le this.le 3
        _ < 21 := by norm_num
    have e2 : 1 / 21 < Real.exp (-3) := by
      rw [Real.exp_neg, ← one_div]
      exact one_div_lt_one_div_of_lt (Real.exp_pos _) e
    norm_num
    linarith

/-- **C96.** Missing nodes do not stay missing: a datum 1 at the other one of two nodes, where the trend is 0, changes
the code for missing values. -/
theorem krigCont_missing_violation : ∃ (s : RegSurf) (p : Pt) (out : Grid2D ℝ) (y : ℝ), s.grid.get 0 0 = .ok s.missing ∧
    (p.x, p.y) = s.getXY 1 0 ∧ krig2DCont id id s [p] gaussVario false true 2 = .ok { s with grid := out } ∧
    out.get 0 0 = .ok y ∧ y ≠ s.missing := by
  obtain ⟨t, h⟩ := rowSurf_task (l := [-999, 0]) (by norm_num) [⟨1, 0, 1⟩] (by norm_num [abs_le])
  have i0 : 0 < (rowSurf [-999, 0]).grid.ni := by simp [rowSurf, RegSurf.setMissingValue, RegSurf.ofGrid]
  have i1 : 1 < (rowSurf [-999, 0]).grid.ni := by simp [rowSurf, RegSurf.setMissingValue, RegSurf.ofGrid]
  have j0 : 0 < (rowSurf [-999, 0]).grid.nj := by simp [rowSurf, RegSurf.setMissingValue, RegSurf.ofGrid]
  have ht : t 1 0 = 0 := by
    have e1 := h.trend ⟨1, 0, 1⟩ (by simp)
    have e2 := getZ_node h.nodes i1 j0
    rw [rowSurf_xy, Nat.cast_one, e1] at e2
    simpa using Res.ok.inj e2
  obtain ⟨out, h1, -, -, h4⟩ := krigCont_one (fl := id) (v := gaussVario) (sort := id) (fun l => List.Perm.refl _) h false 2 (p := ⟨1, 0, 1⟩)
    (by unfold usedPoints; rw [List.filter_cons_of_pos (by norm_num), List.filter_nil]; rfl)
    (by simp [rowSurf, RegSurf.setMissingValue, RegSurf.ofGrid]) (by rw [gaussVario_cov]; exact Real.exp_pos _)
  refine ⟨rowSurf [-999, 0], ⟨1, 0, 1⟩, out, _, ?_, by rw [rowSurf_xy]; simp, h1, h4 0 i0 0 j0, ?_⟩
  · rw [h.nodes.read 0 0 i0 j0]
    simp [rowSurf, RegSurf.setMissingValue]
  · rw [rowSurf_xy, gaussVario_cov, gaussVario_cov, ht]
    have := Real.exp_pos (-3)
    norm_num [rowSurf, RegSurf.setMissingValue]

/-- **C96.** With more data than nodes, nothing happens: a datum 1 at the only node, where the trend is 0, is not
honoured if there is another datum. -/
theorem krigCont_many_violation : ∃ (s : RegSurf) (p q : Pt), (p.x, p.y) = s.getXY 0 0 ∧ p.z = 1 ∧ s.grid.get 0 0 = .ok 0 ∧
    (pointCov gaussVario [p, q]).PosDef ∧ krig2DCont id id s [p, q] gaussVario false true 2 = .ok s := by
  obtain ⟨t, h⟩ := rowSurf_task (l := [0]) (by norm_num) [⟨0, 0, 1⟩, ⟨1 / 2, 0, 1⟩] (by norm_num [abs_le])
  obtain ⟨t', h'⟩ := rowSurf_task (l := [0, 0]) (by norm_num) [⟨0, 0, 1⟩, ⟨1 / 2, 0, 1⟩] (by norm_num [abs_le])
  have hd : [⟨0, 0, 1⟩, ⟨1 / 2, 0, 1⟩] = usedPoints id [⟨0, 0, 1⟩, ⟨1 / 2, 0, 1⟩] := by
    unfold usedPoints
    rw [List.filter_cons_of_pos (by norm_num), List.filter_cons_of_pos (by norm_num), List.filter_nil]
    rfl
  refine ⟨rowSurf [0], ⟨0, 0, 1⟩, ⟨1 / 2, 0, 1⟩, by rw [rowSurf_xy]; simp, rfl, ?_, ?_, ?_⟩
  · rw [h.nodes.read 0 0 (by simp [rowSurf, RegSurf.setMissingValue, RegSurf.ofGrid]) (by simp [rowSurf, RegSurf.setMissingValue, RegSurf.ofGrid])]
    simp
  · exact (krigCont_gauss (fl := id) (sort := id) (fun l => List.Perm.refl _) h' false 1 hd (by simp)
      (by simp [rowSurf, RegSurf.setMissingValue, RegSurf.ofGrid]) gaussVario_create one_pos (by norm_num)).1
  · refine krigCont_idle (fun l => List.Perm.refl _) false 2 (.inr ?_)
    rw [← hd]
    simp [rowSurf, RegSurf.setMissingValue, RegSurf.ofGrid]

/-- **C96.** A datum of 99999.001 is taken as missing, since as a `float` it is 99999. -/
theorem krigCont_float_violation (s : RegSurf) (v : Variogram) (x y : ℝ) :
    krig2DCont rnd32 id s [⟨x, y, 99999.001⟩] v false true 2 = .ok s := by
  refine krigCont_idle (fun l => List.Perm.refl _) false 2 (.inl ?_)
  have e : rnd32 99999.001 = 99999 := by
    have := Ieee.rnd_near (p := 24) (emin := -149) (x := 99999.001) (k := 16) (m := 12799872) (by norm_num) (by norm_num) (by norm_num)
      (by norm_num [abs_lt])
    unfold rnd32
    rw [this]
    norm_num
  unfold usedPoints
  rw [List.filter_cons_of_neg (by simpa using e), List.filter_nil]
  rfl

end Verif
