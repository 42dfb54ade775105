import Verif.Model.Extrapolator
import Verif.Props.ApiSafe
import Verif.Props.ApiPad
import Verif.Props.ApiSeed
import Verif.Props.Factory
import Verif.Props.PadAnalyzerRun

/-!
# C108: the resource extrapolator
-/

namespace Verif.Py

open Spec Variogram

/-! ## Specification -/

/-- The sum of squares of what the line through the origin with slope `c` misses. -/
def misfit (x y : List ℝ) (c : ℝ) : ℝ := (List.zipWith (fun a b => (b - c * a) ^ 2) x y).sum

/-! ## Helpers -/

namespace Extrapolator

theorem misfit_eq {x y : List ℝ} (h : x.length = y.length) (c : ℝ) :
    misfit x y c = (y.map (· ^ 2)).sum - 2 * c * (List.zipWith (· * ·) x y).sum + c ^ 2 * (x.map (· ^ 2)).sum := by
  unfold misfit
  induction x generalizing y with
  | nil =>
    cases y with
    | nil => simp
    | cons b y => simp at h
  | cons a x ih =>
    cases y with
    | nil => simp at h
    | cons b y =>
      simp only [List.length_cons, Nat.add_right_cancel_iff] at h
      simp only [List.zipWith_cons_cons, List.sum_cons, List.map_cons, ih h]
      ring

theorem squares_nonneg (x : List ℝ) : 0 ≤ (x.map (· ^ 2)).sum :=
  List.sum_nonneg fun a ha => by
    obtain ⟨b, -, rfl⟩ := List.mem_map.1 ha
    exact sq_nonneg b

theorem products_zero {x : List ℝ} (h : (x.map (· ^ 2)).sum = 0) (y : List ℝ) : (List.zipWith (· * ·) x y).sum = 0 := by
  induction x generalizing y with
  | nil => simp
  | cons a x ih =>
    simp only [List.map_cons, List.sum_cons] at h
    have h1 := squares_nonneg x
    have ha : a = 0 := by
      have : a ^ 2 = 0 := le_antisymm (by linarith) (sq_nonneg a)
      exact pow_eq_zero_iff (two_ne_zero) |>.1 this
    cases y with
    | nil => simp
    | cons b y =>
      rw [List.zipWith_cons_cons, List.sum_cons, ih (by nlinarith), ha]
      ring

theorem lstsq_least {x y : List ℝ} (h : x.length = y.length) (c : ℝ) : misfit x y (lstsq x y) ≤ misfit x y c := by
  rw [misfit_eq h, misfit_eq h]
  unfold lstsq
  rcases eq_or_ne (x.map (· ^ 2)).sum 0 with h0 | h0
  · rw [products_zero h0, h0]
    simp
  · have hp := lt_of_le_of_ne (squares_nonneg x) h0.symm
    set A := (x.map (· ^ 2)).sum
    set B := (List.zipWith (· * ·) x y).sum
    obtain ⟨q, hq⟩ : ∃ q, B = q * A := ⟨B / A, (div_mul_cancel₀ _ h0).symm⟩
    rw [hq, mul_div_cancel_right₀ _ h0]
    nlinarith [mul_nonneg (sq_nonneg (c - q)) hp.le]

theorem lstsq_unique {x y : List ℝ} (h : x.length = y.length) (h0 : ∃ a ∈ x, a ≠ 0) {c : ℝ} (hc : misfit x y c ≤ misfit x y (lstsq x y)) :
    c = lstsq x y := by
  have hp : 0 < (x.map (· ^ 2)).sum := by
    obtain ⟨a, ha, hne⟩ := h0
    have : a ^ 2 ≤ (x.map (· ^ 2)).sum := by
      refine List.single_le_sum (fun b hb => ?_) _ (List.mem_map_of_mem ha)
      obtain ⟨d, -, rfl⟩ := List.mem_map.1 hb
      exact sq_nonneg d
    have : 0 < a ^ 2 := by positivity
    linarith
  rw [misfit_eq h, misfit_eq h] at hc
  unfold lstsq at hc ⊢
  set A := (x.map (· ^ 2)).sum
  set B := (List.zipWith (· * ·) x y).sum
  obtain ⟨q, hq⟩ : ∃ q, B = q * A := ⟨B / A, (div_mul_cancel₀ _ hp.ne').symm⟩
  rw [hq, mul_div_cancel_right₀ _ hp.ne'] at hc ⊢
  have h2 : (c - q) ^ 2 * A ≤ 0 := by nlinarith
  have h3 : (c - q) ^ 2 = 0 := le_antisymm (by by_contra hcon; nlinarith [mul_pos (not_le.1 hcon) hp]) (sq_nonneg _)
  have := pow_eq_zero_iff (two_ne_zero) |>.1 h3
  linarith

/-- How many sizes there are. -/
theorem pyRange_up {lo hi step : ℤ} (h : 0 < step) :
    ∃ m : ℕ, pyRange lo (hi + 1) step = .ok ((List.range m).map fun k : ℕ => lo + (k : ℤ) * step) ∧
      ∀ k : ℕ, k < m ↔ lo + k * step ≤ hi := by
  refine ⟨((hi + 1 - lo + step - 1) / step).toNat, ?_, fun k => ?_⟩
  · unfold pyRange
    rw [if_neg h.ne', if_pos h]
  · rw [Int.lt_toNat, ← Int.add_one_le_iff, Int.le_ediv_iff_mul_le h]
    constructor <;> intro h1 <;> nlinarith

theorem loop_data {R : Extrapolator} {S : Setup} {e : ℕ → Env} {clock : ℕ → ℝ} {v : Variogram} {ns : List ℤ} :
    ∀ {k : ℕ} {s s' : Random} {data : List (ℤ × ℝ)}, R.loop S e clock v k ns s = .ok (data, s') →
      data = ns.zipIdx.map fun p => (p.1, clock (2 * (k + p.2) + 1) - clock (2 * (k + p.2))) := by
  induction ns with
  | nil =>
    intro k s s' data h
    simp only [loop, Res.ok.injEq, Prod.mk.injEq] at h
    rw [← h.1]
    rfl
  | cons n ns ih =>
    intro k s s' data h
    simp only [loop, Res.monad_bind_eq] at h
    obtain ⟨s1, -, h⟩ := Res.bind_eq_ok.1 h
    obtain ⟨⟨d, s2⟩, h2, h⟩ := Res.bind_eq_ok.1 h
    simp only [Res.ok.injEq, Prod.mk.injEq] at h
    rw [← h.1, ih h2, List.zipIdx_cons, List.map_cons]
    congr 1
    rw [List.zipIdx_succ, List.map_map]
    refine List.map_congr_left fun p _ => ?_
    simp only [Function.comp]
    rw [show k + 1 + p.2 = k + (p.2 + 1) by ring]

theorem powers_ok {m : ℤ} : ∀ {data : List (ℤ × ℝ)} {x : List ℝ}, powers m data = .ok x → x = data.map fun p => (p.1 : ℝ) ^ m := by
  intro data
  induction data with
  | nil =>
    intro x h
    simp only [powers, Res.ok.injEq] at h
    rw [← h]
    rfl
  | cons p ps ih =>
    intro x h
    simp only [powers, Res.monad_bind_eq] at h
    obtain ⟨a, h1, h⟩ := Res.bind_eq_ok.1 h
    obtain ⟨as, h2, h⟩ := Res.bind_eq_ok.1 h
    simp only [Res.ok.injEq] at h
    unfold power at h1
    split_ifs at h1
    simp only [Res.ok.injEq] at h1
    rw [← h, ← h1, ih h2, List.map_cons]

theorem powers_pos {m : ℤ} {data : List (ℤ × ℝ)} (h : ∀ p ∈ data, p.1 ≠ 0) : ∃ x, powers m data = .ok x := by
  induction data with
  | nil => exact ⟨[], rfl⟩
  | cons p ps ih =>
    obtain ⟨xs, hx⟩ := ih fun q hq => h q (by simp [hq])
    refine ⟨(p.1 : ℝ) ^ m :: xs, ?_⟩
    have : power m p.1 = .ok ((p.1 : ℝ) ^ m) := if_neg fun hc => h p (by simp) hc.1
    simp only [powers, Res.monad_bind_eq, this, hx, Res.bind_ok]

theorem ratio_range {v : Variogram} (hp : v.power = 1.5) : 0 ≤ v.rangeToGridRatio ∧ v.rangeToGridRatio ≤ 7 := by
  have e : ∀ x : ℝ, 1 ≤ x → x ≤ 6.9 → 0 ≤ rnd64 x ∧ rnd64 x ≤ 7 := by
    intro x h0 h1
    have h2 := abs_le.1 (rnd64_err_small (x := x) (by rw [abs_le]; constructor <;> linarith))
    have h3 : (2⁻¹ : ℝ) ^ 19 ≤ 0.01 := by norm_num
    constructor <;> linarith [h2.1, h2.2]
  unfold rangeToGridRatio
  cases v.type with
  | constant => norm_num
  | exponential => exact e _ (by norm_num) (by norm_num)
  | spherical => exact e _ (by norm_num) (by norm_num)
  | gaussian => exact e _ (by norm_num) (by norm_num)
  | generalExponential =>
    simp only [hp, sub_self]
    rw [rnd64_zero, zero_mul, rnd64_zero]
    exact e _ (by norm_num) (by norm_num)
  | matern32 => norm_num
  | matern52 => exact e _ (by norm_num) (by norm_num)
  | matern72 => exact e _ (by norm_num) (by norm_num)

/-- The variogram that is used. -/
theorem vario_ok {vtype : TypeArg} (ht : IsAscii (match vtype with | .member m => m.value | .str s => s).toList) :
    ∃ v, variogram vtype 500.0 (-1.0) (-1.0) 0.0 0.0 1.5 = .ok v ∧ v.rangeX = 500 ∧ v.rangeY = 500 ∧ v.rangeZ = 500 ∧
      v.power = 1.5 ∧ ∃ t rx ry rz az dp, Variogram.create t 1.5 rx ry rz az dp 1.0 = .ok v := by
  obtain ⟨v, hv, h1, h2, h3, -, -, h4, -⟩ := createVariogram_params ht 500.0 (-1.0) (-1.0) 0.0 0.0 1.5
    (by norm_num) (by norm_num) (by norm_num)
  refine ⟨v, hv, by rw [h1]; norm_num, by rw [h2]; norm_num, by rw [h3]; norm_num, h4, ?_⟩
  simp only [createVariogram, uppercase_ascii ht, Res.monad_bind_eq, Res.bind_ok] at hv
  exact ⟨_, _, _, _, _, _, hv⟩

theorem size_ok {p : Platform} {v : Variogram} (hv : v.power = 1.5) {n : ℕ} (h2 : 2 ≤ n) (hs : SizeOk p (2 * n)) :
    DirOk p v n 500 (1000.0 / ((n : ℝ) - 1)) n 1.0 := by
  obtain ⟨r0, r1⟩ := ratio_range hv
  have hn : n ≤ 2 ^ 23 := by
    have := hs.2.1
    omega
  have hn' : (n : ℝ) ≤ 2 ^ 23 := by exact_mod_cast hn
  have hn2 : (2 : ℝ) ≤ n := by exact_mod_cast h2
  have e : (500 : ℝ) / (1000.0 / ((n : ℝ) - 1)) = (n - 1) / 2 := by
    have : (n : ℝ) - 1 ≠ 0 := by linarith
    field_simp
    norm_num
  refine ⟨by omega, ⟨div_pos (by norm_num) (by linarith), ?_, by linarith, ?_, ?_, ?_⟩, by omega, ?_, by norm_num⟩
  · have : (2⁻¹ : ℝ) ^ 1000 ≤ 1 := pow_le_one₀ (by norm_num) (by norm_num)
    linarith
  · rw [e]
    linarith
  · rw [mul_div_assoc, e]
    nlinarith
  · rw [mul_div_assoc, e]
    nlinarith
  · intro q hq
    unfold IsPadding at hq
    rw [if_neg (by omega)] at hq
    have : q = n := by omega
    subst this
    rw [← two_mul]
    exact ⟨hs, by omega⟩

theorem simulate_clean {R : Extrapolator} {S : Setup} (hF : S.F.Laws) {v : Variogram} (h1 : v.rangeX = 500) (h2 : v.rangeY = 500)
    (h3 : v.rangeZ = 500) (h4 : v.power = 1.5) {t : VType} {pw rx ry rz az dp sd : ℝ}
    (hv : Variogram.create t pw rx ry rz az dp sd = .ok v) {n : ℤ} (hn : 2 ≤ n) (hs : SizeOk S.p (2 * n.toNat)) (e : Env)
    {s : Random} (hr : Reachable S s) :
    (R.simulate S e v n s).Clean ∧ ∀ s', R.simulate S e v n s = .ok s' → Reachable S s' := by
  have hd := size_ok h4 (n := n.toNat) (by omega) hs
  have hmax : max v.rangeX v.rangeY = 500 := by rw [h1, h2, max_self]
  have hpy : padRangeY v = 500 := by
    unfold padRangeY
    rw [h1, h2, max_self, ite_self]
  have hcast : ((n.toNat : ℕ) : ℝ) = (n : ℝ) := by
    have : ((n.toNat : ℕ) : ℤ) = n := Int.toNat_of_nonneg (by omega)
    exact_mod_cast congrArg (fun z : ℤ => (z : ℝ)) this
  have hnn : ((n.toNat : ℕ) : ℤ) = n := Int.toNat_of_nonneg (by omega)
  rw [hcast, hnn] at hd
  have hbig : n < 2 ^ 31 := by
    have := hs.2.1
    omega
  unfold simulate
  rw [if_neg (by omega), if_neg (by omega)]
  have hc := Verif.simulate_clean (S := S) hF hv (nx := n.toNat) (ny := if R.ndims > 1 then n.toNat else 1)
    (nz := if R.ndims > 2 then n.toNat else 1) (dx := 1000.0 / ((n : ℝ) - 1)) (dy := 1000.0 / ((n : ℝ) - 1))
    (dz := 1000.0 / ((n : ℝ) - 1)) (padx := n) (pady := n) (padz := n) (sx := 1.0) (sy := 1.0) (sz := 1.0) ?_ e hr
  · refine ⟨hc.bind fun _ _ => trivial, fun s' h => ?_⟩
    obtain ⟨⟨out, s1⟩, g1, g2⟩ := Res.bind_eq_ok.1 h
    simp only [Res.ok.injEq] at g2
    subst g2
    obtain ⟨history, replies, hh⟩ := hr
    refine ⟨history ++ [(e, .advancedSimulate v n.toNat (1000.0 / ((n : ℝ) - 1)) (if R.ndims > 1 then n.toNat else 1)
      (1000.0 / ((n : ℝ) - 1)) (if R.ndims > 2 then n.toNat else 1) (1000.0 / ((n : ℝ) - 1)) n n n 1.0 1.0 1.0)],
      replies ++ [.array out], ?_⟩
    rw [session_append, hh, Res.bind_ok]
    simp only [session, pyCall, g1, Res.bind_ok]
  · refine ⟨fun _ => h1 ▸ hd, fun hny => ⟨hmax ▸ hd, ?_, fun hnz => ?_⟩⟩
    · have : (if R.ndims > 1 then n.toNat else 1) = n.toNat := by
        split_ifs with hc
        · rfl
        · exfalso
          rw [if_neg hc] at hny
          exact hny (Or.inl le_rfl)
      rw [this, hpy]
      exact hd
    · have : (if R.ndims > 2 then n.toNat else 1) = n.toNat := by
        split_ifs with hc
        · rfl
        · exfalso
          rw [if_neg hc] at hnz
          exact hnz (Or.inl le_rfl)
      rw [this, h3]
      exact hd

theorem loop_clean {R : Extrapolator} {S : Setup} (hF : S.F.Laws) {v : Variogram} (h1 : v.rangeX = 500) (h2 : v.rangeY = 500)
    (h3 : v.rangeZ = 500) (h4 : v.power = 1.5) {t : VType} {pw rx ry rz az dp sd : ℝ}
    (hv : Variogram.create t pw rx ry rz az dp sd = .ok v) (e : ℕ → Env) (clock : ℕ → ℝ) :
    ∀ {ns : List ℤ} {k : ℕ} {s : Random}, (∀ n ∈ ns, 2 ≤ n ∧ SizeOk S.p (2 * n.toNat)) → Reachable S s →
      (R.loop S e clock v k ns s).Clean := by
  intro ns
  induction ns with
  | nil => intro k s _ _; trivial
  | cons n ns ih =>
    intro k s hn hr
    obtain ⟨c1, c2⟩ := simulate_clean (R := R) hF h1 h2 h3 h4 hv (hn n (by simp)).1 (hn n (by simp)).2 (e k) hr
    simp only [loop, Res.monad_bind_eq]
    exact c1.bind fun s1 hs1 => (ih (fun m hm => hn m (by simp [hm])) (c2 s1 hs1)).bind fun _ _ => trivial

theorem generate_data {R : Extrapolator} {S : Setup} {e : ℕ → Env} {clock : ℕ → ℝ} {vtype : TypeArg} {s s' : Random}
    {data : List (ℤ × ℝ)} (hstep : 0 < R.nstep) (h : R.generate S e clock vtype s = .ok (data, s')) :
    ∃ m : ℕ, (∀ k : ℕ, k < m ↔ R.nmin + k * R.nstep ≤ R.nmax) ∧
      data = (List.range m).map fun k : ℕ => (R.nmin + k * R.nstep, clock (2 * k + 1) - clock (2 * k)) := by
  obtain ⟨m, e1, hm⟩ := pyRange_up (lo := R.nmin) (hi := R.nmax) hstep
  refine ⟨m, hm, ?_⟩
  unfold generate at h
  simp only [Res.monad_bind_eq] at h
  obtain ⟨v, -, h⟩ := Res.bind_eq_ok.1 h
  rw [e1, Res.bind_ok] at h
  rw [loop_data h]
  refine List.ext_getElem (by simp) fun i hi1 hi2 => ?_
  simp

/-- The calls of `advanced.simulate`. -/
noncomputable def call (R : Extrapolator) (v : Variogram) (n : ℤ) : PyCall :=
  .advancedSimulate v n.toNat (1000.0 / ((n : ℝ) - 1)) (if R.ndims > 1 then n.toNat else 1) (1000.0 / ((n : ℝ) - 1))
    (if R.ndims > 2 then n.toNat else 1) (1000.0 / ((n : ℝ) - 1)) n n n 1.0 1.0 1.0

theorem loop_session {R : Extrapolator} {S : Setup} {e : ℕ → Env} {clock : ℕ → ℝ} {v : Variogram} {ns : List ℤ} :
    ∀ {k : ℕ} {s s' : Random} {data : List (ℤ × ℝ)}, R.loop S e clock v k ns s = .ok (data, s') →
      ∃ rs, session (pyCall S) ((ns.zipIdx k).map fun p => (e p.2, R.call v p.1)) s = .ok (rs, s') := by
  induction ns with
  | nil =>
    intro k s s' data h
    simp only [loop, Res.ok.injEq, Prod.mk.injEq] at h
    exact ⟨[], by rw [h.2]; rfl⟩
  | cons n ns ih =>
    intro k s s' data h
    simp only [loop, Res.monad_bind_eq] at h
    obtain ⟨s1, h1, h⟩ := Res.bind_eq_ok.1 h
    obtain ⟨⟨d, s2⟩, h2, h⟩ := Res.bind_eq_ok.1 h
    simp only [Res.ok.injEq, Prod.mk.injEq] at h
    obtain ⟨-, rfl⟩ := h
    obtain ⟨rs, hrs⟩ := ih h2
    unfold simulate at h1
    by_cases q1 : n = 1
    · rw [if_pos q1] at h1
      cases h1
    by_cases q2 : n < 0 ∨ 2 ^ 31 ≤ n
    · rw [if_neg q1, if_pos q2] at h1
      cases h1
    rw [if_neg q1, if_neg q2] at h1
    obtain ⟨⟨out, s3⟩, g1, g2⟩ := Res.bind_eq_ok.1 h1
    simp only [Res.ok.injEq] at g2
    subst g2
    refine ⟨.array out :: rs, ?_⟩
    rw [List.zipIdx_cons, List.map_cons, session]
    have hp : pyCall S s (e k, R.call v n) = .ok (.array out, s3) := by
      simp only [call, pyCall]
      rw [g1, Res.bind_ok]
    simp only [hp, Res.bind_ok, hrs]

end Extrapolator

/-! ## Theorems -/

open Extrapolator

/-- C108: what `generate` returns: one pair for every size from `nmin` to `nmax` in steps of `nstep`, with the time the simulation of
that size took. -/
theorem generate_spec {R : Extrapolator} {S : Setup} {e : ℕ → Env} {clock : ℕ → ℝ} {vtype : TypeArg} {s s' : Random}
    {data : List (ℤ × ℝ)} (hstep : 0 < R.nstep) (h : R.generate S e clock vtype s = .ok (data, s')) :
    (∀ k : ℕ, k < data.length ↔ R.nmin + k * R.nstep ≤ R.nmax) ∧
      ∀ (k : ℕ) (hk : k < data.length), data[k] = (R.nmin + k * R.nstep, clock (2 * k + 1) - clock (2 * k)) := by
  obtain ⟨m, hm, rfl⟩ := generate_data hstep h
  constructor
  · intro k
    rw [List.length_map, List.length_range]
    exact hm k
  · intro k hk
    simp

/-- C108: `extrapolate` returns the numbers of cells, the times, and the slope of the line through the origin that fits them best in the sense
of least squares, the only one that does so. -/
theorem extrapolate_spec {R : Extrapolator} {S : Setup} {e : ℕ → Env} {clock : ℕ → ℝ} {ex : ℤ} {vtype : TypeArg} {s s' : Random}
    {x y : List ℝ} {c : ℝ} (hstep : 0 < R.nstep) (hmin : 0 < R.nmin)
    (h : R.extrapolate S e clock ex vtype s = .ok ((x, y, c), s')) :
    x.length = y.length ∧ (∀ k : ℕ, k < x.length ↔ R.nmin + k * R.nstep ≤ R.nmax) ∧ 0 < x.length ∧
      (∀ (k : ℕ) (hk : k < x.length), x[k] = ((R.nmin + k * R.nstep : ℤ) : ℝ) ^ R.ndims) ∧
      (∀ (k : ℕ) (hk : k < y.length), y[k] = clock (2 * k + 1) - clock (2 * k)) ∧
      (∀ c', misfit x y c ≤ misfit x y c') ∧ ∀ c', misfit x y c' ≤ misfit x y c → c' = c := by
  unfold extrapolate at h
  simp only [Res.monad_bind_eq] at h
  obtain ⟨⟨data, s1⟩, h1, h⟩ := Res.bind_eq_ok.1 h
  simp only at h
  split_ifs at h with he
  obtain ⟨x', h2, h⟩ := Res.bind_eq_ok.1 h
  simp only [Res.ok.injEq, Prod.mk.injEq] at h
  obtain ⟨⟨rfl, rfl, rfl⟩, rfl⟩ := h
  obtain ⟨m, hm, rfl⟩ := generate_data hstep h1
  have hx := powers_ok h2
  subst hx
  have hm0 : 0 < m := by
    rcases Nat.eq_zero_or_pos m with rfl | hp
    · simp at he
    · exact hp
  have hlen : ∀ (f g : ℤ × ℝ → ℝ) (l : List (ℤ × ℝ)), (l.map f).length = (l.map g).length := by simp
  have hne : ∃ a ∈ List.map (fun p : ℤ × ℝ => (p.1 : ℝ) ^ R.ndims) ((List.range m).map fun k : ℕ =>
      (R.nmin + k * R.nstep, clock (2 * k + 1) - clock (2 * k))), a ≠ 0 := by
    refine ⟨((R.nmin + (0 : ℕ) * R.nstep : ℤ) : ℝ) ^ R.ndims, ?_, ?_⟩
    · rw [List.map_map]
      exact List.mem_map.2 ⟨0, List.mem_range.2 hm0, rfl⟩
    · refine zpow_ne_zero _ ?_
      have : R.nmin + ((0 : ℕ) : ℤ) * R.nstep ≠ 0 := by
        push_cast
        omega
      exact_mod_cast this
  refine ⟨hlen _ _ _, ?_, by simpa using hm0, ?_, ?_, fun c' => lstsq_least (hlen _ _ _) c', fun c' hc => lstsq_unique (hlen _ _ _) hne hc⟩
  · intro k
    rw [List.length_map, List.length_map, List.length_range]
    exact hm k
  · intro k hk
    simp
  · intro k hk
    simp

/-- C108: if the times are proportional to the numbers of cells, the factor is returned. -/
theorem extrapolate_proportional {R : Extrapolator} {S : Setup} {e : ℕ → Env} {clock : ℕ → ℝ} {ex : ℤ} {vtype : TypeArg}
    {s s' : Random} {x y : List ℝ} {c c0 : ℝ} (hstep : 0 < R.nstep) (hmin : 0 < R.nmin)
    (h : R.extrapolate S e clock ex vtype s = .ok ((x, y, c), s'))
    (hc : ∀ k : ℕ, R.nmin + k * R.nstep ≤ R.nmax →
      clock (2 * k + 1) - clock (2 * k) = c0 * ((R.nmin + k * R.nstep : ℤ) : ℝ) ^ R.ndims) : c = c0 := by
  obtain ⟨h1, h2, -, h4, h5, h6, h7⟩ := extrapolate_spec hstep hmin h
  refine (h7 c0 ?_).symm
  have hz : misfit x y c0 = 0 := by
    unfold misfit
    refine List.sum_eq_zero fun a ha => ?_
    obtain ⟨i, hi, rfl⟩ := List.getElem_of_mem ha
    rw [List.length_zipWith] at hi
    have hix : i < x.length := by omega
    have hiy : i < y.length := by omega
    rw [List.getElem_zipWith, h4 i hix, h5 i hiy, hc i ((h2 i).1 hix), sub_self]
    norm_num
  rw [hz]
  refine List.sum_nonneg fun a ha => ?_
  obtain ⟨i, hi, rfl⟩ := List.getElem_of_mem ha
  rw [List.getElem_zipWith]
  exact sq_nonneg _

/-- C108: in every state that a process can be in, `extrapolate` causes no undefined behaviour and throws no exception, for every name of a
variogram in ASCII, if all sizes are at least 2 and such that the transform of twice the size is found (C20). -/
theorem extrapolate_clean {R : Extrapolator} {S : Setup} (hF : S.F.Laws) (e : ℕ → Env) (clock : ℕ → ℝ) (ex : ℤ) {vtype : TypeArg}
    (ht : IsAscii (match vtype with | .member m => m.value | .str s => s).toList) (hstep : 0 < R.nstep) (hmin : 2 ≤ R.nmin)
    (hmax : R.nmin ≤ R.nmax) (hsize : ∀ n : ℕ, 2 ≤ n → (n : ℤ) ≤ R.nmax → SizeOk S.p (2 * n)) {s : Random} (hr : Reachable S s) :
    (R.generate S e clock vtype s).Clean ∧ (R.extrapolate S e clock ex vtype s).Clean := by
  obtain ⟨v, hv, h1, h2, h3, h4, t, rx, ry, rz, az, dp, hc⟩ := vario_ok ht
  obtain ⟨m, e1, hm⟩ := pyRange_up (lo := R.nmin) (hi := R.nmax) hstep
  have hg : (R.generate S e clock vtype s).Clean := by
    unfold generate
    simp only [Res.monad_bind_eq]
    rw [hv, Res.bind_ok, e1, Res.bind_ok]
    refine loop_clean hF h1 h2 h3 h4 hc e clock (fun n hn => ?_) hr
    obtain ⟨k, hk, rfl⟩ := List.mem_map.1 hn
    have hk' := (hm k).1 (List.mem_range.1 hk)
    have : 0 ≤ (k : ℤ) * R.nstep := by positivity
    exact ⟨by omega, hsize _ (by omega) (by omega)⟩
  refine ⟨hg, ?_⟩
  unfold extrapolate
  simp only [Res.monad_bind_eq]
  refine hg.bind fun q hq => ?_
  obtain ⟨data, s1⟩ := q
  obtain ⟨m', hm', rfl⟩ := generate_data hstep hq
  have hm0 : 0 < m' := (hm' 0).2 (by simpa using hmax)
  simp only
  rw [if_neg (by
    intro hc
    have := congrArg List.length hc
    simp at this
    omega)]
  obtain ⟨x, hx⟩ := powers_pos (m := R.ndims) (data := (List.range m').map fun k : ℕ =>
      (R.nmin + k * R.nstep, clock (2 * k + 1) - clock (2 * k))) (by
    intro p hp
    obtain ⟨k, hk, rfl⟩ := List.mem_map.1 hp
    have : 0 ≤ (k : ℤ) * R.nstep := by positivity
    simp only
    omega)
  rw [hx, Res.bind_ok]
  trivial

/-- C108: in one and two dimensions `generate` takes one number of the stream of the module for every size. -/
theorem generate_stream {R : Extrapolator} {S : Setup} {e : ℕ → Env} {clock : ℕ → ℝ} {vtype : TypeArg} {s s' : Random}
    {data : List (ℤ × ℝ)} (hd : R.ndims ≤ 2) (hs : s.isInitialized = true)
    (h : R.generate S e clock vtype s = .ok (data, s')) :
    ∃ ns, session (RngCall.onGlobal S.b) (List.replicate data.length .drawUint32) s = .ok (ns, s') := by
  unfold generate at h
  simp only [Res.monad_bind_eq] at h
  obtain ⟨v, -, h⟩ := Res.bind_eq_ok.1 h
  obtain ⟨l, -, h⟩ := Res.bind_eq_ok.1 h
  obtain ⟨rs, hrs⟩ := loop_session h
  obtain ⟨ns, hns⟩ := flat_advance S (fun c hc => by
    obtain ⟨p, -, rfl⟩ := List.mem_map.1 hc
    simp only [call, PyCall.simulatesFlat]
    rw [if_neg (show ¬R.ndims > 2 by omega)]
    exact Or.inr (Or.inr (Or.inl le_rfl))) hs hrs
  refine ⟨ns, ?_⟩
  rw [loop_data h]
  simpa using hns

/-- C108: the argument `ex_nmax` of `extrapolate` has no effect. -/
theorem extrapolate_ignores (R : Extrapolator) (S : Setup) (e : ℕ → Env) (clock : ℕ → ℝ) (ex ex' : ℤ) (vtype : TypeArg) (s : Random) :
    R.extrapolate S e clock ex vtype s = R.extrapolate S e clock ex' vtype s := rfl

/-- C108: what is rejected: a step of zero, a smallest size of 1, and no sizes. -/
theorem extrapolate_throws {R : Extrapolator} {S : Setup} {e : ℕ → Env} {clock : ℕ → ℝ} {ex : ℤ} {vtype : TypeArg} {s : Random}
    (ht : IsAscii (match vtype with | .member m => m.value | .str s => s).toList) :
    (R.nstep = 0 → R.extrapolate S e clock ex vtype s = .throws "ValueError") ∧
    (0 < R.nstep → R.nmin = 1 → 1 ≤ R.nmax → R.extrapolate S e clock ex vtype s = .throws "ZeroDivisionError") ∧
    (0 < R.nstep → R.nmax < R.nmin → R.extrapolate S e clock ex vtype s = .throws "IndexError") := by
  obtain ⟨v, hv, -⟩ := vario_ok ht
  refine ⟨fun h => ?_, fun hstep h1 h2 => ?_, fun hstep h1 => ?_⟩
  · unfold extrapolate generate pyRange
    simp only [Res.monad_bind_eq]
    rw [hv, Res.bind_ok, if_pos h]
    rfl
  · obtain ⟨m, e1, hm⟩ := pyRange_up (lo := R.nmin) (hi := R.nmax) hstep
    have hm0 : 0 < m := (hm 0).2 (by rw [h1]; simpa using h2)
    obtain ⟨m, rfl⟩ : ∃ m', m = m' + 1 := ⟨m - 1, by omega⟩
    unfold extrapolate generate
    simp only [Res.monad_bind_eq]
    rw [hv, Res.bind_ok, e1, Res.bind_ok, List.range_succ_eq_map, List.map_cons]
    have : R.nmin + ((0 : ℕ) : ℤ) * R.nstep = 1 := by rw [h1]; simp
    rw [this]
    simp only [loop, simulate, if_true, Res.monad_bind_eq]
    rfl
  · obtain ⟨m, e1, hm⟩ := pyRange_up (lo := R.nmin) (hi := R.nmax) hstep
    have hm0 : m = 0 := by
      by_contra hc
      have := (hm 0).1 (by omega)
      push_cast at this
      omega
    subst hm0
    unfold extrapolate generate
    simp only [Res.monad_bind_eq]
    rw [hv, Res.bind_ok, e1, Res.bind_ok]
    rfl

/-! ## Examples -/

open Known Dsfmt Spec.Mt in
/-- Two fields of 4 and 8 normal numbers can be drawn, one after the other, after seeding. -/
def twoFields (seed : BitVec 32) : Bool :=
  match seedOuts seed with
  | a :: b :: _ => quick 4 (seedOuts (innerSeed a)) && quick 8 (seedOuts (innerSeed b))
  | _ => false

theorem twoFields_3 : twoFields 3 = true := by decide +kernel

open Known Dsfmt in
theorem run_size {F : Fftw} (hF : F.Laws) (b : Build) {v : Variogram} (h1 : v.rangeX = 500) (h4 : v.power = 1.5) {t : VType}
    {pw rx ry rz az dp sd : ℝ} (hc : Variogram.create t pw rx ry rz az dp sd = .ok v) (j : ℕ) (hj : j = 1 ∨ j = 2)
    (e : Env) {s : Random} (hs : s.isInitialized = true)
    {w : BitVec 64} {l : List (BitVec 64)} (ha : Ahead (w :: l) s.dsfmt)
    (hq : quick (2 ^ (j + 1)) (seedOuts (innerSeed w)) = true) :
    ∃ d', (⟨2, 4, 2, 1⟩ : Extrapolator).simulate ⟨F, exactPlatform, b⟩ e v (2 ^ j) s = .ok { s with dsfmt := d' } ∧ Ahead l d' := by
  have hn2 : 2 ≤ 2 ^ j := by rcases hj with rfl | rfl <;> norm_num
  have hn4 : 2 ^ j ≤ 4 := by rcases hj with rfl | rfl <;> norm_num
  have hd := size_ok (p := exactPlatform) h4 (n := 2 ^ j) hn2 (sizeOk_exact (by omega) (by omega))
  rw [← h1] at hd
  push_cast at hd
  obtain ⟨tx, r, g1, -, -, H⟩ := advancedSimulate_1D hc (ny := 1) (dy := 1000.0 / ((2 : ℝ) ^ j - 1)) (Or.inl le_rfl) hd
  rw [isTotal_explicit (by positivity)] at g1
  have e2 : 2 ^ j + ((2 : ℤ) ^ j).toNat = 2 ^ (j + 1) := by rcases hj with rfl | rfl <;> rfl
  rw [e2] at g1
  have : tx = 2 ^ (j + 1) := fftSize_self g1 (by rcases hj with rfl | rfl <;> norm_num)
    ⟨le_rfl, by simpa using smooth7_of_exps (j + 1) 0 0 0, by simp⟩
  subst this
  obtain ⟨x, d', e1, h2⟩ := quick_flat ha hq b
  refine ⟨d', ?_, h2⟩
  unfold Extrapolator.simulate
  have hz : (2 : ℤ) ^ j = ((2 ^ j : ℕ) : ℤ) := by push_cast; rfl
  rw [if_neg (by rw [hz]; omega), if_neg (by rw [hz]; omega)]
  simp only [gt_iff_lt, lt_self_iff_false, if_false, show ¬((2 : ℤ) < 1) by norm_num]
  have hz' : ((2 : ℤ) ^ j).toNat = 2 ^ j := by rw [hz]; rfl
  have hcast : (((2 : ℤ) ^ j : ℤ) : ℝ) = (2 : ℝ) ^ j := by push_cast; rfl
  rw [hz', hcast, H hF b e, e1, Res.bind_ok, Res.bind_ok]
  exact hs

/-- The hypotheses are met: after `seed(3)`, a run in one dimension with the sizes 2 and 4, which take 4 and 8 seconds on a clock that starts at
0 and is read at once for the next size: 2 seconds per cell. -/
theorem concrete_extrapolate {F : Fftw} (hF : F.Laws) (b : Dsfmt.Build) (e : ℕ → Env) (s : Random) :
    ∃ s', (⟨2, 4, 2, 1⟩ : Extrapolator).extrapolate ⟨F, exactPlatform, b⟩ e (fun k => [0, 4, 4, 12].getD k 0) 512 (.str "exponential")
      ⟨true, 3, s.useSeedFile, s.seedFile, ⟨Mt.seedState 3, 382⟩⟩ = .ok (([2, 4], [4, 8], 2), s') := by
  have hA : IsAscii "exponential".toList := by unfold IsAscii; decide +kernel
  obtain ⟨v, hv, h1, h2, h3, h4, t, rx, ry, rz, az, dp, hc⟩ := vario_ok (vtype := .str "exponential") hA
  have hrun := twoFields_3
  unfold twoFields at hrun
  split at hrun
  swap
  · simp at hrun
  rename_i w1 w2 l hw
  simp only [Bool.and_eq_true] at hrun
  have h0 := Known.ahead_seed 3
  rw [hw] at h0
  obtain ⟨d1, e1, a1⟩ := run_size hF b h1 h4 hc 1 (Or.inl rfl) (e 0)
    (s := ⟨true, 3, s.useSeedFile, s.seedFile, ⟨Mt.seedState 3, 382⟩⟩) rfl h0 hrun.1
  obtain ⟨d2, e2, a2⟩ := run_size hF b h1 h4 hc 2 (Or.inr rfl) (e 1)
    (s := ⟨true, 3, s.useSeedFile, s.seedFile, d1⟩) rfl a1 hrun.2
  refine ⟨⟨true, 3, s.useSeedFile, s.seedFile, d2⟩, ?_⟩
  have hr : pyRange 2 (4 + 1) 2 = .ok [2, 4] := rfl
  norm_num at e1 e2
  unfold extrapolate generate
  simp only [Res.monad_bind_eq]
  rw [hv, Res.bind_ok, hr, Res.bind_ok]
  simp only [loop, Res.monad_bind_eq, e1, e2, Res.bind_ok]
  simp only [powers, Extrapolator.power, Res.monad_bind_eq, Res.bind_ok]
  norm_num [lstsq, powers, Extrapolator.power]
  intro h
  cases h

end Verif.Py
