import Verif.Lemmas.Fft1D
import Verif.Lemmas.CovGrid
import Verif.Model.Field
import Verif.Spec.Field
import Mathlib.Analysis.SpecialFunctions.Pow.Real

/-! Helper lemmas for the field simulation: draws, noise grids, clipping, convolution weights. -/

namespace Verif

open Finset Spec ComplexConjugate

/-! ### Draws -/

section draws
variable {σ : Type} {draw : σ → Res (ℝ × σ)}

theorem draws_length {n : ℕ} {s s' : σ} {w : List ℝ} (h : draws draw n s = .ok (w, s')) :
    w.length = n := by
  induction n generalizing s s' w with
  | zero =>
    simp only [draws, Res.ok.injEq, Prod.mk.injEq] at h
    rw [← h.1]; rfl
  | succ n ih =>
    rw [draws, Res.bind_eq_ok] at h
    obtain ⟨r, -, h⟩ := h
    rw [Res.bind_eq_ok] at h
    obtain ⟨l, hl, h⟩ := h
    simp only [Res.ok.injEq, Prod.mk.injEq] at h
    rw [← h.1, List.length_cons, ih hl]

theorem draws_add (a b : ℕ) (s : σ) : draws draw (a + b) s =
    (draws draw a s).bind fun r => (draws draw b r.2).bind fun q => .ok (r.1 ++ q.1, q.2) := by
  induction a generalizing s with
  | zero =>
    simp only [Nat.zero_add, draws, Res.bind_ok, List.nil_append]
    cases draws draw b s <;> rfl
  | succ a ih =>
    rw [show a + 1 + b = (a + b) + 1 by omega, draws, draws]
    cases draw s with
    | ok r =>
      simp only [Res.bind_ok, ih, Res.bind_assoc, List.cons_append]
    | throws m => rfl
    | ub m => rfl
    | nonfinite m => rfl
    | diverges => rfl

/-- Splitting a sequence of draws. -/
theorem draws_split {a b : ℕ} {s s' : σ} {w : List ℝ} (h : draws draw (a + b) s = .ok (w, s')) :
    ∃ s1, draws draw a s = .ok (w.take a, s1) ∧ draws draw b s1 = .ok (w.drop a, s') := by
  rw [draws_add, Res.bind_eq_ok] at h
  obtain ⟨⟨l, s1⟩, h1, h⟩ := h
  rw [Res.bind_eq_ok] at h
  obtain ⟨⟨l', s2⟩, h2, h⟩ := h
  simp only [Res.ok.injEq, Prod.mk.injEq] at h
  obtain ⟨rfl, rfl⟩ := h
  have hl := draws_length h1
  refine ⟨s1, ?_, ?_⟩
  · rw [h1, ← hl, List.take_left]
  · rw [← hl, List.drop_left]; exact h2

theorem draws_prefix {n : ℕ} {s s' : σ} {w : List ℝ} (h : draws draw n s = .ok (w, s')) {m : ℕ}
    (hm : m ≤ n) : ∃ t, draws draw m s = .ok (w.take m, t) := by
  rw [show n = m + (n - m) by omega] at h
  obtain ⟨t, h1, -⟩ := draws_split h
  exact ⟨t, h1⟩

/-- One more draw. -/
theorem draws_step {n : ℕ} {s s' : σ} {w : List ℝ} (h : draws draw n s = .ok (w, s')) {m : ℕ}
    (hm : m < n) {t : σ} (ht : draws draw m s = .ok (w.take m, t)) :
    ∃ t', draw t = .ok (w.getD m 0, t') ∧ draws draw (m + 1) s = .ok (w.take (m + 1), t') := by
  obtain ⟨t', h1⟩ := draws_prefix h (show m + 1 ≤ n by omega)
  have hl := draws_length h
  refine ⟨t', ?_, h1⟩
  rw [draws_add, ht, Res.bind_ok, Res.bind_eq_ok] at h1
  obtain ⟨⟨l, u⟩, h2, h3⟩ := h1
  rw [draws, Res.bind_eq_ok] at h2
  obtain ⟨⟨x, u'⟩, h4, h5⟩ := h2
  simp only [draws, Res.bind_ok, Res.ok.injEq, Prod.mk.injEq] at h5 h3
  obtain ⟨rfl, rfl⟩ := h5
  obtain ⟨h6, rfl⟩ := h3
  rw [h4]
  have := congrArg (·[m]?) h6
  simp only [List.getElem?_take] at this
  rw [if_pos (by omega), List.getElem?_append_right (by simp), List.length_take] at this
  rw [Nat.min_eq_left (by omega), Nat.sub_self, List.getElem?_cons_zero] at this
  rw [List.getD_eq_getElem?_getD, ← this]
  rfl

theorem draws_full {n : ℕ} {s s' t : σ} {w : List ℝ} (h : draws draw n s = .ok (w, s'))
    (ht : draws draw n s = .ok (w.take n, t)) : t = s' := by
  rw [h] at ht
  simp only [Res.ok.injEq, Prod.mk.injEq] at ht
  exact ht.2.symm

theorem drawNoise1_sat {n : ℕ} {s s' : σ} {w : List ℝ} (h : draws draw n s = .ok (w, s')) :
    drawNoise1 draw n s = .ok (w, s') := by
  have hl := draws_length h
  have := forRange_sat (lo := 0) (hi := n) (s := (List.replicate n (0 : ℝ), s))
    (body := fun i (st : List ℝ × σ) => (draw st.2).bind fun r =>
      (wr st.1 i r.1).bind fun noise => Res.ok (noise, r.2))
    (fun i (st : List ℝ × σ) => st.1.length = n ∧ (∀ a < i, st.1[a]? = some (w.getD a 0)) ∧
      draws draw i s = .ok (w.take i, st.2)) (Nat.zero_le n)
    ⟨by simp, by intros; omega, by simp [draws]⟩ ?_
  · obtain ⟨⟨a, t⟩, e, h1, h2, h3⟩ := this
    rw [drawNoise1]
    refine e.trans ?_
    have ht := draws_full h h3
    have : a = w := by
      apply List.ext_getElem?
      intro i
      by_cases hi : i < n
      · rw [h2 i hi, List.getD_eq_getElem?_getD, List.getElem?_eq_getElem (by omega)]; rfl
      · rw [List.getElem?_eq_none (by simp only at h1; omega), List.getElem?_eq_none (by omega)]
    subst this
    simp only at ht
    rw [ht]
  · rintro i ⟨a, t⟩ - hi ⟨h1, h2, h3⟩
    obtain ⟨t', e1, e2⟩ := draws_step h hi h3
    simp only at h1 h2
    simp only [e1, Res.bind_ok]
    rw [wr_ok (by omega), Res.bind_ok, Res.sat_ok]
    refine ⟨by simpa using h1, fun b hb => ?_, e2⟩
    simp only [List.getElem?_set]
    by_cases hbi : i = b
    · subst hbi; rw [if_pos rfl, if_pos (by omega)]
    · rw [if_neg hbi, h2 b (by omega)]

theorem drawNoise2_sat {nx ny : ℕ} {s s' : σ} {w : List ℝ} (noise : Grid2D ℝ)
    (hn : noise.ni = nx ∧ noise.nj = ny ∧ noise.WF) (h : draws draw (nx * ny) s = .ok (w, s')) :
    (drawNoise2 draw nx ny noise s).Sat fun r => r.2 = s' ∧
      Grid2D.Filled nx ny (fun _ _ => True) (fun i j => w.getD (i * ny + j) 0) r.1 := by
  unfold drawNoise2
  have := forRange_sat (lo := 0) (hi := nx) (s := (noise, s))
    (body := fun i st => forRange 0 ny (fun j (st : Grid2D ℝ × σ) => (draw st.2).bind fun r =>
      (st.1.set i j r.1).bind fun noise => Res.ok (noise, r.2)) st)
    (fun i (st : Grid2D ℝ × σ) => draws draw (i * ny) s = .ok (w.take (i * ny), st.2) ∧
      Grid2D.Filled nx ny (fun a _ => a < i) (fun i j => w.getD (i * ny + j) 0) st.1)
    (Nat.zero_le _) ⟨by simp [draws], hn.1, hn.2.1, hn.2.2, by intros; omega⟩ ?_
  · refine this.mono ?_
    rintro ⟨g, t⟩ ⟨h1, h2⟩
    exact ⟨draws_full h h1, h2.mono fun i j hi _ _ => hi⟩
  · rintro i st - hi ⟨h1, h2⟩
    have := forRange_sat (lo := 0) (hi := ny) (s := st)
      (body := fun j (st : Grid2D ℝ × σ) => (draw st.2).bind fun r =>
        (st.1.set i j r.1).bind fun noise => Res.ok (noise, r.2))
      (fun j (st : Grid2D ℝ × σ) =>
        draws draw (i * ny + j) s = .ok (w.take (i * ny + j), st.2) ∧
        Grid2D.Filled nx ny (fun a b => a < i ∨ (a = i ∧ b < j))
          (fun i j => w.getD (i * ny + j) 0) st.1)
      (Nat.zero_le _) ⟨by simpa using h1, h2.mono (by intros; omega)⟩ ?_
    · refine this.mono ?_
      rintro ⟨g, t⟩ ⟨h1, h2⟩
      exact ⟨by rw [Nat.succ_mul]; exact h1, h2.mono (by intros; omega)⟩
    · rintro j ⟨g, t⟩ - hj ⟨h1, h2⟩
      have hlt := rowMajor_lt hi hj
      obtain ⟨t', e1, e2⟩ := draws_step h hlt h1
      simp only [e1, Res.bind_ok]
      refine (h2.set hi hj rfl).bind ?_
      intro g' hg'
      rw [Res.sat_ok]
      exact ⟨e2, hg'.mono (by intros; omega)⟩

theorem drawNoise3_sat {nx ny nz : ℕ} {s s' : σ} {w : List ℝ} (noise : Grid3D ℝ)
    (hn : noise.ni = nx ∧ noise.nj = ny ∧ noise.nk = nz ∧ noise.WF)
    (h : draws draw (nx * ny * nz) s = .ok (w, s')) :
    (drawNoise3 draw nx ny nz noise s).Sat fun r => r.2 = s' ∧
      Grid3D.Filled nx ny nz (fun _ _ _ => True)
        (fun i j k => w.getD ((i * ny + j) * nz + k) 0) r.1 := by
  unfold drawNoise3
  have := forRange_sat (lo := 0) (hi := nx) (s := (noise, s))
    (body := fun i st => forRange 0 ny (fun j st => forRange 0 nz (fun k (st : Grid3D ℝ × σ) =>
      (draw st.2).bind fun r =>
      (st.1.set i j k r.1).bind fun noise => Res.ok (noise, r.2)) st) st)
    (fun i (st : Grid3D ℝ × σ) => draws draw (i * ny * nz) s = .ok (w.take (i * ny * nz), st.2) ∧
      Grid3D.Filled nx ny nz (fun a _ _ => a < i)
        (fun i j k => w.getD ((i * ny + j) * nz + k) 0) st.1)
    (Nat.zero_le _) ⟨by simp [draws], hn.1, hn.2.1, hn.2.2.1, hn.2.2.2, by intros; omega⟩ ?_
  · refine this.mono ?_
    rintro ⟨g, t⟩ ⟨h1, h2⟩
    exact ⟨draws_full h h1, h2.mono fun i j k hi _ _ _ => hi⟩
  · rintro i st - hi ⟨h1, h2⟩
    have := forRange_sat (lo := 0) (hi := ny) (s := st)
      (body := fun j st => forRange 0 nz (fun k (st : Grid3D ℝ × σ) =>
        (draw st.2).bind fun r =>
        (st.1.set i j k r.1).bind fun noise => Res.ok (noise, r.2)) st)
      (fun j (st : Grid3D ℝ × σ) =>
        draws draw ((i * ny + j) * nz) s = .ok (w.take ((i * ny + j) * nz), st.2) ∧
        Grid3D.Filled nx ny nz (fun a b _ => a < i ∨ (a = i ∧ b < j))
          (fun i j k => w.getD ((i * ny + j) * nz + k) 0) st.1)
      (Nat.zero_le _) ⟨by simpa using h1, h2.mono (by intros; omega)⟩ ?_
    · refine this.mono ?_
      rintro ⟨g, t⟩ ⟨h1, h2⟩
      exact ⟨by rw [Nat.succ_mul]; exact h1, h2.mono (by intros; omega)⟩
    · rintro j st - hj ⟨h1, h2⟩
      have := forRange_sat (lo := 0) (hi := nz) (s := st)
        (body := fun k (st : Grid3D ℝ × σ) => (draw st.2).bind fun r =>
          (st.1.set i j k r.1).bind fun noise => Res.ok (noise, r.2))
        (fun k (st : Grid3D ℝ × σ) =>
          draws draw ((i * ny + j) * nz + k) s = .ok (w.take ((i * ny + j) * nz + k), st.2) ∧
          Grid3D.Filled nx ny nz (fun a b c => a < i ∨ (a = i ∧ b < j) ∨ (a = i ∧ b = j ∧ c < k))
            (fun i j k => w.getD ((i * ny + j) * nz + k) 0) st.1)
        (Nat.zero_le _) ⟨by simpa using h1, h2.mono (by intros; omega)⟩ ?_
      · refine this.mono ?_
        rintro ⟨g, t⟩ ⟨h1, h2⟩
        refine ⟨?_, h2.mono (by intros; omega)⟩
        rw [show (i * ny + (j + 1)) * nz = (i * ny + j) * nz + nz by ring]
        exact h1
      · rintro k ⟨g, t⟩ - hk ⟨h1, h2⟩
        have hlt := rowMajor_lt (rowMajor_lt hi hj) hk
        obtain ⟨t', e1, e2⟩ := draws_step h hlt h1
        simp only [e1, Res.bind_ok]
        refine (h2.set hi hj hk rfl).bind ?_
        intro g' hg'
        rw [Res.sat_ok]
        exact ⟨e2, hg'.mono (by intros; omega)⟩

end draws

/-! ### Clipping and square root -/

theorem csqrt_real {x : ℝ} (hx : 0 ≤ x) : csqrt (x : ℂ) = (Real.sqrt x : ℂ) := by
  unfold csqrt
  rw [Real.sqrt_eq_rpow, Complex.ofReal_cpow hx]
  norm_num

theorem clipSqrtLoop_sat (a : List ℂ) :
    (clipSqrtLoop a.length a).Sat fun b => b.length = a.length ∧
      ∀ i : ℕ, b[i]? = (a[i]?).map fun z => ((Real.sqrt (max z.re 0) : ℝ) : ℂ) := by
  refine (forRange_map_sat (fun _ z => csqrt ⟨max z.re 0.0, 0.0⟩) a.length a le_rfl).mono ?_
  rintro b ⟨h1, h2⟩
  refine ⟨h1, fun i => ?_⟩
  have e : ∀ z : ℂ, csqrt ⟨max z.re 0.0, 0.0⟩ = ((Real.sqrt (max z.re 0) : ℝ) : ℂ) := by
    intro z
    rw [← csqrt_real (le_max_right _ _)]
    congr 1
    apply Complex.ext <;> norm_num
  rw [h2 i]
  split
  · simp only [e]
  · rw [List.getElem?_eq_none (by omega)]; rfl

namespace Flat

variable {G : Type} [AddCommGroup G] {P : Pairing G} (L : Flat P)

theorem clip_holds {z : List ℂ} {c : G → ℝ}
    (h : L.CHolds z (fun k => P.dft (fun x => (c x : ℂ)) k)) :
    (clipSqrtLoop L.M z).Sat fun b => L.CHolds b (fun k => (P.amp c k : ℂ)) := by
  have := clipSqrtLoop_sat z
  rw [h.1] at this
  refine this.mono ?_
  rintro b ⟨h1, h2⟩
  refine ⟨h1, fun k hk => ?_⟩
  rw [h2, h.2 k hk]
  rfl

/-- Filtered noise: periodic and Hermitian. -/
theorem noise_per (c w : G → ℝ) (k l : G) (h : P.per (k - l)) :
    P.dft (fun x => (w x : ℂ)) k * (P.amp c k : ℂ) = P.dft (fun x => (w x : ℂ)) l * (P.amp c l : ℂ) := by
  rw [P.dft_congr h, P.amp_congr h]

theorem noise_herm (c w : G → ℝ) (k : G) :
    P.dft (fun x => (w x : ℂ)) (-k) * (P.amp c (-k) : ℂ)
      = conj (P.dft (fun x => (w x : ℂ)) k * (P.amp c k : ℂ)) := by
  rw [map_mul, Complex.conj_ofReal, P.amp_neg, dft_real_herm]

/-- The value of the field: the scalings cancel. -/
theorem field_value (c w : G → ℝ) (s t : ℝ) (hst : s * t * P.N = 1) (x : G) :
    (P.idft (fun k => P.dft (fun x => ((w x * s : ℝ) : ℂ)) k * (P.amp c k : ℂ)) x).re * t
      = ∑ y ∈ P.box, P.ker c (x - y) * w y := by
  have e : (fun k => P.dft (fun x => ((w x * s : ℝ) : ℂ)) k * (P.amp c k : ℂ))
      = fun k => (P.amp c k : ℂ) * P.dft (fun x => ((w x * s : ℝ) : ℂ)) k := by
    funext k; ring
  rw [e, P.idft_amp_mul c (fun x => w x * s), Complex.ofReal_re]
  have : ∑ y ∈ P.box, P.ker c (x - y) * (w y * s) = s * ∑ y ∈ P.box, P.ker c (x - y) * w y := by
    rw [Finset.mul_sum]
    exact Finset.sum_congr rfl fun y _ => by ring
  rw [this]
  linear_combination (∑ y ∈ P.box, P.ker c (x - y) * w y) * hst

end Flat

/-! ### The specification in terms of characters -/

theorem turn_re (t : ℝ) : (turn t).re = Real.cos (2 * Real.pi * t) := by
  unfold turn
  rw [show (2 * Real.pi * Complex.I * t : ℂ) = ((2 * Real.pi * t : ℝ) : ℂ) * Complex.I by
    push_cast; ring, Complex.exp_ofReal_mul_I_re]

namespace Pairing
variable {G : Type} [AddCommGroup G] (P : Pairing G)

theorem e_neg_re (k x : G) : (P.e k (-x)).re = (P.e k x).re := by
  rw [← P.conj_e, Complex.conj_re]

theorem spec_eq (c : G → ℝ) (k : G) : P.spec c k = ∑ x ∈ P.box, c x * (P.e k x).re := by
  unfold spec dft
  rw [Complex.re_sum]
  refine Finset.sum_congr rfl fun x _ => ?_
  rw [Complex.re_ofReal_mul, e_neg_re]

theorem ker_sum (c : G → ℝ) (z : G) :
    P.ker c z = (∑ k ∈ P.box, P.amp c k * (P.e k z).re) / P.N := by
  unfold ker idft
  rw [Complex.re_sum]
  congr 1
  refine Finset.sum_congr rfl fun x _ => ?_
  rw [Complex.re_ofReal_mul]

/-- Covariance of the convolution in real form. -/
theorem sum_ker_mul_real (c : G → ℝ) (x x' : G) :
    ∑ y ∈ P.box, P.ker c (x - y) * P.ker c (x' - y)
      = (∑ k ∈ P.box, max (P.spec c k) 0 * (P.e k (x - x')).re) / P.N := by
  have h := congrArg Complex.re (P.sum_ker_mul c x x')
  rw [Complex.ofReal_re] at h
  rw [h, ← Complex.ofReal_natCast, Complex.div_ofReal_re]
  unfold idft
  rw [Complex.re_sum]
  congr 1
  refine Finset.sum_congr rfl fun x _ => ?_
  rw [Complex.re_ofReal_mul]

end Pairing

theorem cyc_sum_real {n : ℕ} (hn : 0 < n) (F : ℤ → ℝ) :
    ∑ x ∈ (cyc n hn).box, F x = ∑ x ∈ range n, F (x : ℤ) := by
  have := cyc_sum hn (fun x => (F x : ℂ))
  exact_mod_cast this

/-- Real-valued version of `box2_sum`. -/
theorem box2_sum_real {n0 n1 : ℕ} (h0 : 0 < n0) (h1 : 0 < n1) (f : ℤ × ℤ → ℝ) :
    ∑ x ∈ (box2 n0 n1 h0 h1).box, f x
      = ∑ a ∈ range n0, ∑ b ∈ range n1, f ((a : ℤ), (b : ℤ)) := by
  have := box2_sum h0 h1 (fun x => (f x : ℂ))
  exact_mod_cast this

/-- Real-valued version of `box3_sum`. -/
theorem box3_sum_real {n0 n1 n2 : ℕ} (h0 : 0 < n0) (h1 : 0 < n1) (h2 : 0 < n2)
    (f : ℤ × ℤ × ℤ → ℝ) :
    ∑ x ∈ (box3 n0 n1 n2 h0 h1 h2).box, f x
      = ∑ a ∈ range n0, ∑ b ∈ range n1, ∑ c ∈ range n2, f ((a : ℤ), (b : ℤ), (c : ℤ)) := by
  have := box3_sum h0 h1 h2 (fun x => (f x : ℂ))
  exact_mod_cast this

/-! #### One dimension -/

/-- Periodic extension of a function on the box. -/
def ext1 (n : ℕ) (c : ℕ → ℝ) (x : ℤ) : ℝ := c (red n x)

theorem ext1_nat {n : ℕ} (c : ℕ → ℝ) {a : ℕ} (ha : a < n) : ext1 n c (a : ℤ) = c a := by
  unfold ext1; rw [red_nat ha]

theorem ext1_congr {n : ℕ} (c : ℕ → ℝ) {x y : ℤ} (h : (n : ℤ) ∣ x - y) :
    ext1 n c x = ext1 n c y := by unfold ext1; rw [red_congr h]

section dim1
variable {n : ℕ} (hn : 0 < n) (c : ℕ → ℝ)

theorem cyc_e_re (k : ℕ) (x : ℤ) : ((cyc n hn).e k x).re = Real.cos (phase1 n k x) := by
  change (root n k x).re = _
  rw [root_eq_turn, turn_re]; rfl

theorem spec1_eq (k : ℕ) : (cyc n hn).spec (ext1 n c) k = spectrum1 n c k := by
  rw [Pairing.spec_eq, cyc_sum_real]
  refine Finset.sum_congr rfl fun x hx => ?_
  rw [mem_range] at hx
  rw [cyc_e_re, ext1_nat c hx]

theorem ker1_eq (d : ℤ) : (cyc n hn).ker (ext1 n c) d = weight1 n c d := by
  rw [Pairing.ker_sum, cyc_sum_real]
  unfold weight1
  congr 1
  refine Finset.sum_congr rfl fun k _ => ?_
  rw [cyc_e_re, Pairing.amp, spec1_eq]

theorem field1_eq (w : ℤ → ℝ) (i : ℕ) :
    ∑ y ∈ (cyc n hn).box, (cyc n hn).ker (ext1 n c) ((i : ℤ) - y) * w y
      = field1 n c (fun a => w a) i := by
  rw [cyc_sum_real hn fun y => (cyc n hn).ker (ext1 n c) ((i : ℤ) - y) * w y]
  exact Finset.sum_congr rfl fun a _ => by rw [ker1_eq]

include hn in
theorem cov1_eq (x x' : ℤ) :
    ∑ a ∈ range n, weight1 n c (x - a) * weight1 n c (x' - a) = clippedCov1 n c (x - x') := by
  have h := (cyc n hn).sum_ker_mul_real (ext1 n c) x x'
  rw [cyc_sum_real hn fun y => (cyc n hn).ker (ext1 n c) (x - y) * (cyc n hn).ker (ext1 n c) (x' - y),
    cyc_sum_real] at h
  simp only [ker1_eq, spec1_eq, cyc_e_re] at h
  exact h

end dim1

/-! #### Two dimensions: first argument x, second y; the box has the slow index y first -/

/-- Periodic extension; the point is `(y, x)`. -/
def ext2 (n m : ℕ) (c : ℕ → ℕ → ℝ) (p : ℤ × ℤ) : ℝ := c (red n p.2) (red m p.1)

theorem ext2_nat {n m : ℕ} (c : ℕ → ℕ → ℝ) {a b : ℕ} (ha : a < n) (hb : b < m) :
    ext2 n m c ((b : ℤ), (a : ℤ)) = c a b := by
  unfold ext2; rw [red_nat ha, red_nat hb]

section dim2
variable {n m : ℕ} (hn : 0 < n) (hm : 0 < m) (c : ℕ → ℕ → ℝ)

theorem ext2_congr {x y : ℤ × ℤ} (h : (box2 m n hm hn).per (x - y)) :
    ext2 n m c x = ext2 n m c y := by
  obtain ⟨h1, h2⟩ := h
  unfold ext2; rw [red_congr h1, red_congr h2]

theorem box2_e_re (k l : ℕ) (p : ℤ × ℤ) :
    ((box2 m n hm hn).e ((l : ℤ), (k : ℤ)) p).re = Real.cos (phase2 n m k l p.2 p.1) := by
  change (root m l p.1 * root n k p.2).re = _
  rw [root_eq_turn, root_eq_turn, ← turn_add, turn_re]
  unfold phase2
  congr 2
  push_cast
  ring

theorem spec2_eq (k l : ℕ) :
    (box2 m n hm hn).spec (ext2 n m c) ((l : ℤ), (k : ℤ)) = spectrum2 n m c k l := by
  rw [Pairing.spec_eq, box2_sum_real, Finset.sum_comm]
  refine Finset.sum_congr rfl fun x hx => Finset.sum_congr rfl fun y hy => ?_
  rw [mem_range] at hx hy
  rw [box2_e_re, ext2_nat c hx hy]

theorem ker2_eq (p : ℤ × ℤ) : (box2 m n hm hn).ker (ext2 n m c) p = weight2 n m c p.2 p.1 := by
  rw [Pairing.ker_sum, box2_sum_real, Finset.sum_comm]
  unfold weight2
  congr 1
  · refine Finset.sum_congr rfl fun k _ => Finset.sum_congr rfl fun l _ => ?_
    rw [box2_e_re, Pairing.amp, spec2_eq]
  · have : (box2 m n hm hn).N = n * m := Nat.mul_comm _ _
    rw [this]; push_cast; rfl

theorem field2_eq (w : ℤ × ℤ → ℝ) (i j : ℕ) :
    ∑ y ∈ (box2 m n hm hn).box, (box2 m n hm hn).ker (ext2 n m c) (((j : ℤ), (i : ℤ)) - y) * w y
      = field2 n m c (fun a b => w ((b : ℤ), (a : ℤ))) i j := by
  rw [box2_sum_real hm hn fun y =>
    (box2 m n hm hn).ker (ext2 n m c) (((j : ℤ), (i : ℤ)) - y) * w y, Finset.sum_comm]
  exact Finset.sum_congr rfl fun a _ => Finset.sum_congr rfl fun b _ => by rw [ker2_eq]; rfl

include hn hm in
theorem cov2_eq (x y x' y' : ℤ) :
    ∑ a ∈ range n, ∑ b ∈ range m, weight2 n m c (x - a) (y - b) * weight2 n m c (x' - a) (y' - b)
      = clippedCov2 n m c (x - x') (y - y') := by
  have h := (box2 m n hm hn).sum_ker_mul_real (ext2 n m c) (y, x) (y', x')
  rw [box2_sum_real hm hn fun q => (box2 m n hm hn).ker (ext2 n m c) ((y, x) - q)
      * (box2 m n hm hn).ker (ext2 n m c) ((y', x') - q), Finset.sum_comm,
    box2_sum_real] at h
  simp only [ker2_eq, spec2_eq, box2_e_re] at h
  refine h.trans ?_
  unfold clippedCov2
  rw [Finset.sum_comm]
  have : (box2 m n hm hn).N = n * m := Nat.mul_comm _ _
  rw [this]; push_cast; rfl

end dim2

/-! #### Three dimensions -/

/-- Periodic extension; the point is `(z, y, x)`. -/
def ext3 (n m q : ℕ) (c : ℕ → ℕ → ℕ → ℝ) (p : ℤ × ℤ × ℤ) : ℝ :=
  c (red n p.2.2) (red m p.2.1) (red q p.1)

theorem ext3_nat {n m q : ℕ} (c : ℕ → ℕ → ℕ → ℝ) {a b d : ℕ} (ha : a < n) (hb : b < m)
    (hd : d < q) : ext3 n m q c ((d : ℤ), (b : ℤ), (a : ℤ)) = c a b d := by
  unfold ext3; rw [red_nat ha, red_nat hb, red_nat hd]

theorem sum_rev3 (n m q : ℕ) (f : ℕ → ℕ → ℕ → ℝ) :
    ∑ d ∈ range q, ∑ b ∈ range m, ∑ a ∈ range n, f a b d
      = ∑ a ∈ range n, ∑ b ∈ range m, ∑ d ∈ range q, f a b d := by
  rw [Finset.sum_comm]
  have : ∀ b ∈ range m, ∑ d ∈ range q, ∑ a ∈ range n, f a b d
      = ∑ a ∈ range n, ∑ d ∈ range q, f a b d := fun b _ => Finset.sum_comm
  rw [Finset.sum_congr rfl this, Finset.sum_comm]

section dim3
variable {n m q : ℕ} (hn : 0 < n) (hm : 0 < m) (hq : 0 < q) (c : ℕ → ℕ → ℕ → ℝ)

theorem ext3_congr {x y : ℤ × ℤ × ℤ} (h : (box3 q m n hq hm hn).per (x - y)) :
    ext3 n m q c x = ext3 n m q c y := by
  obtain ⟨h1, h2, h3⟩ := h
  unfold ext3; rw [red_congr h1, red_congr h2, red_congr h3]

theorem box3_N : (((box3 q m n hq hm hn).N : ℕ) : ℝ) = n * m * q := by
  have : (box3 q m n hq hm hn).N = q * (m * n) := rfl
  rw [this]; push_cast; ring

theorem box3_e_re (k l h : ℕ) (p : ℤ × ℤ × ℤ) :
    ((box3 q m n hq hm hn).e ((h : ℤ), (l : ℤ), (k : ℤ)) p).re
      = Real.cos (phase3 n m q k l h p.2.2 p.2.1 p.1) := by
  change (root q h p.1 * (root m l p.2.1 * root n k p.2.2)).re = _
  rw [root_eq_turn, root_eq_turn, root_eq_turn, ← turn_add, ← turn_add, turn_re]
  unfold phase3
  congr 2
  push_cast
  ring

theorem spec3_eq (k l h : ℕ) :
    (box3 q m n hq hm hn).spec (ext3 n m q c) ((h : ℤ), (l : ℤ), (k : ℤ))
      = spectrum3 n m q c k l h := by
  rw [Pairing.spec_eq, box3_sum_real, sum_rev3 n m q fun x y z => ext3 n m q c ((z : ℤ), (y : ℤ), (x : ℤ))
    * ((box3 q m n hq hm hn).e ((h : ℤ), (l : ℤ), (k : ℤ)) ((z : ℤ), (y : ℤ), (x : ℤ))).re]
  refine Finset.sum_congr rfl fun x hx => Finset.sum_congr rfl fun y hy =>
    Finset.sum_congr rfl fun z hz => ?_
  rw [mem_range] at hx hy hz
  rw [box3_e_re, ext3_nat c hx hy hz]

theorem ker3_eq (p : ℤ × ℤ × ℤ) :
    (box3 q m n hq hm hn).ker (ext3 n m q c) p = weight3 n m q c p.2.2 p.2.1 p.1 := by
  rw [Pairing.ker_sum, box3_sum_real,
    sum_rev3 n m q fun x y z => (box3 q m n hq hm hn).amp (ext3 n m q c) ((z : ℤ), (y : ℤ), (x : ℤ))
    * ((box3 q m n hq hm hn).e ((z : ℤ), (y : ℤ), (x : ℤ)) p).re]
  unfold weight3
  congr 1
  · refine Finset.sum_congr rfl fun k _ => Finset.sum_congr rfl fun l _ =>
      Finset.sum_congr rfl fun h _ => ?_
    rw [box3_e_re, Pairing.amp, spec3_eq]
  · exact box3_N hn hm hq

theorem field3_eq (w : ℤ × ℤ × ℤ → ℝ) (i j k : ℕ) :
    ∑ y ∈ (box3 q m n hq hm hn).box,
        (box3 q m n hq hm hn).ker (ext3 n m q c) (((k : ℤ), (j : ℤ), (i : ℤ)) - y) * w y
      = field3 n m q c (fun a b d => w ((d : ℤ), (b : ℤ), (a : ℤ))) i j k := by
  rw [box3_sum_real hq hm hn fun y =>
    (box3 q m n hq hm hn).ker (ext3 n m q c) (((k : ℤ), (j : ℤ), (i : ℤ)) - y) * w y,
    sum_rev3 n m q fun x y z => (box3 q m n hq hm hn).ker (ext3 n m q c)
      (((k : ℤ), (j : ℤ), (i : ℤ)) - ((z : ℤ), (y : ℤ), (x : ℤ))) * w ((z : ℤ), (y : ℤ), (x : ℤ))]
  exact Finset.sum_congr rfl fun a _ => Finset.sum_congr rfl fun b _ =>
    Finset.sum_congr rfl fun d _ => by rw [ker3_eq]; rfl

include hn hm hq in
theorem cov3_eq (x y z x' y' z' : ℤ) :
    ∑ a ∈ range n, ∑ b ∈ range m, ∑ d ∈ range q,
      weight3 n m q c (x - a) (y - b) (z - d) * weight3 n m q c (x' - a) (y' - b) (z' - d)
      = clippedCov3 n m q c (x - x') (y - y') (z - z') := by
  have h := (box3 q m n hq hm hn).sum_ker_mul_real (ext3 n m q c) (z, y, x) (z', y', x')
  rw [box3_sum_real hq hm hn fun p => (box3 q m n hq hm hn).ker (ext3 n m q c) ((z, y, x) - p)
      * (box3 q m n hq hm hn).ker (ext3 n m q c) ((z', y', x') - p),
    sum_rev3 n m q fun a b d =>
      (box3 q m n hq hm hn).ker (ext3 n m q c) ((z, y, x) - ((d : ℤ), (b : ℤ), (a : ℤ)))
      * (box3 q m n hq hm hn).ker (ext3 n m q c) ((z', y', x') - ((d : ℤ), (b : ℤ), (a : ℤ))),
    box3_sum_real, sum_rev3 n m q fun a b d =>
      max ((box3 q m n hq hm hn).spec (ext3 n m q c) ((d : ℤ), (b : ℤ), (a : ℤ))) 0
      * ((box3 q m n hq hm hn).e ((d : ℤ), (b : ℤ), (a : ℤ)) ((z, y, x) - (z', y', x'))).re] at h
  simp only [ker3_eq, spec3_eq, box3_e_re] at h
  refine h.trans ?_
  unfold clippedCov3
  rw [box3_N hn hm hq]
  rfl

end dim3

end Verif
