import Verif.Lemmas.FftwRef
import Verif.Lemmas.Grid

/-! Helper lemmas for the FFT grids. -/

namespace Verif

open Finset Spec ComplexConjugate

/-- Scale factor applied by the forward transform. -/
noncomputable def fwdScale (sf : Bool) (n : ℕ) : ℝ := if sf then 1.0 / Real.sqrt (1.0 * n) else 1

theorem scales_mul (sf : Bool) {n : ℕ} (hn : 0 < n) : fwdScale sf n * invScale sf n * n = 1 := by
  have hn' : (0 : ℝ) < n := by exact_mod_cast hn
  cases sf
  · simp only [fwdScale, invScale, Bool.false_eq_true, if_false, Bool.not_false, if_true]
    norm_num
    field_simp
  · have := Real.mul_self_sqrt hn'.le
    have h2 : Real.sqrt n ≠ 0 := (Real.sqrt_pos.2 hn').ne'
    simp only [fwdScale, invScale, if_true, Bool.not_true, Bool.false_eq_true, if_false]
    norm_num
    rw [← mul_inv, this]
    field_simp

namespace Flat

variable {G : Type} [AddCommGroup G] {P : Pairing G} (L : Flat P)

theorem forward_sat {a : List ℝ} {f : G → ℝ} (h : L.Holds a f) (sf : Bool) :
    ((if sf then scaleLoop P.N (1.0 / Real.sqrt (1.0 * P.N)) a else .ok a).Sat fun b =>
      L.Holds b (fun x => f x * fwdScale sf P.N)) := by
  cases sf
  · simp only [Bool.false_eq_true, if_false, Res.sat_ok, fwdScale, mul_one]
    exact h
  · simp only [if_true, fwdScale]
    exact L.scale_holds h _

/-- Result of the inverse transform including the final scaling. -/
theorem inverse_sat {z : List ℂ} {Z : G → ℂ} (h : L.CHolds z Z)
    (hper : ∀ k l, P.per (k - l) → Z k = Z l) (hherm : ∀ k, Z (-k) = conj (Z k)) (s : ℝ) :
    (scaleLoop P.N s (L.c2r z).1).Sat fun b => L.Holds b (fun x => (P.idft Z x).re * s) :=
  L.scale_holds (L.c2r_holds h hper hherm) s

theorem dft_real_herm (f : G → ℝ) (k : G) :
    P.dft (fun x => (f x : ℂ)) (-k) = conj (P.dft (fun x => (f x : ℂ)) k) :=
  P.dft_neg (by simp) k

theorem roundtrip {a b : List ℝ} {f : G → ℝ} (sf : Bool) (h : L.Holds a f)
    (hb : L.Holds b (fun x => (P.idft (fun k => P.dft (fun x => ((f x * fwdScale sf P.N : ℝ) : ℂ)) k) x).re
      * invScale sf P.N)) : b = a := by
  refine Holds.unique (f := f) ⟨hb.1, fun x hx => ?_⟩ h
  rw [hb.2 x hx]
  congr 1
  change (P.idft (P.dft _) x).re * _ = _
  rw [P.idft_dft _ hx]
  rw [← Complex.ofReal_natCast, ← Complex.ofReal_mul, Complex.ofReal_re]
  have := scales_mul sf P.N_pos
  linear_combination (f x) * this

/-- The product of two spectra of real data. -/
theorem prod_value (f h : G → ℝ) (hh : ∀ x y, P.per (x - y) → h x = h y) (s s' t : ℝ)
    (hst : s * t * P.N = 1) (x : G) :
    (P.idft (fun k => P.dft (fun x => ((f x * s : ℝ) : ℂ)) k
      * P.dft (fun x => ((h x * s' : ℝ) : ℂ)) k) x).re * t
      = s' * ∑ y ∈ P.box, f y * h (x - y) := by
  rw [P.idft_mul_dft _ _ (fun x y hxy => by rw [hh x y hxy])]
  have e : (P.N : ℂ) * ∑ y ∈ P.box, ((f y * s : ℝ) : ℂ) * ((h (x - y) * s' : ℝ) : ℂ)
      = ((P.N * ∑ y ∈ P.box, (f y * s) * (h (x - y) * s') : ℝ) : ℂ) := by
    push_cast; rfl
  rw [e, Complex.ofReal_re]
  have : ∑ y ∈ P.box, (f y * s) * (h (x - y) * s') = s * s' * ∑ y ∈ P.box, f y * h (x - y) := by
    rw [Finset.mul_sum]
    exact Finset.sum_congr rfl fun y _ => by ring
  rw [this]
  linear_combination (s' * ∑ y ∈ P.box, f y * h (x - y)) * hst

end Flat

theorem planSize_ok {n : ℕ} (h : n < 2 ^ 31) : planSize n = .ok () := if_pos h

/-! ### Two dimensions -/

namespace FFTGrid2D

/-- The arrays have the right lengths and the sizes can be passed to FFTW. -/
structure WF (g : FFTGrid2D) : Prop where
  hi : 0 < g.ni_tot
  hj : 0 < g.nj_tot
  hi' : g.ni_tot < 2 ^ 31
  hj' : g.nj_tot < 2 ^ 31
  hr : g.real_data.length = g.ni_tot * g.nj_tot
  hc : g.complex_data.length = g.complexSize

variable {F : Fftw} (hF : F.Laws)

/-- Layout of the arrays of a grid. -/
noncomputable def layout (g : FFTGrid2D) (hg : g.WF) : Flat (box2 g.nj_tot g.ni_tot hg.hj hg.hi) :=
  flat2 F hF g.nj_tot g.ni_tot hg.hj hg.hi

theorem box_N {n0 n1 : ℕ} (h0 : 0 < n0) (h1 : 0 < n1) : (box2 n0 n1 h0 h1).N = n1 * n0 :=
  Nat.mul_comm _ _

theorem doFFT_sat (g : FFTGrid2D) (hg : g.WF) {f : ℤ × ℤ → ℝ}
    (hf : (g.layout hF hg).Holds g.real_data f) :
    (g.doFFT F).Sat fun g' => ∃ d c, g' = { g with real_data := d, complex_data := c } ∧ g'.WF ∧
      (g.layout hF hg).Holds d (fun x => f x * fwdScale g.scale_forward (g.ni_tot * g.nj_tot)) ∧
      (g.layout hF hg).CHolds c (fun k => (box2 g.nj_tot g.ni_tot hg.hj hg.hi).dft
        (fun x => ((f x * fwdScale g.scale_forward (g.ni_tot * g.nj_tot) : ℝ) : ℂ)) k) := by
  have h := (g.layout hF hg).forward_sat hf g.scale_forward
  rw [box_N] at h
  simp only [doFFT, Res.monad_bind_eq]
  refine h.bind ?_
  intro d hd
  rw [planSize_ok hg.hj', planSize_ok hg.hi', Res.bind_ok, Res.bind_ok, Res.sat_ok]
  have hc := (g.layout hF hg).r2c_holds hd
  refine ⟨d, _, rfl, ⟨hg.hi, hg.hj, hg.hi', hg.hj', hd.1.trans (box_N _ _), ?_⟩, hd, hc⟩
  exact hc.1.trans (Nat.mul_comm _ _)

theorem doInverseFFT_sat (g : FFTGrid2D) (hg : g.WF) {Z : ℤ × ℤ → ℂ}
    (hz : (g.layout hF hg).CHolds g.complex_data Z)
    (hper : ∀ k l, (box2 g.nj_tot g.ni_tot hg.hj hg.hi).per (k - l) → Z k = Z l)
    (hherm : ∀ k, Z (-k) = conj (Z k)) :
    (g.doInverseFFT F).Sat fun g' => ∃ d c, g' = { g with real_data := d, complex_data := c } ∧
      g'.WF ∧ (g.layout hF hg).Holds d (fun x => ((box2 g.nj_tot g.ni_tot hg.hj hg.hi).idft Z x).re
        * invScale g.scale_forward (g.ni_tot * g.nj_tot)) := by
  have h := (g.layout hF hg).inverse_sat hz hper hherm
    (invScale g.scale_forward (g.ni_tot * g.nj_tot))
  rw [box_N] at h
  simp only [doInverseFFT, Res.monad_bind_eq]
  rw [planSize_ok hg.hj', planSize_ok hg.hi', Res.bind_ok, Res.bind_ok]
  refine h.bind ?_
  intro d hd
  rw [Res.sat_ok]
  refine ⟨d, _, rfl, ⟨hg.hi, hg.hj, hg.hi', hg.hj', hd.1.trans (box_N _ _), ?_⟩, hd⟩
  exact ((g.layout hF hg).c2r_length _ hz.1).2.trans (Nat.mul_comm _ _)

/-- The flat array after `Initialize`. -/
theorem init_sat (g : FFTGrid2D) (hr : g.real_data.length = g.ni_tot * g.nj_tot)
    {f : ℕ → ℕ → ℝ} {v : Grid2D ℝ}
    (hv : Grid2D.Filled g.ni_tot g.nj_tot (fun _ _ => True) f v) :
    (g.init v).Sat fun g' => ∃ d, g' = { g with real_data := d } ∧
      d.length = g.ni_tot * g.nj_tot ∧
      ∀ i j, i < g.ni_tot → j < g.nj_tot → d[j * g.ni_tot + i]? = some (f i j) := by
  obtain ⟨e1, e2, -, hval⟩ := hv
  simp only [init, e1, e2, and_self, if_true, Res.monad_bind_eq]
  have key : (forRange 0 g.nj_tot (fun j s =>
      forRange 0 g.ni_tot (fun i s => (v.get i j).bind fun x => (wr s.2 s.1 x).bind fun d =>
        Res.ok (s.1 + 1, d)) s) (0, g.real_data)).Sat (fun s : ℕ × List ℝ =>
      s.1 = g.nj_tot * g.ni_tot ∧ s.2.length = g.ni_tot * g.nj_tot ∧
      ∀ i j, i < g.ni_tot → j < g.nj_tot → s.2[j * g.ni_tot + i]? = some (f i j)) := by
    refine forRange_sat (fun j (s : ℕ × List ℝ) => s.1 = j * g.ni_tot ∧
      s.2.length = g.ni_tot * g.nj_tot ∧
      ∀ a b, a < g.ni_tot → b < j → s.2[b * g.ni_tot + a]? = some (f a b)) (Nat.zero_le _)
      ⟨by simp, hr, by intros; omega⟩ ?_
    rintro j s - hj ⟨h1, h2, h3⟩
    have := forRange_sat (lo := 0) (hi := g.ni_tot) (s := s)
      (body := fun i s => (v.get i j).bind fun x => (wr s.2 s.1 x).bind fun d =>
        Res.ok (s.1 + 1, d)) (fun i (s : ℕ × List ℝ) => s.1 = j * g.ni_tot + i ∧
      s.2.length = g.ni_tot * g.nj_tot ∧
      (∀ a b, a < g.ni_tot → b < j → s.2[b * g.ni_tot + a]? = some (f a b)) ∧
      ∀ a, a < i → s.2[j * g.ni_tot + a]? = some (f a j)) (Nat.zero_le _)
      ⟨by simpa using h1, h2, h3, by intros; omega⟩ ?_
    · refine this.mono ?_
      rintro s ⟨h1, h2, h3, h4⟩
      refine ⟨by rw [h1]; ring, h2, fun a b ha hb => ?_⟩
      by_cases h : b = j
      · subst h; exact h4 a ha
      · exact h3 a b ha (by omega)
    · rintro i s - hi ⟨h1, h2, h3, h4⟩
      have hlt : s.1 < s.2.length := by
        rw [h1, h2, Nat.mul_comm g.ni_tot]; exact rowMajor_lt hj hi
      rw [hval i j hi hj trivial, Res.bind_ok, wr_ok hlt, Res.bind_ok, Res.sat_ok]
      refine ⟨by simp only [h1]; ring, by simpa using h2, ?_, ?_⟩
      · intro a b ha hb
        simp only [List.getElem?_set]
        rw [if_neg, h3 a b ha hb]
        rw [h1]
        intro he
        have := idx2_inj (ni := g.ni_tot) hi ha (i := i) (j := j) (j' := b) (by omega)
        omega
      · intro a ha
        simp only [List.getElem?_set]
        by_cases h : a = i
        · subst h
          rw [if_pos h1, if_pos hlt]
        · rw [if_neg (by omega), h4 a (by omega)]
  refine key.bind ?_
  rintro s ⟨-, h2, h3⟩
  rw [Res.sat_ok]
  exact ⟨_, rfl, h2, h3⟩

theorem getRealGrid_sat (g : FFTGrid2D) {f : ℕ → ℕ → ℝ}
    (hf : ∀ i j, i < g.ni → j < g.nj → g.real_data[j * g.ni_tot + i]? = some (f i j)) :
    g.getRealGrid.Sat (Grid2D.Filled g.ni g.nj (fun _ _ => True) f) := by
  unfold getRealGrid
  have := forRange_sat (lo := 0) (hi := g.ni) (s := Grid2D.mk' g.ni g.nj (0 : ℝ))
    (body := fun i out => forRange 0 g.nj (fun j out => do
      let x ← rd g.real_data (i + g.ni_tot * j)
      out.set i j x) out)
    (fun i out => Grid2D.Filled g.ni g.nj (fun a _ => a < i) f out) (Nat.zero_le _)
    ((Grid2D.filled_mk' _ _ _ f).mono (by intros; omega)) ?_
  · exact this.mono fun out h => h.mono fun i j hi _ _ => hi
  · rintro i out - hi h
    have := forRange_sat (lo := 0) (hi := g.nj) (s := out)
      (body := fun j out => (do
        let x ← rd g.real_data (i + g.ni_tot * j)
        out.set i j x : Res (Grid2D ℝ)))
      (fun j out => Grid2D.Filled g.ni g.nj (fun a b => a < i ∨ (a = i ∧ b < j)) f out)
      (Nat.zero_le _) (h.mono (by intros; omega)) ?_
    · exact this.mono fun out h => h.mono (by intros; omega)
    · rintro j out - hj h
      have e : rd g.real_data (i + g.ni_tot * j) = .ok (f i j) := by
        rw [rd_eq_ok, ← hf i j hi hj]; congr 1; ring
      simp only [e, Res.monad_bind_eq, Res.bind_ok]
      exact (h.set hi hj rfl).mono fun out h => h.mono (by intros; omega)

end FFTGrid2D

/-! ### Three dimensions -/

namespace FFTGrid3D

/-- The arrays have the right lengths and the sizes can be passed to FFTW. -/
structure WF (g : FFTGrid3D) : Prop where
  hi : 0 < g.ni_tot
  hj : 0 < g.nj_tot
  hk : 0 < g.nk_tot
  hi' : g.ni_tot < 2 ^ 31
  hj' : g.nj_tot < 2 ^ 31
  hk' : g.nk_tot < 2 ^ 31
  hr : g.real_data.length = g.ni_tot * g.nj_tot * g.nk_tot
  hc : g.complex_data.length = g.complexSize

variable {F : Fftw} (hF : F.Laws)

/-- The box of a grid. -/
noncomputable def pbox (g : FFTGrid3D) (hg : g.WF) : Pairing (ℤ × ℤ × ℤ) :=
  box3 g.nk_tot g.nj_tot g.ni_tot hg.hk hg.hj hg.hi

/-- Layout of the arrays of a grid. -/
noncomputable def layout (g : FFTGrid3D) (hg : g.WF) : Flat (g.pbox hg) :=
  flat3 F hF g.nk_tot g.nj_tot g.ni_tot hg.hk hg.hj hg.hi

theorem box_N (g : FFTGrid3D) (hg : g.WF) : (g.pbox hg).N = g.ni_tot * g.nj_tot * g.nk_tot := by
  have : (g.pbox hg).N = g.nk_tot * (g.nj_tot * g.ni_tot) := rfl
  rw [this]; ring

theorem complexSize_eq (g : FFTGrid3D) (hg : g.WF) : (g.layout hF hg).M = g.complexSize := by
  have : (g.layout hF hg).M = g.nk_tot * g.nj_tot * (g.ni_tot / 2 + 1) := rfl
  rw [this, complexSize]; ring

theorem doFFT_sat (g : FFTGrid3D) (hg : g.WF) {f : ℤ × ℤ × ℤ → ℝ}
    (hf : (g.layout hF hg).Holds g.real_data f) :
    (g.doFFT F).Sat fun g' => ∃ d c, g' = { g with real_data := d, complex_data := c } ∧ g'.WF ∧
      (g.layout hF hg).Holds d
        (fun x => f x * fwdScale g.scale_forward (g.ni_tot * g.nj_tot * g.nk_tot)) ∧
      (g.layout hF hg).CHolds c (fun k => (g.pbox hg).dft
        (fun x => ((f x * fwdScale g.scale_forward (g.ni_tot * g.nj_tot * g.nk_tot) : ℝ) : ℂ)) k) := by
  have h := (g.layout hF hg).forward_sat hf g.scale_forward
  rw [box_N] at h
  simp only [doFFT, Res.monad_bind_eq]
  refine h.bind ?_
  intro d hd
  rw [planSize_ok hg.hk', planSize_ok hg.hj', planSize_ok hg.hi', Res.bind_ok, Res.bind_ok,
    Res.bind_ok, Res.sat_ok]
  have hc := (g.layout hF hg).r2c_holds hd
  refine ⟨d, _, rfl, ⟨hg.hi, hg.hj, hg.hk, hg.hi', hg.hj', hg.hk', hd.1.trans (box_N _ _), ?_⟩,
    hd, hc⟩
  exact hc.1.trans (complexSize_eq hF g hg)

theorem doInverseFFT_sat (g : FFTGrid3D) (hg : g.WF) {Z : ℤ × ℤ × ℤ → ℂ}
    (hz : (g.layout hF hg).CHolds g.complex_data Z)
    (hper : ∀ k l, (g.pbox hg).per (k - l) → Z k = Z l)
    (hherm : ∀ k, Z (-k) = conj (Z k)) :
    (g.doInverseFFT F).Sat fun g' => ∃ d c, g' = { g with real_data := d, complex_data := c } ∧
      g'.WF ∧ (g.layout hF hg).Holds d (fun x => ((g.pbox hg).idft Z x).re
        * invScale g.scale_forward (g.ni_tot * g.nj_tot * g.nk_tot)) := by
  have h := (g.layout hF hg).inverse_sat hz hper hherm
    (invScale g.scale_forward (g.ni_tot * g.nj_tot * g.nk_tot))
  rw [box_N] at h
  simp only [doInverseFFT, Res.monad_bind_eq]
  rw [planSize_ok hg.hk', planSize_ok hg.hj', planSize_ok hg.hi', Res.bind_ok, Res.bind_ok,
    Res.bind_ok]
  refine h.bind ?_
  intro d hd
  rw [Res.sat_ok]
  refine ⟨d, _, rfl, ⟨hg.hi, hg.hj, hg.hk, hg.hi', hg.hj', hg.hk', hd.1.trans (box_N _ _), ?_⟩, hd⟩
  exact ((g.layout hF hg).c2r_length _ hz.1).2.trans (complexSize_eq hF g hg)

/-- A loop nest that writes consecutive cells. The number of iterations is the flat index. -/
theorem fill3 {ni nj nk : ℕ} (f : ℕ → ℕ → ℕ → ℝ) (val : ℕ → ℕ → ℕ → Res ℝ)
    (hval : ∀ i j k, i < ni → j < nj → k < nk → val i j k = .ok (f i j k)) (data : List ℝ)
    (hl : data.length = ni * nj * nk) :
    (forRange 0 nk (fun k s => forRange 0 nj (fun j s => forRange 0 ni (fun i s =>
      (val i j k).bind fun x => (wr s.2 s.1 x).bind fun d => Res.ok (s.1 + 1, d)) s) s)
        (0, data)).Sat (fun s : ℕ × List ℝ => s.2.length = ni * nj * nk ∧
      ∀ i j k, i < ni → j < nj → k < nk → s.2[(k * nj + j) * ni + i]? = some (f i j k)) := by
  -- invariant: everything below the counter is right
  have step : ∀ i j k (s : ℕ × List ℝ), i < ni → j < nj → k < nk →
      (s.1 = (k * nj + j) * ni + i ∧ s.2.length = ni * nj * nk ∧
        ∀ a b c, a < ni → b < nj → c < nk → (c * nj + b) * ni + a < s.1 →
          s.2[(c * nj + b) * ni + a]? = some (f a b c)) →
      ((val i j k).bind fun x => (wr s.2 s.1 x).bind fun d => Res.ok (s.1 + 1, d)).Sat
        (fun s : ℕ × List ℝ => s.1 = (k * nj + j) * ni + (i + 1) ∧ s.2.length = ni * nj * nk ∧
        ∀ a b c, a < ni → b < nj → c < nk → (c * nj + b) * ni + a < s.1 →
          s.2[(c * nj + b) * ni + a]? = some (f a b c)) := by
    rintro i j k s hi hj hk ⟨h1, h2, h3⟩
    have hlt : s.1 < s.2.length := by
      have := rowMajor_lt (rowMajor_lt hk hj) hi
      rw [h1, h2]
      calc _ < nk * nj * ni := this
        _ = _ := by ring
    rw [hval i j k hi hj hk, Res.bind_ok, wr_ok hlt, Res.bind_ok, Res.sat_ok]
    refine ⟨by simp only [h1]; ring, by simpa using h2, ?_⟩
    intro a b c ha hb hc hlt'
    simp only [List.getElem?_set]
    by_cases he : s.1 = (c * nj + b) * ni + a
    · rw [if_pos he, if_pos hlt]
      rw [h1] at he
      obtain ⟨e1, e2⟩ := idx2_inj (ni := ni) hi ha (i := i) (j := k * nj + j) (j' := c * nj + b)
        (by omega)
      obtain ⟨e3, e4⟩ := idx2_inj (ni := nj) hj hb (i := j) (j := k) (j' := c) (by omega)
      rw [e1, e3, e4]
    · rw [if_neg he]
      exact h3 a b c ha hb hc (by simp only at hlt'; omega)
  have main := forRange_sat (lo := 0) (hi := nk) (s := ((0 : ℕ), data))
    (body := fun k s => forRange 0 nj (fun j s => forRange 0 ni (fun i s =>
      (val i j k).bind fun x => (wr s.2 s.1 x).bind fun d => Res.ok (s.1 + 1, d)) s) s)
    (fun k (s : ℕ × List ℝ) => s.1 = k * nj * ni ∧ s.2.length = ni * nj * nk ∧
        ∀ a b c, a < ni → b < nj → c < nk → (c * nj + b) * ni + a < s.1 →
          s.2[(c * nj + b) * ni + a]? = some (f a b c)) (Nat.zero_le _)
    ⟨by simp, hl, by intro a b c _ _ _ h; simp at h⟩ ?_
  · refine main.mono ?_
    rintro s ⟨h1, h2, h3⟩
    refine ⟨h2, fun i j k hi hj hk => h3 i j k hi hj hk ?_⟩
    rw [h1]
    exact rowMajor_lt (rowMajor_lt hk hj) hi
  · rintro k s - hk hs
    have := forRange_sat (lo := 0) (hi := nj) (s := s)
      (body := fun j s => forRange 0 ni (fun i s =>
        (val i j k).bind fun x => (wr s.2 s.1 x).bind fun d => Res.ok (s.1 + 1, d)) s)
      (fun j (s : ℕ × List ℝ) => s.1 = (k * nj + j) * ni ∧ s.2.length = ni * nj * nk ∧
        ∀ a b c, a < ni → b < nj → c < nk → (c * nj + b) * ni + a < s.1 →
          s.2[(c * nj + b) * ni + a]? = some (f a b c)) (Nat.zero_le _)
      (by simpa using hs) ?_
    · refine this.mono ?_
      rintro s ⟨h1, h2⟩
      exact ⟨by rw [h1]; ring, h2⟩
    · rintro j s - hj hs
      have := forRange_sat (lo := 0) (hi := ni) (s := s)
        (body := fun i s =>
          (val i j k).bind fun x => (wr s.2 s.1 x).bind fun d => Res.ok (s.1 + 1, d))
        (fun i (s : ℕ × List ℝ) => s.1 = (k * nj + j) * ni + i ∧ s.2.length = ni * nj * nk ∧
          ∀ a b c, a < ni → b < nj → c < nk → (c * nj + b) * ni + a < s.1 →
            s.2[(c * nj + b) * ni + a]? = some (f a b c)) (Nat.zero_le _)
        (by simpa using hs) (fun i s _ hi hs => step i j k s hi hj hk hs)
      refine this.mono ?_
      rintro s ⟨h1, h2⟩
      exact ⟨by rw [h1]; ring, h2⟩

theorem init_sat (g : FFTGrid3D) (hr : g.real_data.length = g.ni_tot * g.nj_tot * g.nk_tot)
    {f : ℕ → ℕ → ℕ → ℝ} {v : Grid3D ℝ}
    (hv : Grid3D.Filled g.ni_tot g.nj_tot g.nk_tot (fun _ _ _ => True) f v) :
    (g.init v).Sat fun g' => ∃ d, g' = { g with real_data := d } ∧
      d.length = g.ni_tot * g.nj_tot * g.nk_tot ∧
      ∀ i j k, i < g.ni_tot → j < g.nj_tot → k < g.nk_tot →
        d[(k * g.nj_tot + j) * g.ni_tot + i]? = some (f i j k) := by
  obtain ⟨e1, e2, e3, -, hval⟩ := hv
  simp only [init, e1, e2, e3, and_self, if_true, Res.monad_bind_eq]
  refine (fill3 f (fun i j k => v.get i j k) (fun i j k hi hj hk => hval i j k hi hj hk trivial)
    g.real_data hr).bind ?_
  rintro s ⟨h2, h3⟩
  rw [Res.sat_ok]
  exact ⟨_, rfl, h2, h3⟩

theorem getRealGrid_sat (g : FFTGrid3D) {f : ℕ → ℕ → ℕ → ℝ}
    (hf : ∀ i j k, i < g.ni → j < g.nj → k < g.nk →
      g.real_data[(k * g.nj_tot + j) * g.ni_tot + i]? = some (f i j k)) :
    g.getRealGrid.Sat (Grid3D.Filled g.ni g.nj g.nk (fun _ _ _ => True) f) := by
  unfold getRealGrid
  have := forRange_sat (lo := 0) (hi := g.ni) (s := Grid3D.mk' g.ni g.nj g.nk (0 : ℝ))
    (body := fun i out => forRange 0 g.nj (fun j out => forRange 0 g.nk (fun k out => do
      let x ← rd g.real_data (i + g.ni_tot * j + g.ni_tot * g.nj_tot * k)
      out.set i j k x) out) out)
    (fun i out => Grid3D.Filled g.ni g.nj g.nk (fun a _ _ => a < i) f out) (Nat.zero_le _)
    ((Grid3D.filled_mk' _ _ _ _ f).mono (by intros; omega)) ?_
  · exact this.mono fun out h => h.mono fun i j k hi _ _ _ => hi
  · rintro i out - hi h
    have := forRange_sat (lo := 0) (hi := g.nj) (s := out)
      (body := fun j out => forRange 0 g.nk (fun k out => do
        let x ← rd g.real_data (i + g.ni_tot * j + g.ni_tot * g.nj_tot * k)
        out.set i j k x) out)
      (fun j out => Grid3D.Filled g.ni g.nj g.nk (fun a b _ => a < i ∨ (a = i ∧ b < j)) f out)
      (Nat.zero_le _) (h.mono (by intros; omega)) ?_
    · exact this.mono fun out h => h.mono (by intros; omega)
    · rintro j out - hj h
      have := forRange_sat (lo := 0) (hi := g.nk) (s := out)
        (body := fun k out => (do
          let x ← rd g.real_data (i + g.ni_tot * j + g.ni_tot * g.nj_tot * k)
          out.set i j k x : Res (Grid3D ℝ)))
        (fun k out => Grid3D.Filled g.ni g.nj g.nk
          (fun a b c => a < i ∨ (a = i ∧ b < j) ∨ (a = i ∧ b = j ∧ c < k)) f out)
        (Nat.zero_le _) (h.mono (by intros; omega)) ?_
      · exact this.mono fun out h => h.mono (by intros; omega)
      · rintro k out - hk h
        have e : rd g.real_data (i + g.ni_tot * j + g.ni_tot * g.nj_tot * k) = .ok (f i j k) := by
          rw [rd_eq_ok, ← hf i j k hi hj hk]; congr 1; ring
        simp only [e, Res.monad_bind_eq, Res.bind_ok]
        exact (h.set hi hj hk rfl).mono fun out h => h.mono (by intros; omega)

end FFTGrid3D

end Verif
