import Verif.Lemmas.FftGrid

/-! Helper lemmas for the one-dimensional transforms. -/

namespace Verif

open Finset Spec ComplexConjugate

/-- A loop that writes `f i` to cell `off + i`. -/
theorem fill_sat {α : Type} (f : ℕ → α) (off m : ℕ) (a : List α) (hm : off + m ≤ a.length)
    (body : ℕ → List α → Res (List α))
    (hb : ∀ i b, i < m → body i b = wr b (off + i) (f i)) :
    (forRange 0 m body a).Sat fun b => b.length = a.length ∧
      (∀ i, i < m → b[off + i]? = some (f i)) ∧
      ∀ i : ℕ, i < off ∨ off + m ≤ i → b[i]? = a[i]? := by
  refine (forRange_sat (fun j (b : List α) => b.length = a.length ∧
      (∀ i, i < j → b[off + i]? = some (f i)) ∧
      ∀ i : ℕ, i < off ∨ off + m ≤ i → b[i]? = a[i]?) (Nat.zero_le m)
      ⟨rfl, by intros; omega, fun _ _ => rfl⟩ ?_)
  rintro i b - hi ⟨h1, h2, h3⟩
  rw [hb i b hi, wr_ok (by omega), Res.sat_ok]
  refine ⟨by simpa using h1, fun k hk => ?_, fun k hk => ?_⟩
  · rw [List.getElem?_set]
    by_cases h : i = k
    · subst h; rw [if_pos rfl, if_pos (by omega)]
    · rw [if_neg (by omega), h2 k (by omega)]
  · rw [List.getElem?_set, if_neg (by omega), h3 k hk]

theorem initialised_map (l : List ℝ) : initialised (l.map some) = .ok l := by
  induction l with
  | nil => rfl
  | cons x l ih =>
    have : initialised ((x :: l).map some) = (initialised (l.map some)).bind fun l => .ok (x :: l) := rfl
    rw [this, ih]; rfl

/-- An array whose cells are all known. -/
theorem eq_map_some {a : List (Option ℝ)} {n : ℕ} (f : ℕ → ℝ) (hl : a.length = n)
    (h : ∀ i, i < n → a[i]? = some (some (f i))) : a = ((List.range n).map f).map some := by
  apply List.ext_getElem?
  intro i
  by_cases hi : i < n
  · rw [h i hi]; simp [hi]
  · rw [List.getElem?_eq_none (by omega)]; simp [hi]

/-- The data transformed by `ComputeFFT1D`: the input, then a ramp from its last to its first
value. -/
noncomputable def padded (vin : List ℝ) (pad : ℕ) (i : ℕ) : ℝ :=
  if i < vin.length then vin.getD i 0
  else if pad = 1 then vin.getD 0 0
  else
    let t : ℝ := ((i - vin.length : ℕ) : ℝ) / ((pad : ℝ) - 1)
    vin.getD 0 0 * t + (1 - t) * vin.getD (vin.length - 1) 0

theorem rd_getD {a : List ℝ} {i : ℕ} (h : i < a.length) : rd a i = .ok (a.getD i 0) := by
  rw [rd_ok h]; simp [List.getD_eq_getElem?_getD, h]

theorem addPadding_sat (vin : List ℝ) (hv : 0 < vin.length) (v : List (Option ℝ)) (pad : ℕ)
    (s : ℝ) (hl : v.length = vin.length + pad)
    (hin : ∀ i, i < vin.length → v[i]? = some (some (s * vin.getD i 0))) :
    (addPadding vin v pad vin.length s).Sat fun b =>
      b = ((List.range (vin.length + pad)).map fun i => s * padded vin pad i).map some := by
  have key : (addPadding vin v pad vin.length s).Sat fun b => b.length = v.length ∧
      (∀ i, i < pad → b[vin.length + i]? = some (some (s * padded vin pad (vin.length + i)))) ∧
      ∀ i : ℕ, i < vin.length ∨ vin.length + pad ≤ i → b[i]? = v[i]? := by
    unfold addPadding
    simp only [Res.monad_bind_eq]
    rw [rd_getD hv, Res.bind_ok]
    by_cases hp : pad = 1
    · subst hp
      rw [if_pos rfl, wr_ok (by omega), Res.sat_ok]
      refine ⟨by simp, fun i hi => ?_, fun i hi => ?_⟩
      · obtain rfl : i = 0 := by omega
        rw [List.getElem?_set, if_pos (by omega), if_pos (by omega)]
        simp [padded]
      · rw [List.getElem?_set, if_neg (by omega)]
    · rw [if_neg hp]
      refine fill_sat (fun i => some (s * padded vin pad (vin.length + i))) vin.length pad v hl.ge _ ?_
      intro i b hi
      rw [rd_getD (a := vin) (i := vin.length - 1) (by omega), Res.bind_ok]
      simp [padded, hp]
  refine key.mono ?_
  rintro b ⟨h1, h2, h3⟩
  refine eq_map_some _ (h1.trans hl) fun i hi => ?_
  by_cases h : i < vin.length
  · rw [h3 i (Or.inl h), hin i h]; simp [padded, h]
  · obtain ⟨j, rfl⟩ : ∃ j, i = vin.length + j := ⟨i - vin.length, by omega⟩
    exact h2 j (by omega)

/-- Scale factor of `ComputeFFT1D`. -/
noncomputable def fwdScale1 (sf : Bool) (n : ℕ) : ℝ := if sf then 1.0 / Real.sqrt (1.0 * n) else 1.0

/-- The result of `ComputeFFT1D`: the first half is the transform, the second half repeats it
backwards, without conjugation. -/
theorem computeFFT1D_sat {F : Fftw} (hF : F.Laws) (p : Platform) (vin : List ℝ) (vout : List ℂ)
    (sf : Bool) (minPad : ℤ) (pad : ℕ) (hv : 0 < vin.length)
    (hpad : padSize1D p vin.length minPad = .ok pad) (htot : vin.length + pad < 2 ^ 31) :
    (computeFFT1D F p vin vout sf minPad).Sat fun z => z.length = vin.length + pad ∧
      (∀ k, k < (vin.length + pad) / 2 + 1 → z[k]? = some (dft1 (vin.length + pad)
        (fun x => ((fwdScale1 sf (vin.length + pad) * padded vin pad x : ℝ) : ℂ)) k)) ∧
      ∀ k, 1 ≤ k → k < (vin.length + pad) / 2 + 1 → z[vin.length + pad - k]? =
        some (dft1 (vin.length + pad)
        (fun x => ((fwdScale1 sf (vin.length + pad) * padded vin pad x : ℝ) : ℂ)) k) := by
  set n := vin.length + pad with hn
  have hn0 : 0 < n := by omega
  unfold computeFFT1D
  rw [if_neg (by omega)]
  simp only [Res.monad_bind_eq]
  rw [hpad, Res.bind_ok, ← hn]
  set s := fwdScale1 sf n with hs
  have e : (if sf = true then 1.0 / Real.sqrt (1.0 * (n : ℝ)) else 1.0) = s := rfl
  rw [e]
  have h1 := fill_sat (fun i => some (s * vin.getD i 0)) 0 vin.length (uninit n)
    (by simp [uninit]; omega)
    (fun i a => (rd vin i).bind fun x => wr a i (some (s * x))) (by
      intro i b hi
      simp only [rd_getD hi, Res.bind_ok, zero_add])
  refine h1.bind ?_
  rintro a ⟨ha1, ha2, -⟩
  refine (addPadding_sat vin hv a pad s (by rw [ha1]; simp [uninit, hn])
    (fun i hi => by simpa using ha2 i hi)).bind ?_
  rintro b rfl
  rw [planSize_ok htot, Res.bind_ok, initialised_map, Res.bind_ok, ← hn]
  set r := (List.range n).map fun i => s * padded vin pad i with hr
  have hrl : r.length = n := by simp [hr]
  have hcl := hF.r2c1_length n r hn0 hrl
  have hcv : ∀ k, k < n / 2 + 1 → (F.r2c1 n r)[k]? = some (dft1 n
      (fun x => ((s * padded vin pad x : ℝ) : ℂ)) k) := by
    intro k hk
    rw [hF.r2c1_value n r hn0 hrl k hk]
    congr 1
    refine Finset.sum_congr rfl fun x hx => ?_
    rw [mem_range] at hx
    simp [hr, hx, List.getD_eq_getElem?_getD]
  generalize F.r2c1 n r = c at hcl hcv
  rw [rd_eq_ok.2 (hcv 0 (by omega)), Res.bind_ok]
  have hvl : (vout.take n ++ List.replicate (n - vout.length) (0 : ℂ)).length = n := by
    simp; omega
  generalize vout.take n ++ List.replicate (n - vout.length) (0 : ℂ) = vo at hvl
  rw [wr_ok (by omega), Res.bind_ok]
  have main := forRange_sat (lo := 1) (hi := n / 2 + 1)
    (s := vo.set 0 (dft1 n (fun x => ((s * padded vin pad x : ℝ) : ℂ)) 0))
    (body := fun i vout => (rd c i).bind fun c => (wr vout i c).bind fun vout => wr vout (n - i) c)
    (fun i (z : List ℂ) => z.length = n ∧
      (∀ k, k < i → z[k]? = some (dft1 n (fun x => ((s * padded vin pad x : ℝ) : ℂ)) k)) ∧
      ∀ k, 1 ≤ k → k < i → z[n - k]? =
        some (dft1 n (fun x => ((s * padded vin pad x : ℝ) : ℂ)) k)) (by omega)
    ⟨by simpa using hvl, fun k hk => by
      obtain rfl : k = 0 := by omega
      rw [List.getElem?_set, if_pos rfl, if_pos (by omega)], by intros; omega⟩ ?_
  · exact main
  · rintro i z hi1 hi2 ⟨h1, h2, h3⟩
    have hik : i ≤ n / 2 := by omega
    rw [rd_eq_ok.2 (hcv i hi2), Res.bind_ok, wr_ok (by omega), Res.bind_ok,
      wr_ok (by rw [List.length_set]; omega), Res.sat_ok]
    refine ⟨by simpa using h1, fun k hk => ?_, fun k hk1 hk => ?_⟩
    · rw [List.getElem?_set, List.getElem?_set, List.length_set]
      by_cases hki : k = i
      · subst hki
        rw [if_pos (rfl : k = k), if_pos (show k < z.length by omega)]
        split_ifs with g1 g2
        · rfl
        · omega
        · rfl
      · rw [if_neg (by omega), if_neg (by omega), h2 k (by omega)]
    · rw [List.getElem?_set, List.getElem?_set, List.length_set]
      by_cases hki : k = i
      · subst hki
        rw [if_pos rfl, if_pos (by omega)]
      · rw [if_neg (by omega), if_neg (by omega), h3 k hk1 (by omega)]

theorem padSize1D_zero (p : Platform) (n : ℕ) : padSize1D p n 0 = .ok 0 := by
  simp [padSize1D]

/-- Scale factor of `ComputeFFTInv1D`. -/
noncomputable def invScale1 (sf : Bool) (n : ℕ) : ℝ :=
  if sf then 1.0 / Real.sqrt (1.0 * n) else 1.0 / n

theorem scales1_mul (sf : Bool) {n : ℕ} (hn : 0 < n) : fwdScale1 sf n * invScale1 sf n * n = 1 := by
  have := scales_mul sf hn
  have e1 : fwdScale sf n = fwdScale1 sf n := by
    cases sf
    · simp only [fwdScale, fwdScale1, Bool.false_eq_true, if_false]; norm_num
    · rfl
  have e2 : invScale sf n = invScale1 sf n := by
    cases sf <;> rfl
  rwa [e1, e2] at this

/-- The result of `ComputeFFTInv1D` if the first half of the input belongs to a Hermitian
periodic spectrum. -/
theorem computeFFTInv1D_sat {F : Fftw} (hF : F.Laws) (z : List ℂ) (out : List ℝ) (sf : Bool)
    (hz : 0 < z.length) (hz' : z.length < 2 ^ 31) (ho : out.length ≤ z.length) (Z : ℤ → ℂ)
    (hper : ∀ k l, (cyc z.length hz).per (k - l) → Z k = Z l) (hherm : ∀ k, Z (-k) = conj (Z k))
    (hval : ∀ k : ℕ, k < z.length / 2 + 1 → z[k]? = some (Z k)) :
    (computeFFTInv1D F z out sf).Sat fun b => b.length = out.length ∧
      ∀ i : ℕ, i < out.length →
        b[i]? = some (((cyc z.length hz).idft Z i).re * invScale1 sf z.length) := by
  set n := z.length with hn
  unfold computeFFTInv1D
  rw [if_neg (by omega)]
  simp only [Res.monad_bind_eq]
  rw [planSize_ok (by omega), Res.bind_ok]
  have hl := hF.c2r1_length n z hz (by omega)
  have hv : ∀ x, x < n → (F.c2r1 n z).1[x]? = some ((cyc n hz).idft Z x).re := by
    intro x hx
    obtain ⟨r, hr, e⟩ := hF.c2r1_value n z (fun k => Z k) hz (by omega) (by
      intro k hk
      rw [← hherm]
      exact hper _ _ (opp_cast hz k hk)) hval x hx
    rw [cyc_idft, ← e, hr, Complex.ofReal_re]
  have := fill_sat (fun i => ((cyc n hz).idft Z i).re * invScale1 sf n) 0 out.length out (by omega)
    (fun i vout => (rd (F.c2r1 n z).1 i).bind fun x => wr vout i (x * invScale1 sf n)) (by
      intro i b hi
      rw [rd_eq_ok.2 (hv i (by omega)), Res.bind_ok, zero_add])
  refine this.mono ?_
  rintro b ⟨h1, h2, -⟩
  exact ⟨h1, fun i hi => by simpa using h2 i hi⟩

end Verif
