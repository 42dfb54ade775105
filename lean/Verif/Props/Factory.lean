import Verif.Props.Variogram

/-!
# C21, C22: the variogram factory
-/

namespace Verif

open Spec Variogram

/-- The documented names (src/gaussfftinterface.cpp lines 62-64, gaussianfft/__init__.py). -/
def documentedNames : List (String × VType) :=
  [("gaussian", .gaussian), ("exponential", .exponential),
   ("general_exponential", .generalExponential), ("spherical", .spherical),
   ("matern32", .matern32), ("matern52", .matern52), ("matern72", .matern72),
   ("constant", .constant)]

/-- A string of 7-bit characters. -/
def IsAscii (s : List Char) : Prop := ∀ c ∈ s, c.toNat < 128

/-- Spelling up to letter case, with the lower-casing of Lean's library. -/
def SameIgnoringCase (s : List Char) (name : String) : Prop := s.map Char.toLower = name.toList

/-- Upper-casing of one ASCII character. -/
def upAscii (c : Char) : Char := if 'a' ≤ c ∧ c ≤ 'z' then Char.ofNat (c.toNat - 32) else c

theorem ascii_cases (P : Char → Prop) (h : ∀ n : Fin 128, P (Char.ofNat n)) (c : Char)
    (hc : c.toNat < 128) : P c := by
  have := h ⟨c.toNat, hc⟩
  simpa using this

theorem lower_up (c : Char) (hc : c.toNat < 128) : (upAscii c).toLower = c.toLower :=
  ascii_cases (fun c => (upAscii c).toLower = c.toLower) (by decide +kernel) c hc

theorem up_lower (c : Char) (hc : c.toNat < 128) : upAscii c.toLower = upAscii c :=
  ascii_cases (fun c => upAscii c.toLower = upAscii c) (by decide +kernel) c hc

theorem uppercase_ascii {s : List Char} (hs : IsAscii s) : uppercase s = .ok (s.map upAscii) := by
  induction s with
  | nil => rfl
  | cons c cs ih =>
    have hc : c.toNat < 128 := hs c (by simp)
    have hcs : IsAscii cs := fun d hd => hs d (by simp [hd])
    have : toUpperByte c = .ok (upAscii c) := by
      unfold toUpperByte upAscii
      rw [if_neg (by omega)]
      split <;> rfl
    simp [uppercase, this, ih hcs]

theorem upper_eq_iff {s : List Char} (hs : IsAscii s) (name upper : String)
    (h1 : name.toList.map upAscii = upper.toList) (h2 : upper.toList.map Char.toLower = name.toList) :
    s.map upAscii = upper.toList ↔ SameIgnoringCase s name := by
  unfold SameIgnoringCase
  constructor
  · intro h
    rw [← h2, ← h, List.map_map]
    apply List.map_congr_left
    intro c hc
    exact (lower_up c (hs c hc)).symm
  · intro h
    rw [← h1, ← h, List.map_map]
    apply List.map_congr_left
    intro c hc
    exact (up_lower c (hs c hc)).symm

/-- The type selected by the factory for an ASCII string. -/
theorem createVariogram_type {s : List Char} (hs : IsAscii s) {rx ry rz az dp p : ℝ} {v : Variogram}
    (h : createVariogram s rx ry rz az dp p = .ok v) :
    v.type = typeOfUpper (s.map upAscii) := by
  simp only [createVariogram, uppercase_ascii hs, Res.monad_bind_eq, Res.bind_ok] at h
  exact (create_fields h).1

theorem typeOfUpper_iff {s : List Char} (hs : IsAscii s) :
    (∀ name t, (name, t) ∈ documentedNames → SameIgnoringCase s name →
      typeOfUpper (s.map upAscii) = t) ∧
    ((∀ name t, (name, t) ∈ documentedNames → ¬ SameIgnoringCase s name) →
      typeOfUpper (s.map upAscii) = .spherical) := by
  have c1 := upper_eq_iff hs "constant" "CONSTANT" (by decide +kernel) (by decide +kernel)
  have c2 := upper_eq_iff hs "exponential" "EXPONENTIAL" (by decide +kernel) (by decide +kernel)
  have c3 := upper_eq_iff hs "gaussian" "GAUSSIAN" (by decide +kernel) (by decide +kernel)
  have c4 := upper_eq_iff hs "general_exponential" "GENERAL_EXPONENTIAL" (by decide +kernel)
    (by decide +kernel)
  have c5 := upper_eq_iff hs "matern32" "MATERN32" (by decide +kernel) (by decide +kernel)
  have c6 := upper_eq_iff hs "matern52" "MATERN52" (by decide +kernel) (by decide +kernel)
  have c7 := upper_eq_iff hs "matern72" "MATERN72" (by decide +kernel) (by decide +kernel)
  have c8 := upper_eq_iff hs "spherical" "SPHERICAL" (by decide +kernel) (by decide +kernel)
  constructor
  · intro name t hmem hsame
    simp only [documentedNames, List.mem_cons, Prod.mk.injEq, List.not_mem_nil, or_false] at hmem
    rcases hmem with ⟨rfl, rfl⟩ | ⟨rfl, rfl⟩ | ⟨rfl, rfl⟩ | ⟨rfl, rfl⟩ | ⟨rfl, rfl⟩ | ⟨rfl, rfl⟩ |
      ⟨rfl, rfl⟩ | ⟨rfl, rfl⟩
    · rw [c3.2 hsame]; decide +kernel
    · rw [c2.2 hsame]; decide +kernel
    · rw [c4.2 hsame]; decide +kernel
    · rw [c8.2 hsame]; decide +kernel
    · rw [c5.2 hsame]; decide +kernel
    · rw [c6.2 hsame]; decide +kernel
    · rw [c7.2 hsame]; decide +kernel
    · rw [c1.2 hsame]; decide +kernel
  · intro hno
    unfold typeOfUpper
    rw [if_neg (fun h => hno "constant" .constant (by simp [documentedNames]) (c1.1 h)),
      if_neg (fun h => hno "exponential" .exponential (by simp [documentedNames]) (c2.1 h)),
      if_neg (fun h => hno "gaussian" .gaussian (by simp [documentedNames]) (c3.1 h)),
      if_neg (fun h => hno "general_exponential" .generalExponential (by simp [documentedNames])
        (c4.1 h)),
      if_neg (fun h => hno "matern32" .matern32 (by simp [documentedNames]) (c5.1 h)),
      if_neg (fun h => hno "matern52" .matern52 (by simp [documentedNames]) (c6.1 h)),
      if_neg (fun h => hno "matern72" .matern72 (by simp [documentedNames]) (c7.1 h))]
    split <;> rfl

/-- **C22.** A documented name in any capitalisation selects its type; the eight types are
distinct; every other ASCII string selects spherical.
Partial: strings with bytes of 128 or more call `toupper` with a negative argument, which the
C++ standard leaves undefined (`createVariogram_nonAscii_ub`). -/
theorem createVariogram_names_partial {s : List Char} (hs : IsAscii s) {rx ry rz az dp p : ℝ}
    {v : Variogram} (h : createVariogram s rx ry rz az dp p = .ok v) :
    (∀ name t, (name, t) ∈ documentedNames → SameIgnoringCase s name → v.type = t) ∧
    ((∀ name t, (name, t) ∈ documentedNames → ¬ SameIgnoringCase s name) → v.type = .spherical) ∧
    (documentedNames.map Prod.snd).Nodup := by
  rw [createVariogram_type hs h]
  exact ⟨(typeOfUpper_iff hs).1, (typeOfUpper_iff hs).2, by decide⟩

/-- Mixed case meets the hypotheses. -/
example : IsAscii "Matern52".toList ∧ SameIgnoringCase "Matern52".toList "matern52" ∧
    ("matern52", VType.matern52) ∈ documentedNames := by
  refine ⟨?_, by unfold SameIgnoringCase; decide +kernel, by simp [documentedNames]⟩
  unfold IsAscii
  decide +kernel

/-- A non-ASCII byte is undefined behaviour in `toupper`. -/
theorem createVariogram_nonAscii_ub {s : List Char} (hs : ¬ IsAscii s) (rx ry rz az dp p : ℝ) :
    createVariogram s rx ry rz az dp p = .ub "toupper of a negative char" := by
  have hu : uppercase s = .ub "toupper of a negative char" := by
    induction s with
    | nil => exact absurd (fun c hc => by simp at hc) hs
    | cons c cs ih =>
      by_cases hc : c.toNat < 128
      · have hcs : ¬ IsAscii cs := by
          intro h
          apply hs
          intro d hd
          rcases List.mem_cons.1 hd with rfl | hd
          · exact hc
          · exact h d hd
        have hb : ∃ u, toUpperByte c = .ok u := by
          unfold toUpperByte
          rw [if_neg (by omega)]
          split <;> exact ⟨_, rfl⟩
        obtain ⟨u, hu⟩ := hb
        simp [uppercase, hu, ih hcs]
      · have : toUpperByte c = .ub "toupper of a negative char" := by
          unfold toUpperByte
          rw [if_pos (by omega)]
        simp [uppercase, this]
  simp [createVariogram, hu]

/-- **C21.** Ranges, angles, sill and correlation of a factory-made variogram: a negative
perpendicular or depth range means "same as the main range", angles are in degrees, the sill is
one, and the correlation is the documented model in the rotated frame. -/
theorem createVariogram_params {s : List Char} (hs : IsAscii s) (rx ry rz az dp p : ℝ)
    (hx : rx ≠ 0) (hy : ry ≠ 0) (hz : rz ≠ 0) :
    ∃ v, createVariogram s rx ry rz az dp p = .ok v ∧
      v.rangeX = rx ∧ v.rangeY = (if ry < 0 then rx else ry) ∧
      v.rangeZ = (if rz < 0 then rx else rz) ∧ v.azimuth = az * (Real.pi / 180) ∧
      v.dip = dp * (Real.pi / 180) ∧ v.power = p ∧ v.var = 1 ∧
      ∀ x y z, v.corr3 x y z = corr1D v.type p (normDist rx (if ry < 0 then rx else ry)
        (if rz < 0 then rx else rz) (az * (Real.pi / 180)) (dp * (Real.pi / 180)) ⟨x, y, z⟩) := by
  have z0 : (0.0 : ℝ) = 0 := by norm_num
  have hy' : (if ry < 0 then rx else ry) ≠ 0 := by split <;> assumption
  have hz' : (if rz < 0 then rx else rz) ≠ 0 := by split <;> assumption
  obtain ⟨v, hv⟩ := (create_ok_iff (t := typeOfUpper (s.map upAscii)) (p := p) (rx := rx)
    (az := az * degree) (dp := dp * degree) (sd := 1.0)).2 ⟨hx, hy', hz'⟩
  refine ⟨v, ?_, ?_⟩
  · simp only [createVariogram, uppercase_ascii hs, Res.monad_bind_eq, Res.bind_ok, z0]
    exact hv
  · obtain ⟨f1, f2, f3, f4, f5, f6, f7, f8⟩ := create_fields hv
    refine ⟨f3, f4, f5, f6, f7, f2, by rw [f8]; norm_num, fun x y z => ?_⟩
    rw [corr3_eq_normDist hv, f1]
    rfl

/-- The defaults of the Python binding: one range given, isotropic, no rotation, power 1.5. -/
theorem createVariogramDefault_params {s : List Char} (hs : IsAscii s) (r : ℝ) (hr : 0 < r) :
    ∃ v, createVariogramDefault s r = .ok v ∧
      ∀ x y z, v.corr3 x y z = corr1D v.type 1.5 (√(x ^ 2 + y ^ 2 + z ^ 2) / r) := by
  have z0 : (0.0 : ℝ) = 0 := by norm_num
  obtain ⟨v, hv⟩ := (create_ok_iff (t := typeOfUpper (s.map upAscii)) (p := 1.5) (rx := r)
    (ry := r) (rz := r) (az := 0.0 * degree) (dp := 0.0 * degree) (sd := 1.0)).2
    ⟨hr.ne', hr.ne', hr.ne'⟩
  refine ⟨v, ?_, fun x y z => ?_⟩
  · simp only [createVariogramDefault, createVariogram, uppercase_ascii hs, Res.monad_bind_eq,
      Res.bind_ok]
    rw [if_pos (by norm_num)]
    exact hv
  · rw [corr_isotropic hr hv, (create_fields hv).1]

/-- **C21 refuted for zero.** The documentation says a zero perpendicular (or depth) range means
"same as main_range"; the code only replaces negative values, and zero leads to division by
zero. -/
theorem createVariogram_zero_range_refuted {s : List Char} (hs : IsAscii s) (rx rz az dp p : ℝ) :
    createVariogram s rx 0 rz az dp p = .nonfinite "1/0 in EstimateFactors" := by
  simp only [createVariogram, uppercase_ascii hs, Res.monad_bind_eq, Res.bind_ok]
  norm_num [Variogram.create, estimateFactors]

/-- Nothing stops a negative main range: it is stored as given. -/
theorem createVariogram_negative_range {s : List Char} (hs : IsAscii s) (r : ℝ) (hr : r < 0) :
    ∃ v, createVariogram s r r r 0 0 1.5 = .ok v ∧ v.rangeX < 0 := by
  obtain ⟨v, hv, h1, -⟩ := createVariogram_params hs r r r 0 0 1.5 hr.ne hr.ne hr.ne
  exact ⟨v, hv, h1 ▸ hr⟩

end Verif
