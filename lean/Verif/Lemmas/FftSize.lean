import Verif.Lemmas.Outcome
import Verif.Model.FftSize
import Verif.Lemmas.Ieee
import Verif.Spec.Smooth
import Mathlib.Data.Nat.Log
import Mathlib.Order.Bounds.Defs
import Mathlib.Analysis.SpecialFunctions.Pow.Real
import Mathlib.Analysis.Complex.ExponentialBounds
import Mathlib.Data.Nat.Prime.Basic
import Mathlib.Tactic.IntervalCases
import Mathlib.Tactic.Linarith
import Mathlib.Tactic.Ring

/-! Lemmas about the FFT size search. -/

namespace Verif

open Spec

theorem smooth7_of_exps (i j k l : ℕ) : Smooth7 (2 ^ i * 3 ^ j * 5 ^ k * 7 ^ l) := by
  refine ⟨by positivity, ?_⟩
  intro p hp hd
  rcases (Nat.Prime.dvd_mul hp).1 hd with h | h
  · rcases (Nat.Prime.dvd_mul hp).1 h with h | h
    · rcases (Nat.Prime.dvd_mul hp).1 h with h | h
      · have := Nat.le_of_dvd (by norm_num) (hp.dvd_of_dvd_pow h); omega
      · have := Nat.le_of_dvd (by norm_num) (hp.dvd_of_dvd_pow h); omega
    · have := Nat.le_of_dvd (by norm_num) (hp.dvd_of_dvd_pow h); omega
  · have := Nat.le_of_dvd (by norm_num) (hp.dvd_of_dvd_pow h); omega

theorem exps_of_smooth7 : ∀ (m : ℕ), Smooth7 m →
    ∃ i j k l, m = 2 ^ i * 3 ^ j * 5 ^ k * 7 ^ l := by
  intro m
  induction m using Nat.strong_induction_on with
  | _ m ih =>
    rintro ⟨h0, hp⟩
    by_cases h1 : m = 1
    · exact ⟨0, 0, 0, 0, by simp [h1]⟩
    · obtain ⟨p, hpp, hd⟩ := Nat.exists_prime_and_dvd h1
      have hp7 := hp p hpp hd
      obtain ⟨q, rfl⟩ := hd
      have hq0 : q ≠ 0 := by rintro rfl; simp at h0
      have hqlt : q < p * q := by
        have := hpp.two_le
        nlinarith [Nat.pos_of_ne_zero hq0]
      obtain ⟨i, j, k, l, hq⟩ := ih q hqlt
        ⟨hq0, fun r hr hd => hp r hr (Dvd.dvd.mul_left hd p)⟩
      have h2 := hpp.two_le
      interval_cases p
      · exact ⟨i + 1, j, k, l, by rw [hq]; ring⟩
      · exact ⟨i, j + 1, k, l, by rw [hq]; ring⟩
      · exact absurd hpp (by decide)
      · exact ⟨i, j, k + 1, l, by rw [hq]; ring⟩
      · exact absurd hpp (by decide)
      · exact ⟨i, j, k, l + 1, by rw [hq]; ring⟩

/-! ### Rounded products -/

/-- A double that holds the natural number exactly up to 2^53, stays on the same side of 2^53 beyond, and is
off by at most a factor `e` then. -/
structure Holds (e : ℕ) (x : ℝ) (X : ℕ) : Prop where
  pos : 1 ≤ X
  exact : X ≤ 2 ^ 53 → x = X
  big : 2 ^ 53 < X → 2 ^ 53 ≤ x
  upper : x ≤ X * (1 + 2⁻¹ ^ 53) ^ e
  lower : X * (1 - 2⁻¹ ^ 53) ^ e ≤ x

theorem Holds.one_le {e : ℕ} {x : ℝ} {X : ℕ} (h : Holds e x X) : 1 ≤ x := by
  rcases le_or_gt X (2 ^ 53) with hX | hX
  · rw [h.exact hX]
    exact_mod_cast h.pos
  · exact le_trans (by norm_num) (h.big hX)

theorem holds_rnd {e : ℕ} {x : ℝ} {X : ℕ} (hX : 1 ≤ X) (hx : 1 ≤ x) (he : X ≤ 2 ^ 53 → x = X)
    (hb : 2 ^ 53 < X → 2 ^ 53 ≤ x) (hu : x ≤ X * (1 + 2⁻¹ ^ 53) ^ e) (hl : X * (1 - 2⁻¹ ^ 53) ^ e ≤ x) :
    Holds (e + 1) (rnd64 x) X := by
  have hs : (2⁻¹ : ℝ) ^ 1000 ≤ x := le_trans (pow_le_one₀ (by norm_num) (by norm_num)) hx
  refine ⟨hX, fun h => ?_, fun h => ?_, ?_, ?_⟩
  · rw [he h]
    exact rnd64_nat h
  · have h1 := rnd64_mono (hb h)
    have h2 : rnd64 (2 ^ 53) = 2 ^ 53 := by
      have := rnd64_nat (n := 2 ^ 53) le_rfl
      exact_mod_cast this
    rwa [h2] at h1
  · refine (rnd64_le hs).trans ?_
    rw [pow_succ _ e, ← mul_assoc]
    exact mul_le_mul_of_nonneg_right hu (by norm_num)
  · refine le_trans ?_ (le_rnd64 hs)
    rw [pow_succ _ e, ← mul_assoc]
    exact mul_le_mul_of_nonneg_right hl (by norm_num)

theorem holds_powf {P : ℕ} (hP : 1 ≤ P) (k : ℕ) : Holds 1 (powf P k) (P ^ k) := by
  have h1 : 1 ≤ P ^ k := Nat.one_le_pow _ _ hP
  have h1' : (1 : ℝ) ≤ (P : ℝ) ^ k := by exact_mod_cast h1
  unfold powf
  exact holds_rnd (e := 0) h1 h1' (fun _ => by push_cast; rfl) (fun h => by exact_mod_cast h.le)
    (by push_cast; simp) (by push_cast; simp)

theorem Holds.mul {e f : ℕ} {x y : ℝ} {X Y : ℕ} (hx : Holds e x X) (hy : Holds f y Y) :
    Holds (e + f + 1) (rnd64 (x * y)) (X * Y) := by
  have x1 := hx.one_le
  have y1 := hy.one_le
  refine holds_rnd (Nat.mul_pos hx.pos hy.pos) (by nlinarith) (fun h => ?_) (fun h => ?_) ?_ ?_
  · rw [hx.exact (le_trans (Nat.le_mul_of_pos_right _ hy.pos) h),
      hy.exact (le_trans (Nat.le_mul_of_pos_left _ hx.pos) h)]
    push_cast
    rfl
  · rcases le_or_gt X (2 ^ 53) with hX | hX
    · rcases le_or_gt Y (2 ^ 53) with hY | hY
      · rw [hx.exact hX, hy.exact hY]
        exact_mod_cast h.le
      · have := hy.big hY
        nlinarith
    · have := hx.big hX
      nlinarith
  · have := mul_le_mul hx.upper hy.upper (by linarith) (by positivity)
    refine this.trans (le_of_eq ?_)
    push_cast
    ring
  · have hc : (0 : ℝ) ≤ 1 - 2⁻¹ ^ 53 := by norm_num
    have := mul_le_mul hx.lower hy.lower (by positivity) (by linarith)
    refine le_trans (le_of_eq ?_) this
    push_cast
    ring

/-- The product as computed (fft.cpp lines 74-75). -/
noncomputable def factorD (i j k l : ℕ) : ℝ :=
  rnd64 (rnd64 (rnd64 (rnd64 (rnd64 (powf 2 i * powf 3 j) * powf 5 k) * powf 7 l) * powf 11 0) * powf 13 0)

theorem holds_factorD (i j k l : ℕ) : Holds 11 (factorD i j k l) (2 ^ i * 3 ^ j * 5 ^ k * 7 ^ l) := by
  have h := (((((holds_powf (P := 2) (by norm_num) i).mul (holds_powf (P := 3) (by norm_num) j)).mul
    (holds_powf (P := 5) (by norm_num) k)).mul (holds_powf (P := 7) (by norm_num) l)).mul
    (holds_powf (P := 11) (by norm_num) 0)).mul (holds_powf (P := 13) (by norm_num) 0)
  simpa [factorD] using h

theorem factorD_exact {i j k l : ℕ} (h : 2 ^ i * 3 ^ j * 5 ^ k * 7 ^ l ≤ 2 ^ 53) :
    factorD i j k l = ((2 ^ i * 3 ^ j * 5 ^ k * 7 ^ l : ℕ) : ℝ) := (holds_factorD i j k l).exact h

theorem factorD_big {i j k l : ℕ} (h : 2 ^ 53 < 2 ^ i * 3 ^ j * 5 ^ k * 7 ^ l) :
    2 ^ 53 ≤ factorD i j k l := (holds_factorD i j k l).big h

theorem factorD_lt {i j k l : ℕ} (h : 2 ^ i * 3 ^ j * 5 ^ k * 7 ^ l ≤ 2 ^ 62) :
    factorD i j k l < 2 ^ 64 := by
  have h1 := (holds_factorD i j k l).upper
  have h2 : ((2 ^ i * 3 ^ j * 5 ^ k * 7 ^ l : ℕ) : ℝ) ≤ 2 ^ 62 := by exact_mod_cast h
  have h3 : ((1 : ℝ) + 2⁻¹ ^ 53) ^ 11 ≤ 2 := by norm_num
  have := mul_le_mul h2 h3 (by positivity) (by positivity)
  linarith

theorem factorD_ge {i j k l : ℕ} (h : 2 ^ 65 ≤ 2 ^ i * 3 ^ j * 5 ^ k * 7 ^ l) :
    2 ^ 64 ≤ factorD i j k l := by
  have h1 := (holds_factorD i j k l).lower
  have h2 : (2 : ℝ) ^ 65 ≤ ((2 ^ i * 3 ^ j * 5 ^ k * 7 ^ l : ℕ) : ℝ) := by exact_mod_cast h
  have h3 : (1 / 2 : ℝ) ≤ (1 - 2⁻¹ ^ 53) ^ 11 := by norm_num
  have := mul_le_mul h2 h3 (by norm_num) (by positivity)
  linarith

theorem powf_exact {P k : ℕ} (hP : 1 ≤ P) (h : P ^ k ≤ 2 ^ 53) : powf P k = ((P ^ k : ℕ) : ℝ) :=
  (holds_powf hP k).exact h

theorem toSizeT_nat (p : Platform) {n : ℕ} (h : n < 2 ^ 64) : toSizeT p n = .ok n := by
  unfold toSizeT
  rw [if_pos (by exact_mod_cast h), Nat.floor_natCast]

theorem toSizeT_powf (p : Platform) {a : ℕ} (h : 2 ^ a ≤ 2 ^ 53) : toSizeT p (powf 2 a) = .ok (2 ^ a) := by
  rw [powf_exact (by norm_num) h]
  exact toSizeT_nat p (lt_of_le_of_lt h (by norm_num))

/-- Conditions on the platform under which the search over the given exponents is meaningful. -/
def SearchFits (p : Platform) (a2 a3 a5 a7 minSize : ℕ) : Prop :=
  2 ^ a2 ≤ 2 ^ 53 ∧
    match p.overflow with
    | none => 2 ^ a2 * 3 ^ a3 * 5 ^ a5 * 7 ^ a7 ≤ 2 ^ 62
    | some v => ¬ (minSize ≤ v ∧ v < 2 ^ a2)

section search
variable (p : Platform) (a2 a3 a5 a7 minSize : ℕ) (ev : Bool)

/-- The innermost assignment (fft.cpp lines 74-78). -/
noncomputable def sizeStep (i j k l closest : ℕ) : Res ℕ :=
  (toSizeT p (factorD i j k l)).bind fun factor =>
    if factor ≥ minSize ∧ factor < closest then .ok factor else .ok closest

theorem findNewSizeWith_eq :
    findNewSizeWith p a2 a3 a5 a7 minSize ev =
      (toSizeT p (powf 2 a2)).bind fun c0 =>
        forRange (if ev then 1 else 0) (a2 + 1) (fun i c =>
          forRange 0 (a3 + 1) (fun j c =>
            forRange 0 (a5 + 1) (fun k c =>
              forRange 0 (a7 + 1) (fun l c => sizeStep p minSize i j k l c) c) c) c) c0 := by
  have hstep : ∀ i j k l c : ℕ, (forRange 0 (0 + 1) (fun m closestprod =>
            forRange 0 (0 + 1) (fun n closestprod => (do
              let factor ← toSizeT p (rnd64 (rnd64 (rnd64 (rnd64 (rnd64 (powf 2 i * powf 3 j) * powf 5 k) *
                powf 7 l) * powf 11 m) * powf 13 n))
              if factor ≥ minSize ∧ factor < closestprod then
                (.ok factor : Res ℕ)
              else
                .ok closestprod)) closestprod) c) = sizeStep p minSize i j k l c := by
    intro i j k l c
    simp only [forRange, forN, sizeStep, Nat.sub_zero, Nat.zero_add, Res.monad_bind_eq]
    unfold factorD
    generalize toSizeT p (rnd64 (rnd64 (rnd64 (rnd64 (rnd64 (powf 2 i * powf 3 j) * powf 5 k) *
                powf 7 l) * powf 11 0) * powf 13 0)) = r
    cases r <;> simp
    split <;> simp
  simp only [findNewSizeWith, Res.monad_bind_eq]
  congr 1
  funext c0
  congr 1
  funext i c
  congr 1
  funext j c
  congr 1
  funext k c
  congr 1
  funext l c
  have := hstep i j k l c
  simpa only [Res.monad_bind_eq] using this

/-- Loop invariant: acceptable and no larger than the start value. -/
def SizeInv (c : ℕ) : Prop := Admissible minSize ev c ∧ c ≤ 2 ^ a2

variable {p a2 a3 a5 a7 minSize ev}

theorem sizeStep_inv (hf : SearchFits p a2 a3 a5 a7 minSize) {i j k l c : ℕ}
    (hi0 : (if ev then 1 else 0) ≤ i) (hi : i < a2 + 1) (hj : j < a3 + 1) (hk : k < a5 + 1)
    (hl : l < a7 + 1) (hc : SizeInv a2 minSize ev c) :
    (sizeStep p minSize i j k l c).Sat fun c' => SizeInv a2 minSize ev c' ∧ c' ≤ c ∧
      (minSize ≤ 2 ^ i * 3 ^ j * 5 ^ k * 7 ^ l → c' ≤ 2 ^ i * 3 ^ j * 5 ^ k * 7 ^ l) := by
  obtain ⟨hf1, hf2⟩ := hf
  have hc2 := hc.2
  unfold sizeStep
  by_cases hlt : 2 ^ i * 3 ^ j * 5 ^ k * 7 ^ l ≤ 2 ^ 53
  · rw [factorD_exact hlt, toSizeT_nat p (lt_of_le_of_lt hlt (by norm_num))]
    simp only [Res.bind_ok]
    split
    · next h =>
      refine ⟨_, rfl, ⟨⟨h.1, smooth7_of_exps i j k l, ?_⟩, h.2.le.trans hc.2⟩, h.2.le,
        fun _ => le_rfl⟩
      intro hev
      simp [hev] at hi0
      exact Dvd.dvd.mul_right (Dvd.dvd.mul_right (Dvd.dvd.mul_right
        (dvd_pow_self 2 (by omega)) _) _) _
    · next h =>
      refine ⟨_, rfl, hc, le_rfl, ?_⟩
      intro h1
      by_contra h2
      exact h ⟨h1, by omega⟩
  · have hbig := factorD_big (not_le.1 hlt)
    unfold toSizeT
    split
    · have h1 : 2 ^ 53 ≤ ⌊factorD i j k l⌋₊ := Nat.le_floor (by exact_mod_cast hbig)
      simp only [Res.bind_ok]
      rw [if_neg (by omega)]
      exact ⟨_, rfl, hc, le_rfl, fun _ => by omega⟩
    · next hge =>
      cases hov : p.overflow with
      | none =>
        exfalso
        rw [hov] at hf2
        simp only at hf2
        have h2 : 2 ^ i ≤ 2 ^ a2 := Nat.pow_le_pow_right (by norm_num) (by omega)
        have h3 : 3 ^ j ≤ 3 ^ a3 := Nat.pow_le_pow_right (by norm_num) (by omega)
        have h5 : 5 ^ k ≤ 5 ^ a5 := Nat.pow_le_pow_right (by norm_num) (by omega)
        have h7 : 7 ^ l ≤ 7 ^ a7 := Nat.pow_le_pow_right (by norm_num) (by omega)
        have := Nat.mul_le_mul (Nat.mul_le_mul (Nat.mul_le_mul h2 h3) h5) h7
        exact hge (factorD_lt (this.trans hf2))
      | some v =>
        rw [hov] at hf2
        simp only at hf2
        simp only [Res.bind_ok]
        rw [if_neg (by rintro ⟨h1, h2⟩; exact hf2 ⟨h1, by omega⟩)]
        exact ⟨_, rfl, hc, le_rfl, fun _ => by omega⟩

theorem findNewSizeWith_sat (hf : SearchFits p a2 a3 a5 a7 minSize) (hn : 1 ≤ minSize)
    (hev : ev = true → 1 ≤ a2)
    (h2 : minSize ≤ 2 ^ a2) (h3 : minSize ≤ 3 ^ a3) (h5 : minSize ≤ 5 ^ a5)
    (h7 : minSize ≤ 7 ^ a7) :
    (findNewSizeWith p a2 a3 a5 a7 minSize ev).Sat
      fun r => IsLeast {m | Admissible minSize ev m} r := by
  rw [findNewSizeWith_eq]
  have hc0 := toSizeT_powf p hf.1
  rw [hc0, Res.bind_ok]
  have hI0 : SizeInv a2 minSize ev (2 ^ a2) := by
    refine ⟨⟨h2, by simpa using smooth7_of_exps a2 0 0 0, fun h => ?_⟩, le_rfl⟩
    exact dvd_pow_self 2 (by have := hev h; omega)
  -- every admissible number within reach of the loops bounds the result
  have key : ∀ i j k l, (if ev then 1 else 0) ≤ i → i < a2 + 1 → j < a3 + 1 → k < a5 + 1 →
      l < a7 + 1 → minSize ≤ 2 ^ i * 3 ^ j * 5 ^ k * 7 ^ l →
      (forRange (if ev then 1 else 0) (a2 + 1) (fun i c =>
          forRange 0 (a3 + 1) (fun j c =>
            forRange 0 (a5 + 1) (fun k c =>
              forRange 0 (a7 + 1) (fun l c => sizeStep p minSize i j k l c) c) c) c) (2 ^ a2)).Sat
        fun c => SizeInv a2 minSize ev c ∧ c ≤ 2 ^ i * 3 ^ j * 5 ^ k * 7 ^ l := by
    intro i0 j0 k0 l0 hi00 hi0 hj0 hk0 hl0 hmin
    set M := 2 ^ i0 * 3 ^ j0 * 5 ^ k0 * 7 ^ l0 with hM
    have kl : ∀ (Q : ℕ → Prop), (∀ c c', c' ≤ c → Q c → Q c') →
        ∀ i j k c, (if ev then 1 else 0) ≤ i → i < a2 + 1 → j < a3 + 1 → k < a5 + 1 →
        SizeInv a2 minSize ev c → Q c →
        (forRange 0 (a7 + 1) (fun l c => sizeStep p minSize i j k l c) c).Sat
          fun c => SizeInv a2 minSize ev c ∧ Q c := by
      intro Q hQ i j k c g1 g2 g3 g4 hc hq
      refine forRange_inv (fun c => SizeInv a2 minSize ev c ∧ Q c) ⟨hc, hq⟩ ?_
      rintro l s - hl ⟨hs, hqs⟩
      exact (sizeStep_inv hf g1 g2 g3 g4 hl hs).mono fun c' h => ⟨h.1, hQ _ _ h.2.1 hqs⟩
    have kk : ∀ (Q : ℕ → Prop), (∀ c c', c' ≤ c → Q c → Q c') →
        ∀ i j c, (if ev then 1 else 0) ≤ i → i < a2 + 1 → j < a3 + 1 →
        SizeInv a2 minSize ev c → Q c →
        (forRange 0 (a5 + 1) (fun k c =>
              forRange 0 (a7 + 1) (fun l c => sizeStep p minSize i j k l c) c) c).Sat
          fun c => SizeInv a2 minSize ev c ∧ Q c := by
      intro Q hQ i j c g1 g2 g3 hc hq
      refine forRange_inv (fun c => SizeInv a2 minSize ev c ∧ Q c) ⟨hc, hq⟩ ?_
      rintro k s - hk ⟨hs, hqs⟩
      exact kl Q hQ i j k s g1 g2 g3 hk hs hqs
    have kj : ∀ (Q : ℕ → Prop), (∀ c c', c' ≤ c → Q c → Q c') →
        ∀ i c, (if ev then 1 else 0) ≤ i → i < a2 + 1 →
        SizeInv a2 minSize ev c → Q c →
        (forRange 0 (a3 + 1) (fun j c => forRange 0 (a5 + 1) (fun k c =>
              forRange 0 (a7 + 1) (fun l c => sizeStep p minSize i j k l c) c) c) c).Sat
          fun c => SizeInv a2 minSize ev c ∧ Q c := by
      intro Q hQ i c g1 g2 hc hq
      refine forRange_inv (fun c => SizeInv a2 minSize ev c ∧ Q c) ⟨hc, hq⟩ ?_
      rintro j s - hj ⟨hs, hqs⟩
      exact kk Q hQ i j s g1 g2 hj hs hqs
    have mono : ∀ c c' : ℕ, c' ≤ c → c ≤ M → c' ≤ M := fun c c' h h' => h.trans h'
    have triv : ∀ c c' : ℕ, c' ≤ c → True → True := fun _ _ _ h => h
    refine forRange_hit (SizeInv a2 minSize ev) (fun c => c ≤ M) i0 hi00 hi0 hI0 ?_ ?_ ?_
    · intro i s g1 g2 hs
      exact (kj (fun _ => True) triv i s g1 g2 hs trivial).mono fun _ h => h.1
    · intro i s g1 g2 hs hq
      exact kj _ mono i s g1 g2 hs hq
    · intro s hs
      refine forRange_hit (SizeInv a2 minSize ev) (fun c => c ≤ M) j0 (Nat.zero_le _) hj0 hs ?_ ?_ ?_
      · intro j s _ g2 hs
        exact (kk (fun _ => True) triv i0 j s hi00 hi0 g2 hs trivial).mono fun _ h => h.1
      · intro j s _ g2 hs hq
        exact kk _ mono i0 j s hi00 hi0 g2 hs hq
      · intro s hs
        refine forRange_hit (SizeInv a2 minSize ev) (fun c => c ≤ M) k0 (Nat.zero_le _) hk0 hs
          ?_ ?_ ?_
        · intro k s _ g2 hs
          exact (kl (fun _ => True) triv i0 j0 k s hi00 hi0 hj0 g2 hs trivial).mono fun _ h => h.1
        · intro k s _ g2 hs hq
          exact kl _ mono i0 j0 k s hi00 hi0 hj0 g2 hs hq
        · intro s hs
          refine forRange_hit (SizeInv a2 minSize ev) (fun c => c ≤ M) l0 (Nat.zero_le _) hl0 hs
            ?_ ?_ ?_
          · intro l s _ g2 hs
            exact (sizeStep_inv hf hi00 hi0 hj0 hk0 g2 hs).mono fun _ h => h.1
          · intro l s _ g2 hs hq
            exact (sizeStep_inv hf hi00 hi0 hj0 hk0 g2 hs).mono fun _ h => ⟨h.1, h.2.1.trans hq⟩
          · intro s hs
            exact (sizeStep_inv hf hi00 hi0 hj0 hk0 hl0 hs).mono fun _ h => ⟨h.1, h.2.2 hmin⟩
  -- get the result once
  obtain ⟨r, hr, hrI, -⟩ := key a2 0 0 0 (by split <;> [exact hev ‹_›; omega]) (by omega) (by omega)
    (by omega) (by omega) (by simpa using h2)
  refine ⟨r, hr, hrI.1, ?_⟩
  -- an upper bound
  have hub : r ≤ 2 * minSize := by
    have hc : Nat.clog 2 minSize ≤ a2 := (Nat.clog_le_iff_le_pow (by norm_num)).2 h2
    by_cases h1 : minSize = 1
    · by_cases ha : 1 ≤ a2
      · obtain ⟨r', hr', -, hle⟩ := key 1 0 0 0 (by split <;> omega) (by omega) (by omega) (by omega)
          (by omega) (by rw [h1]; norm_num)
        rw [hr] at hr'; cases hr'
        simpa [h1] using hle
      · have h0 : a2 = 0 := by omega
        have := hrI.2
        rw [h0] at this
        omega
    · have hcpos : 0 < Nat.clog 2 minSize := Nat.clog_pos (by norm_num) (by omega)
      obtain ⟨r', hr', -, hle⟩ := key (Nat.clog 2 minSize) 0 0 0 (by split <;> omega) (by omega)
        (by omega) (by omega) (by omega)
        (by simpa using Nat.le_pow_clog (by norm_num) minSize)
      rw [hr] at hr'; cases hr'
      have h3 : 2 ^ (Nat.clog 2 minSize - 1) < minSize :=
        Nat.pow_pred_clog_lt_self (by norm_num) (by omega)
      have h4 : 2 ^ (Nat.clog 2 minSize) = 2 * 2 ^ (Nat.clog 2 minSize - 1) := by
        rw [← pow_succ']; congr 1; omega
      simp only [pow_zero, mul_one] at hle
      omega
  rintro m ⟨hm1, hm2, hm3⟩
  by_contra hlt
  obtain ⟨i, j, k, l, hm⟩ := exps_of_smooth7 m hm2
  have pos2 : 0 < 2 ^ i := by positivity
  have pos3 : 0 < 3 ^ j := by positivity
  have pos5 : 0 < 5 ^ k := by positivity
  have pos7 : 0 < 7 ^ l := by positivity
  have d2 : 2 ^ i ≤ m := Nat.le_of_dvd (by omega)
    ⟨3 ^ j * 5 ^ k * 7 ^ l, by rw [hm]; ring⟩
  have d3 : 3 ^ j ≤ m := Nat.le_of_dvd (by omega)
    ⟨2 ^ i * 5 ^ k * 7 ^ l, by rw [hm]; ring⟩
  have d5 : 5 ^ k ≤ m := Nat.le_of_dvd (by omega)
    ⟨2 ^ i * 3 ^ j * 7 ^ l, by rw [hm]; ring⟩
  have d7 : 7 ^ l ≤ m := Nat.le_of_dvd (by omega)
    ⟨2 ^ i * 3 ^ j * 5 ^ k, by rw [hm]; ring⟩
  have hrI2 := hrI.2
  have b2 : i < a2 + 1 := by
    have : 2 ^ i < 2 ^ (a2 + 1) := by rw [pow_succ]; omega
    exact (Nat.pow_lt_pow_iff_right (by norm_num)).1 this
  have b3 : j < a3 + 1 := by
    have : 3 ^ j < 3 ^ (a3 + 1) := by rw [pow_succ]; omega
    exact (Nat.pow_lt_pow_iff_right (by norm_num)).1 this
  have b5 : k < a5 + 1 := by
    have : 5 ^ k < 5 ^ (a5 + 1) := by rw [pow_succ]; omega
    exact (Nat.pow_lt_pow_iff_right (by norm_num)).1 this
  have b7 : l < a7 + 1 := by
    have : 7 ^ l < 7 ^ (a7 + 1) := by rw [pow_succ]; omega
    exact (Nat.pow_lt_pow_iff_right (by norm_num)).1 this
  have hi : (if ev then 1 else 0) ≤ i := by
    split
    · next he =>
      by_contra hi0
      have hi0 : i = 0 := by omega
      have h2m := hm3 he
      rw [hm, hi0, pow_zero, one_mul] at h2m
      have pr := Nat.prime_two
      rcases (Nat.Prime.dvd_mul pr).1 h2m with h | h
      · rcases (Nat.Prime.dvd_mul pr).1 h with h | h
        · exact absurd (pr.dvd_of_dvd_pow h) (by norm_num)
        · exact absurd (pr.dvd_of_dvd_pow h) (by norm_num)
      · exact absurd (pr.dvd_of_dvd_pow h) (by norm_num)
    · exact Nat.zero_le _
  obtain ⟨r', hr', -, hle⟩ := key i j k l hi b2 b3 b5 b7 (by omega)
  rw [hr] at hr'; cases hr'
  omega

/-- With too small a power of two the search cannot find anything and returns that power. -/
theorem findNewSizeWith_low (hlow : 2 ^ a2 < minSize) (hov : p.overflow = none →
      2 ^ a2 * 3 ^ a3 * 5 ^ a5 * 7 ^ a7 ≤ 2 ^ 62) (h53 : 2 ^ a2 ≤ 2 ^ 53) :
    findNewSizeWith p a2 a3 a5 a7 minSize ev = .ok (2 ^ a2) := by
  rw [findNewSizeWith_eq]
  have hc0 := toSizeT_powf p h53
  rw [hc0, Res.bind_ok]
  suffices h : (forRange (if ev then 1 else 0) (a2 + 1) (fun i c =>
          forRange 0 (a3 + 1) (fun j c =>
            forRange 0 (a5 + 1) (fun k c =>
              forRange 0 (a7 + 1) (fun l c => sizeStep p minSize i j k l c) c) c) c) (2 ^ a2)).Sat
                (fun c => c = 2 ^ a2) by
    obtain ⟨c, hc, rfl⟩ := h
    exact hc
  refine forRange_inv _ rfl fun i c _ hi hc => forRange_inv _ hc fun j c _ hj hc =>
    forRange_inv _ hc fun k c _ hk hc => forRange_inv _ hc fun l c _ hl hc => ?_
  have key : (toSizeT p (factorD i j k l)).Sat (fun _ => True) := by
    unfold toSizeT
    split
    · simp
    · next h =>
      cases hp : p.overflow with
      | some v => simp
      | none =>
        have := hov hp
        have h2 : 2 ^ i ≤ 2 ^ a2 := Nat.pow_le_pow_right (by norm_num) (by omega)
        have h3 : 3 ^ j ≤ 3 ^ a3 := Nat.pow_le_pow_right (by norm_num) (by omega)
        have h5 : 5 ^ k ≤ 5 ^ a5 := Nat.pow_le_pow_right (by norm_num) (by omega)
        have h7 : 7 ^ l ≤ 7 ^ a7 := Nat.pow_le_pow_right (by norm_num) (by omega)
        have h8 := Nat.mul_le_mul (Nat.mul_le_mul (Nat.mul_le_mul h2 h3) h5) h7
        exact absurd (factorD_lt (h8.trans this)) h
  unfold sizeStep
  refine key.bind fun f _ => ?_
  rw [if_neg (by omega)]
  simpa using hc

end search

/-! ### The largest exponents -/

section maxant
variable {p : Platform} {ε : ℝ}

/-- The quotient of two logarithms, as computed, is within about three relative errors of the exact one. -/
theorem quot_bounds (hp : LogAcc p ε) (h0 : 2⁻¹ ^ 53 ≤ ε) (h1 : ε ≤ 2⁻¹ ^ 10) {P : ℕ} (hP : 2 ≤ P)
    (hP7 : P ≤ 7) {x : ℝ} (hx2 : x = 1 ∨ 2 ≤ x) :
    Real.log x / Real.log P * (1 - 3 * ε) ≤ rnd64 (p.log x / p.log P) ∧
      rnd64 (p.log x / p.log P) ≤ Real.log x / Real.log P * (1 + 4 * ε) := by
  have hx : 1 ≤ x := by rcases hx2 with h | h <;> linarith
  have hP1 : (1 : ℝ) < P := by exact_mod_cast (by omega : 1 < P)
  have hK7 : Real.log P ≤ 6 := by
    have h1 := Real.log_le_sub_one_of_pos (x := P) (by linarith)
    have h2 : (P : ℝ) ≤ 7 := by exact_mod_cast hP7
    linarith
  have hL2 : x = 1 ∨ 1 / 2 ≤ Real.log x := by
    rcases hx2 with h | h
    · exact Or.inl h
    · right
      have h1 := Real.log_le_log (by norm_num) h
      linarith [Real.log_two_gt_d9]
  have hK : 0 < Real.log P := Real.log_pos hP1
  have hL : 0 ≤ Real.log x := Real.log_nonneg hx
  have hk := abs_le.1 (hp P (Or.inr (by exact_mod_cast hP)))
  have hl := abs_le.1 (hp x hx2)
  have hε : 0 < ε := lt_of_lt_of_le (by positivity) h0
  have hε1 : ε ≤ 1 / 1024 := le_trans h1 (by norm_num)
  set K := Real.log P
  set L := Real.log x
  set k := p.log P
  set l := p.log x
  have hkpos : 0 < k := by nlinarith [hk.1]
  have hq1 : L / K * (1 - 2 * ε) ≤ l / k := by
    rw [le_div_iff₀ hkpos, div_mul_eq_mul_div, div_mul_eq_mul_div, div_le_iff₀ hK]
    have a1 : k ≤ K * (1 + ε) := by linarith [hk.2]
    have a2 : L * (1 - ε) ≤ l := by linarith [hl.1]
    have a3 : L * (1 - 2 * ε) * k ≤ L * (1 - 2 * ε) * (K * (1 + ε)) :=
      mul_le_mul_of_nonneg_left a1 (mul_nonneg hL (by linarith))
    have a4 : L * (1 - ε) * K ≤ l * K := mul_le_mul_of_nonneg_right a2 hK.le
    nlinarith [mul_nonneg (mul_nonneg hL hK.le) (mul_nonneg hε.le hε.le)]
  have hq2 : l / k ≤ L / K * (1 + 9 / 4 * ε) := by
    rw [div_le_iff₀ hkpos, div_mul_eq_mul_div, div_mul_eq_mul_div, le_div_iff₀ hK]
    have a1 : K * (1 - ε) ≤ k := by linarith [hk.1]
    have a2 : l ≤ L * (1 + ε) := by linarith [hl.2]
    have a3 : L * (1 + 9 / 4 * ε) * (K * (1 - ε)) ≤ L * (1 + 9 / 4 * ε) * k :=
      mul_le_mul_of_nonneg_left a1 (mul_nonneg hL (by linarith))
    have a4 : l * K ≤ L * (1 + ε) * K := mul_le_mul_of_nonneg_right a2 hK.le
    have a5 : 0 ≤ L * K * (ε * (1 / 4 - 9 / 4 * ε)) :=
      mul_nonneg (mul_nonneg hL hK.le) (mul_nonneg hε.le (by linarith))
    nlinarith
  rcases hL2 with h | h
  · have hL0 : L = 0 := by simp [L, h]
    have hl0 : l = 0 := by
      have := hp x hx2
      rw [show Real.log x = L from rfl, hL0, mul_zero, sub_zero] at this
      exact abs_eq_zero.1 (le_antisymm this (abs_nonneg _))
    rw [hL0, hl0]
    simp [rnd64_zero]
  · have hr : 1 / 12 ≤ L / K := by
      rw [le_div_iff₀ hK]
      linarith
    have hq : (2⁻¹ : ℝ) ^ 1000 ≤ l / k := by
      have h3 : (2⁻¹ : ℝ) ^ 1000 ≤ 2⁻¹ ^ 4 := pow_le_pow_of_le_one (by norm_num) (by norm_num) (by norm_num)
      refine h3.trans (le_trans ?_ hq1)
      nlinarith
    have hqpos : 0 < l / k := lt_of_lt_of_le (by positivity) hq
    have hd : 2⁻¹ ^ 53 * ε ≤ 2⁻¹ ^ 10 * ε := mul_le_mul_of_nonneg_right (h0.trans h1) hε.le
    constructor
    · refine le_trans ?_ (le_rnd64 hq)
      have : L / K * (1 - 2 * ε) * (1 - 2⁻¹ ^ 53) ≤ l / k * (1 - 2⁻¹ ^ 53) :=
        mul_le_mul_of_nonneg_right hq1 (by norm_num)
      refine le_trans ?_ this
      rw [mul_assoc]
      refine mul_le_mul_of_nonneg_left ?_ (by linarith)
      nlinarith
    · refine (rnd64_le hq).trans ?_
      have : l / k * (1 + 2⁻¹ ^ 53) ≤ L / K * (1 + 9 / 4 * ε) * (1 + 2⁻¹ ^ 53) :=
        mul_le_mul_of_nonneg_right hq2 (by norm_num)
      refine this.trans ?_
      rw [mul_assoc]
      refine mul_le_mul_of_nonneg_left ?_ (by linarith)
      nlinarith

/-- No exponent is underestimated as long as the size times its logarithm stays below a third of the inverse
relative error. -/
theorem le_pow_maxant (hp : LogAcc p ε) (h0 : 2⁻¹ ^ 53 ≤ ε) (h1 : ε ≤ 2⁻¹ ^ 10) {P : ℕ} (hP : 2 ≤ P)
    (hP7 : P ≤ 7) {n : ℕ} (hn : 1 ≤ n) (hn24 : n ≤ 2 ^ 24) (hs : 4 * ε * (n + 1) * Real.log n ≤ 1) :
    n ≤ P ^ maxant p P n := by
  by_contra hlt
  have hlt : P ^ maxant p P n + 1 ≤ n := by omega
  have hP1 : (1 : ℝ) < P := by exact_mod_cast (by omega : 1 < P)
  have hK : 0 < Real.log P := Real.log_pos hP1
  have hε : 0 < ε := lt_of_lt_of_le (by positivity) h0
  have hn2 : 2 ≤ n := by
    have : 1 ≤ P ^ maxant p P n := Nat.one_le_pow _ _ (by omega)
    omega
  have hn2' : (2 : ℝ) ≤ n := by exact_mod_cast hn2
  have hL : 0 < Real.log n := Real.log_pos (by linarith)
  have hq := (quot_bounds hp h0 h1 hP hP7 (x := n) (Or.inr hn2')).1
  have hle : rnd64 (p.log n / p.log P) ≤ maxant p P n := by
    have := Nat.le_ceil (rnd64 (p.log (rnd32 n) / p.log P))
    rw [rnd32_nat hn24] at this
    unfold maxant
    rwa [rnd32_nat hn24]
  set a := maxant p P n
  have h2 : Real.log n * (1 - 3 * ε) ≤ a * Real.log P := by
    have := hq.trans hle
    rwa [div_mul_eq_mul_div, div_le_iff₀ hK] at this
  have h3 : (a : ℝ) * Real.log P ≤ Real.log n - 1 / n := by
    rw [← Real.log_pow]
    have h4 : (P : ℝ) ^ a ≤ n - 1 := by
      have : (P : ℝ) ^ a + 1 ≤ n := by exact_mod_cast hlt
      linarith
    have h5 : Real.log ((P : ℝ) ^ a) ≤ Real.log (n - 1) := Real.log_le_log (by positivity) h4
    have h6 : Real.log ((n - 1) / n) ≤ (n - 1) / n - 1 := Real.log_le_sub_one_of_pos (by
      apply div_pos <;> linarith)
    rw [Real.log_div (by linarith) (by linarith)] at h6
    have h7 : ((n : ℝ) - 1) / n - 1 = -(1 / n) := by field_simp; ring
    linarith
  have h8 : 1 / (n : ℝ) ≤ 3 * ε * Real.log n := by linarith
  rw [div_le_iff₀ (by linarith)] at h8
  nlinarith [mul_pos hε hL]

/-- An exponent is overestimated by at most one, and that only at a power. -/
theorem pow_pred_maxant_le (hp : LogAcc p ε) (h0 : 2⁻¹ ^ 53 ≤ ε) (h1 : ε ≤ 2⁻¹ ^ 10) {P : ℕ} (hP : 2 ≤ P)
    (hP7 : P ≤ 7) {n : ℕ} (hn : 1 ≤ n) (hn24 : n ≤ 2 ^ 24) (hs : 4 * ε * (n + 1) * Real.log n ≤ 1) :
    P ^ (maxant p P n - 1) ≤ n := by
  by_contra hlt
  have hlt : n + 1 ≤ P ^ (maxant p P n - 1) := by omega
  have hP1 : (1 : ℝ) < P := by exact_mod_cast (by omega : 1 < P)
  have hK : 0 < Real.log P := Real.log_pos hP1
  have hε : 0 < ε := lt_of_lt_of_le (by positivity) h0
  have hn1 : (1 : ℝ) ≤ n := by exact_mod_cast hn
  have ha : 2 ≤ maxant p P n := by
    by_contra h
    have : maxant p P n - 1 = 0 := by omega
    rw [this, pow_zero] at hlt
    omega
  have hx : (n : ℝ) = 1 ∨ (2 : ℝ) ≤ n := by
    rcases Nat.lt_or_ge n 2 with h | h
    · left
      have : n = 1 := by omega
      exact_mod_cast this
    · right
      exact_mod_cast h
  have hq := (quot_bounds hp h0 h1 hP hP7 (x := n) hx).2
  have hlt2 : ((maxant p P n - 1 : ℕ) : ℝ) < rnd64 (p.log n / p.log P) := by
    have h2 : maxant p P n - 1 < maxant p P n := by omega
    have h3 : maxant p P n - 1 < ⌈rnd64 (p.log (rnd32 n) / p.log P)⌉₊ := h2
    rw [Nat.lt_ceil, rnd32_nat hn24] at h3
    exact h3
  set b := maxant p P n - 1
  have h2 : b * Real.log P < Real.log n * (1 + 4 * ε) := by
    have := lt_of_lt_of_le hlt2 hq
    rwa [div_mul_eq_mul_div, lt_div_iff₀ hK] at this
  have h3 : Real.log n + 1 / (n + 1) ≤ (b : ℝ) * Real.log P := by
    rw [← Real.log_pow]
    have h4 : (n : ℝ) + 1 ≤ (P : ℝ) ^ b := by exact_mod_cast hlt
    have h5 : Real.log (n + 1) ≤ Real.log ((P : ℝ) ^ b) := Real.log_le_log (by linarith) h4
    have h6 : Real.log (n / (n + 1)) ≤ n / (n + 1) - 1 := Real.log_le_sub_one_of_pos (by
      apply div_pos <;> linarith)
    rw [Real.log_div (by linarith) (by linarith)] at h6
    have h7 : (n : ℝ) / (n + 1) - 1 = -(1 / (n + 1)) := by field_simp; ring
    linarith
  have h8 : 1 / ((n : ℝ) + 1) < 4 * ε * Real.log n := by linarith
  rw [div_lt_iff₀ (by linarith)] at h8
  linarith

/-- Lower bound for an exponent from a power `P^u ≤ 2^(16 v)`. -/
theorem le_maxant (hp : LogAcc p ε) (h0 : 2⁻¹ ^ 53 ≤ ε) (h1 : ε ≤ 2⁻¹ ^ 10) {P : ℕ} (hP : 2 ≤ P)
    (hP7 : P ≤ 7) {n : ℕ} (hn : 2 ^ 16 ≤ n) {a u v : ℕ} (hv : 0 < v) (huv : P ^ u ≤ 2 ^ (16 * v))
    (ha : (a : ℝ) < u / v * (1 - 3 / 2 ^ 10)) : a < maxant p P n := by
  have hP1 : (1 : ℝ) < P := by exact_mod_cast (by omega : 1 < P)
  have hK : 0 < Real.log P := Real.log_pos hP1
  have hε : 0 < ε := lt_of_lt_of_le (by positivity) h0
  have hx : (2 : ℝ) ^ 16 ≤ rnd32 n := by
    have h2 := rnd32_mono (show ((2 ^ 16 : ℕ) : ℝ) ≤ n by exact_mod_cast hn)
    rw [rnd32_nat (by norm_num)] at h2
    exact_mod_cast h2
  have hq := (quot_bounds hp h0 h1 hP hP7 (x := rnd32 n) (Or.inr (le_trans (by norm_num) hx))).1
  unfold maxant
  rw [Nat.lt_ceil]
  refine lt_of_lt_of_le ha (le_trans ?_ hq)
  have h2 : (u : ℝ) / v ≤ Real.log (rnd32 n) / Real.log P := by
    rw [div_le_div_iff₀ (by exact_mod_cast hv) hK, ← Real.log_pow]
    have h3 : Real.log ((P : ℝ) ^ u) ≤ Real.log ((2 ^ 16) ^ v) := by
      refine Real.log_le_log (by positivity) ?_
      rw [← pow_mul]
      exact_mod_cast huv
    have h4 : Real.log (2 ^ 16) ≤ Real.log (rnd32 n) := Real.log_le_log (by norm_num) hx
    rw [Real.log_pow ((2 : ℝ) ^ 16) v] at h3
    have hv' : (0 : ℝ) ≤ v := by positivity
    nlinarith
  have h5 : (0 : ℝ) ≤ (u : ℝ) / v := by positivity
  refine mul_le_mul h2 ?_ (by norm_num) (h5.trans h2)
  have : ε ≤ 1 / 2 ^ 10 := h1.trans (by norm_num)
  linarith

end maxant

end Verif
