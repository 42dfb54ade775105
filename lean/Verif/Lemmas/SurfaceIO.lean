import Verif.Model.SurfaceIO
import Verif.Lemmas.TextIO

/-! Helper lemmas: surface files. -/

namespace Verif

theorem rne_abs_nonneg (x : ℝ) : 0 ≤ Ieee.rne |x| := by
  have h := Ieee.rne_mono (abs_nonneg x)
  have h0 := Ieee.rne_int 0
  rw [Int.cast_zero] at h0
  rwa [h0] at h

theorem roundDec_eq (p : ℕ) (v : ℝ) :
    roundDec p v = (if v < 0 then -1 else 1) * (Ieee.rne (|v| * 10 ^ p) : ℝ) / 10 ^ p := by
  unfold roundDec
  have h : 0 ≤ Ieee.rne (|v| * 10 ^ p) := by
    have := rne_abs_nonneg (|v| * 10 ^ p)
    rwa [abs_of_nonneg (by positivity)] at this
  have h2 : ((Ieee.rne (|v| * 10 ^ p)).toNat : ℝ) = ((Ieee.rne (|v| * 10 ^ p) : ℤ) : ℝ) := by
    have := Int.toNat_of_nonneg h
    exact_mod_cast this
  rw [h2]

theorem roundDec_err (p : ℕ) (v : ℝ) : |roundDec p v - v| ≤ 1 / 2 / 10 ^ p := by
  rw [roundDec_eq]
  have hp : (0 : ℝ) < 10 ^ p := by positivity
  have h := Ieee.rne_err (|v| * 10 ^ p)
  generalize (Ieee.rne (|v| * 10 ^ p) : ℝ) = m at h
  have key : |m / 10 ^ p - (|v|)| ≤ 1 / 2 / 10 ^ p := by
    have e : m / 10 ^ p - |v| = (m - |v| * 10 ^ p) / 10 ^ p := by field_simp
    rw [e, abs_div, abs_of_pos hp]
    exact div_le_div_of_nonneg_right h hp.le
  split
  · rename_i hv
    rw [abs_of_neg hv] at key
    have e : -1 * m / 10 ^ p - v = -(m / 10 ^ p - -v) := by ring
    rw [e, abs_neg]; exact key
  · rename_i hv
    rw [abs_of_nonneg (not_lt.1 hv)] at key
    rw [one_mul]; exact key

/-- A number with at most `p` decimals is not changed. -/
theorem roundDec_exact (p : ℕ) (m : ℤ) : roundDec p (m / 10 ^ p) = m / 10 ^ p := by
  have hp : (0 : ℝ) < 10 ^ p := by positivity
  rw [roundDec_eq]
  have e : |(m : ℝ) / 10 ^ p| * 10 ^ p = ((|m| : ℤ) : ℝ) := by
    rw [abs_div, abs_of_pos hp, Int.cast_abs]; field_simp
  rw [e, Ieee.rne_int]
  by_cases h : m < 0
  · rw [if_pos (div_neg_of_neg_of_pos (by exact_mod_cast h) hp), abs_of_neg h]; push_cast; ring
  · rw [if_neg (not_lt.2 (div_nonneg (by exact_mod_cast not_lt.1 h) hp.le)),
      abs_of_nonneg (not_lt.1 h), one_mul]

theorem roundDec_zero (p : ℕ) : roundDec p 0 = 0 := by
  have := roundDec_exact p 0
  simpa using this

theorem roundDec_one (p : ℕ) : roundDec p 1 = 1 := by
  have := roundDec_exact p (10 ^ p)
  have hp : (10 : ℝ) ^ p ≠ 0 := by positivity
  simpa [div_self hp] using this

theorem roundDec_irapMissing : roundDec 6 irapMissing = irapMissing := by
  have := roundDec_exact 6 9999900000000
  have e : ((9999900000000 : ℤ) : ℝ) / 10 ^ 6 = irapMissing := by unfold irapMissing; norm_num
  rwa [e] at this

/-- Rounding to `p` decimals takes the multiple of `10 ^ -p` that is nearest. -/
theorem roundDec_near (p : ℕ) {v : ℝ} {m : ℤ} (h : |v - m / 10 ^ p| < 1 / 2 / 10 ^ p) :
    roundDec p v = m / 10 ^ p := by
  have hp : (0 : ℝ) < 10 ^ p := by positivity
  have h' : |v * 10 ^ p - m| < 1 / 2 := by
    have e : v * 10 ^ p - m = (v - m / 10 ^ p) * 10 ^ p := by field_simp
    rw [e, abs_mul, abs_of_pos hp]
    calc |v - m / 10 ^ p| * 10 ^ p < 1 / 2 / 10 ^ p * 10 ^ p := mul_lt_mul_of_pos_right h hp
      _ = 1 / 2 := by field_simp
  rw [roundDec_eq]
  by_cases hv : v < 0
  · rw [if_pos hv, abs_of_neg hv, neg_mul v, Ieee.rne_neg, Ieee.rne_near h']; push_cast; ring
  · rw [if_neg hv, abs_of_nonneg (not_lt.1 hv), Ieee.rne_near h', one_mul]

/-! ## Reading what was written -/

theorem readNext_int0 {i : ℤ} (h : -2 ^ 31 ≤ i ∧ i < 2 ^ 31) {s : Char} (hs : isSpaceC s = true)
    (rest : List Char) :
    readNext scanInt ⟨showInt i ++ s :: rest, false, false⟩
      = .ok (i, ⟨s :: rest, false, false⟩) :=
  readNext_int (ws := []) (by simp) h hs rest

theorem readNext_int1 {w : Char} (hw : isSpaceC w = true) {i : ℤ}
    (h : -2 ^ 31 ≤ i ∧ i < 2 ^ 31) {s : Char} (hs : isSpaceC s = true) (rest : List Char) :
    readNext scanInt ⟨w :: (showInt i ++ s :: rest), false, false⟩
      = .ok (i, ⟨s :: rest, false, false⟩) :=
  readNext_int (ws := [w]) (by simpa using hw) h hs rest

theorem readNext_double1 {w : Char} (hw : isSpaceC w = true) {p : ℕ} (hp : p ≠ 0)
    (v : ℝ) {s : Char} (hs : isSpaceC s = true) (rest : List Char) :
    readNext scanDouble ⟨w :: (showFixed p v ++ s :: rest), false, false⟩
      = .ok (roundDec p v, ⟨s :: rest, false, false⟩) :=
  readNext_double (ws := [w]) (by simpa using hw) hp v hs rest

theorem showInt_zero : showInt 0 = ['0'] := by
  unfold showInt
  rw [if_neg (by norm_num), natDigits, if_pos (by decide)]
  rfl

theorem readNext_zero {s : Char} (hs : isSpaceC s = true) (rest : List Char) :
    readNext scanInt ⟨' ' :: ' ' :: ' ' :: '0' :: s :: rest, false, false⟩
      = .ok (0, ⟨s :: rest, false, false⟩) := by
  have := readNext_int (ws := [' ', ' ', ' ']) (by decide) (i := 0) (by norm_num) hs rest
  rwa [showInt_zero] at this

theorem readNext_zero' {s : Char} (hs : isSpaceC s = true) (rest : List Char) :
    readNext scanInt ⟨'\n' :: ' ' :: ' ' :: ' ' :: '0' :: s :: rest, false, false⟩
      = .ok (0, ⟨s :: rest, false, false⟩) := by
  have := readNext_int (ws := ['\n', ' ', ' ', ' ']) (by decide) (i := 0) (by norm_num) hs rest
  rwa [showInt_zero] at this

/-- The header of a file, with the sizes `ni` and `nj`. -/
noncomputable def irapText (ni nj : ℤ) (dx dy x0 x1 y0 y1 angle : ℝ) (rest : List Char) : List Char :=
  showInt (-996) ++ [' '] ++ showInt nj ++ [' '] ++ showFixed 6 dx ++ [' ']
    ++ showFixed 6 dy ++ ['\n']
    ++ showFixed 2 x0 ++ [' '] ++ showFixed 2 x1 ++ [' ']
    ++ showFixed 2 y0 ++ [' '] ++ showFixed 2 y1 ++ ['\n']
    ++ showInt ni ++ [' '] ++ showFixed 6 angle ++ [' ']
    ++ showFixed 2 x0 ++ [' '] ++ showFixed 2 y0 ++ ['\n']
    ++ "   0   0   0   0   0   0   0\n".toList ++ rest

theorem readIrapHeader_text {ni nj : ℤ} (hi : -2 ^ 31 ≤ ni ∧ ni < 2 ^ 31) (hj : -2 ^ 31 ≤ nj ∧ nj < 2 ^ 31)
    (dx dy x0 x1 y0 y1 angle : ℝ) (rest : List Char) :
    readIrapHeader (IStream.openOn (irapText ni nj dx dy x0 x1 y0 y1 angle rest))
      = .ok (⟨ni, nj, roundDec 6 dx, roundDec 6 dy, roundDec 2 x0, roundDec 2 y0,
          Real.pi / 180 * roundDec 6 angle⟩, ⟨'\n' :: rest, false, false⟩) := by
  have sp : isSpaceC ' ' = true := by decide
  have nl : isSpaceC '\n' = true := by decide
  have z : "   0   0   0   0   0   0   0\n".toList = [' ', ' ', ' ', '0', ' ', ' ', ' ', '0', ' ', ' ',
    ' ', '0', ' ', ' ', ' ', '0', ' ', ' ', ' ', '0', ' ', ' ', ' ', '0', ' ', ' ', ' ', '0', '\n'] := by
    decide
  unfold irapText readIrapHeader IStream.openOn
  rw [z]
  simp only [List.append_assoc, List.cons_append, List.nil_append]
  simp only [Res.monad_bind_eq, readNext_int0 (i := -996) (by norm_num) sp, Res.bind_ok,
    readNext_int1 sp hj sp, readNext_int1 nl hi sp, readNext_double1 sp (p := 6) (by norm_num) _ sp,
    readNext_double1 sp (p := 6) (by norm_num) _ nl, readNext_double1 nl (p := 2) (by norm_num) _ sp,
    readNext_double1 sp (p := 2) (by norm_num) _ sp, readNext_double1 sp (p := 2) (by norm_num) _ nl,
    readNext_zero' sp, readNext_zero sp, readNext_zero nl]

/-- The header that is read back. -/
theorem readIrapHeader_write (s : RegSurf) (angle : ℝ) (hi : s.grid.ni < 2 ^ 31) (hj : s.grid.nj < 2 ^ 31) :
    readIrapHeader (IStream.openOn (writeIrap s angle))
      = .ok (⟨s.grid.ni, s.grid.nj, roundDec 6 s.dx, roundDec 6 s.dy, roundDec 2 s.x_min,
          roundDec 2 s.y_min, Real.pi / 180 * roundDec 6 (angle * 180 / Real.pi)⟩,
          ⟨'\n' :: irapNodes s 0 s.grid.data, false, false⟩) :=
  readIrapHeader_text ⟨by omega, by exact_mod_cast hi⟩ ⟨by omega, by exact_mod_cast hj⟩ _ _ _ _ _ _ _ _

open Classical in
/-- The value that is read back from a node. -/
noncomputable def irapValue (s : RegSurf) (v : ℝ) : ℝ :=
  if v = s.missing then irapMissing else roundDec 6 v

theorem irapNodes_cons (s : RegSurf) (i : ℕ) (v : ℝ) (vs : List ℝ) :
    ∃ w ws, (∀ c ∈ ws, isSpaceC c = true) ∧ roundDec 6 w = irapValue s v ∧
      irapNodes s i (v :: vs) = showFixed 6 w ++ ' ' :: (ws ++ irapNodes s (i + 1) vs) := by
  by_cases hm : s.missing = irapMissing
  · refine ⟨v, if (i + 1) % 6 = 0 then ['\n'] else [], ?_, ?_, ?_⟩
    · intro c hc; split at hc
      · simp at hc; subst hc; decide
      · simp at hc
    · unfold irapValue
      split
      · rename_i h; rw [h, hm, roundDec_irapMissing]
      · rfl
    · rw [irapNodes, if_pos hm]; simp
  · refine ⟨if v = s.missing then irapMissing else v, if (i + 1) % 6 = 0 then ['\n'] else [], ?_, ?_, ?_⟩
    · intro c hc; split at hc
      · simp at hc; subst hc; decide
      · simp at hc
    · unfold irapValue
      split
      · rw [roundDec_irapMissing]
      · rfl
    · rw [irapNodes, if_neg hm]
      by_cases h : v = s.missing
      · rw [if_pos (show s.IsMissing v from h), if_pos h]; simp
      · rw [if_neg (show ¬ s.IsMissing v from h), if_neg h]; simp

theorem readAsciiArrayFast_irap (s : RegSurf) (vs : List ℝ) :
    ∀ (i lo : ℕ) (ws : List Char) (acc : List ℝ), (∀ c ∈ ws, isSpaceC c = true) →
      ∃ ws', (∀ c ∈ ws', isSpaceC c = true) ∧
        forN vs.length lo (fun _ st => readFastStep scanDouble st)
            (acc, ⟨ws ++ irapNodes s i vs, false, false⟩)
          = .ok (acc ++ vs.map (irapValue s), ⟨ws', false, false⟩) := by
  induction vs with
  | nil =>
    intro i lo ws acc hws
    exact ⟨ws, hws, by simp [forN, irapNodes]⟩
  | cons v vs ih =>
    intro i lo ws acc hws
    obtain ⟨w, ws1, h1, h2, h3⟩ := irapNodes_cons s i v vs
    obtain ⟨ws', h4, h5⟩ := ih (i + 1) (lo + 1) (' ' :: ws1) (acc ++ [irapValue s v]) (by
      intro c hc
      rw [List.mem_cons] at hc
      rcases hc with rfl | hc
      · decide
      · exact h1 c hc)
    refine ⟨ws', h4, ?_⟩
    rw [List.length_cons, forN]
    unfold readFastStep
    dsimp only
    rw [h3, extract_double hws (by norm_num) w (by decide)]
    simp only [Bool.false_eq_true, if_false, Res.bind_ok, h2]
    rw [List.cons_append] at h5
    have h6 := h5
    unfold readFastStep at h6
    rw [h6]
    simp

theorem readAsciiArrayFast_write (s : RegSurf) :
    ∃ ws', (∀ c ∈ ws', isSpaceC c = true) ∧
      readAsciiArrayFast scanDouble ⟨'\n' :: irapNodes s 0 s.grid.data, false, false⟩ s.grid.data.length
        = .ok (s.grid.data.map (irapValue s), ⟨ws', false, false⟩) := by
  obtain ⟨ws', h1, h2⟩ := readAsciiArrayFast_irap s s.grid.data 0 0 ['\n'] [] (by decide)
  refine ⟨ws', h1, ?_⟩
  unfold readAsciiArrayFast forRange
  rw [Nat.sub_zero]
  rw [List.nil_append, List.cons_append, List.nil_append] at h2
  exact h2

theorem dropWhile_all {ws : List Char} (h : ∀ c ∈ ws, isSpaceC c = true) : ws.dropWhile isSpaceC = [] := by
  have := dropWhile_space (tok := []) h (by simp)
  rwa [List.append_nil] at this

theorem checkEndOfFile_space {ws : List Char} (h : ∀ c ∈ ws, isSpaceC c = true) :
    checkEndOfFile ⟨ws, false, false⟩ = .ok (true, ⟨[], true, true⟩) := by
  unfold checkEndOfFile
  dsimp only
  rw [if_neg (by simp), if_neg (by simp), dropWhile_all h]

theorem sizeOfInt_nat {n : ℕ} (h : n < 2 ^ 31) : sizeOfInt n = n := by
  unfold sizeOfInt
  have : ((n : ℤ) % 2 ^ 64) = n := Int.emod_eq_of_lt (by omega) (by norm_num at h ⊢; omega)
  rw [this, Int.toNat_natCast]

/-- The surface that is read back. -/
noncomputable def irapBack (s : RegSurf) : RegSurf :=
  { grid := ⟨s.grid.ni, s.grid.nj, s.grid.data.map (irapValue s)⟩
    x_min := roundDec 2 s.x_min
    y_min := roundDec 2 s.y_min
    lx := ((s.grid.ni : ℤ) - 1 : ℤ) * roundDec 6 s.dx
    ly := ((s.grid.nj : ℤ) - 1 : ℤ) * roundDec 6 s.dy
    dx := spacing s.grid.ni (((s.grid.ni : ℤ) - 1 : ℤ) * roundDec 6 s.dx)
    dy := spacing s.grid.nj (((s.grid.nj : ℤ) - 1 : ℤ) * roundDec 6 s.dy)
    missing := irapMissing }

theorem readIrap_writeIrap (s s0 : RegSurf) (angle : ℝ) (hi : s.grid.ni < 2 ^ 31) (hj : s.grid.nj < 2 ^ 31)
    (hg : s.grid.data.length = s.grid.ni * s.grid.nj) (hn : s.grid.data.length < 2 ^ 60) :
    readIrap (writeIrap s angle) s0
      = .ok (irapBack s, Real.pi / 180 * roundDec 6 (angle * 180 / Real.pi)) := by
  obtain ⟨ws', h1, h2⟩ := readAsciiArrayFast_write s
  have hres : resizeGrid s.grid.ni s.grid.nj
      = .ok ⟨s.grid.ni, s.grid.nj, List.replicate s.grid.data.length 0⟩ := by
    unfold resizeGrid
    have e : s.grid.ni * s.grid.nj % 2 ^ 64 = s.grid.data.length := by
      rw [← hg]; exact Nat.mod_eq_of_lt (by omega)
    dsimp only
    rw [e, if_neg (by omega)]
  have hp1 : predInt32 (s.grid.ni : ℤ) = .ok ((s.grid.ni : ℤ) - 1) := by
    unfold predInt32; rw [if_neg (by omega)]
  have hp2 : predInt32 (s.grid.nj : ℤ) = .ok ((s.grid.nj : ℤ) - 1) := by
    unfold predInt32; rw [if_neg (by omega)]
  unfold readIrap
  rw [readIrapHeader_write s angle hi hj]
  simp only [Res.monad_bind_eq, Res.bind_ok, hp1, hp2, sizeOfInt_nat hi, sizeOfInt_nat hj, hres,
    List.length_replicate, h2, checkEndOfFile_space h1, if_true]
  rfl

theorem spacing_back (n : ℕ) (l : ℝ) :
    spacing n (((n : ℤ) - 1 : ℤ) * roundDec 6 (spacing n l)) = roundDec 6 (spacing n l) := by
  by_cases h : 1 < n
  · have e : (((n : ℤ) - 1 : ℤ) : ℝ) = ((n - 1 : ℕ) : ℝ) := by
      rw [Nat.cast_sub (by omega)]; push_cast; ring
    have hne : ((n - 1 : ℕ) : ℝ) ≠ 0 := Nat.cast_ne_zero.2 (by omega)
    rw [e]
    conv_lhs => rw [spacing, if_pos h]
    field_simp
  · unfold spacing
    rw [if_neg h, if_neg h]
    have := roundDec_one 6
    norm_num at this ⊢
    exact this.symm

/-! ## Reading the beginning of a file -/

theorem span_append {α : Type} {p : α → Bool} {l : List α} (h : l.dropWhile p ≠ []) (u : List α) :
    (l ++ u).takeWhile p = l.takeWhile p ∧ (l ++ u).dropWhile p = l.dropWhile p ++ u := by
  induction l with
  | nil => simp at h
  | cons a t ih =>
    by_cases ha : p a = true
    · rw [List.dropWhile_cons, if_pos ha] at h
      obtain ⟨h1, h2⟩ := ih h
      rw [List.cons_append, List.takeWhile_cons, List.takeWhile_cons, List.dropWhile_cons,
        List.dropWhile_cons, if_pos ha, if_pos ha, if_pos ha, if_pos ha, h1, h2]
      exact ⟨rfl, rfl⟩
    · rw [List.cons_append, List.takeWhile_cons, List.takeWhile_cons, List.dropWhile_cons,
        List.dropWhile_cons, if_neg ha, if_neg ha, if_neg ha, if_neg ha]
      exact ⟨rfl, rfl⟩

theorem scanSign_append {l : List Char} (h : l ≠ []) (u : List Char) :
    scanSign (l ++ u) = ((scanSign l).1, (scanSign l).2 ++ u) := by
  obtain ⟨a, t, rfl⟩ := List.exists_cons_of_ne_nil h
  rw [List.cons_append]
  unfold scanSign
  split
  · rename_i h; injection h with h1 h2; subst h1; subst h2; rfl
  · rename_i h; injection h with h1 h2; subst h1; subst h2; rfl
  · rename_i h1 h2
    split
    · rename_i h; injection h with h3 h4; subst h3; exact absurd rfl (h1 _)
    · rename_i h; injection h with h3 h4; subst h3; exact absurd rfl (h2 _)
    · rfl

theorem head_append {l : List Char} (h : l ≠ []) (u : List Char) : (l ++ u).head? = l.head? := by
  obtain ⟨a, t, rfl⟩ := List.exists_cons_of_ne_nil h
  rfl

theorem tail_append_ne {l : List Char} (h : l ≠ []) (u : List Char) : (l ++ u).tail = l.tail ++ u := by
  obtain ⟨a, t, rfl⟩ := List.exists_cons_of_ne_nil h
  rfl

theorem dropWhile_nil_ne {p : Char → Bool} {l : List Char} (h : l.dropWhile p ≠ []) : l ≠ [] := by
  rintro rfl; simp at h

theorem tail_nil_ne {l : List Char} (h : l.tail ≠ []) : l ≠ [] := by
  rintro rfl; simp at h

theorem scanSign_nil_ne {l : List Char} (h : (scanSign l).2 ≠ []) : l ≠ [] := by
  rintro rfl; simp [scanSign] at h

theorem scanExponent_append {l r : List Char} {k : ℤ} (h : scanExponent l = (some k, r)) (hr : r ≠ [])
    (u : List Char) : l ≠ [] ∧ scanExponent (l ++ u) = (some k, r ++ u) := by
  unfold scanExponent at h
  split at h
  · rename_i hc
    dsimp only at h
    split at h
    · simp at h
    · rename_i hd
      injection h with h1 h2
      subst h2
      have n1 := dropWhile_nil_ne hr
      have n2 := scanSign_nil_ne n1
      have n3 := tail_nil_ne n2
      refine ⟨n3, ?_⟩
      obtain ⟨e1, e2⟩ := span_append hr u
      unfold scanExponent
      rw [head_append n3, if_pos hc]
      dsimp only
      rw [tail_append_ne n3, scanSign_append n2, e1, e2, if_neg hd, ← h1]
  · rename_i hc
    injection h with h1 h2
    subst h2
    refine ⟨hr, ?_⟩
    unfold scanExponent
    rw [head_append hr, if_neg hc, h1]

/-- A number that something follows is read the same, whatever comes later. -/
theorem scanDouble_append {l r : List Char} {x : ℝ} (h : scanDouble l = (some x, r)) (hr : r ≠ [])
    (u : List Char) : l ≠ [] ∧ scanDouble (l ++ u) = (some x, r ++ u) := by
  unfold scanDouble at h
  dsimp only at h
  by_cases hp : ((scanSign l).2.dropWhile isDigitC).head? = some '.'
  · rw [if_pos hp, if_pos hp] at h
    split at h
    · cases h
    · rename_i hd
      split at h
      · cases h
      · rename_i k hk
        injection h with h1 h2
        obtain ⟨he1, he2⟩ := scanExponent_append (Prod.ext hk h2) hr u
        have n1 := tail_nil_ne (dropWhile_nil_ne he1)
        have n2 := dropWhile_nil_ne n1
        have n3 := scanSign_nil_ne n2
        refine ⟨n3, ?_⟩
        obtain ⟨e1, e2⟩ := span_append n1 u
        obtain ⟨e3, e4⟩ := span_append he1 u
        unfold scanDouble
        dsimp only
        rw [scanSign_append n3]
        dsimp only
        rw [e1, e2, head_append n1, if_pos hp, if_pos hp, tail_append_ne n1, e3, e4, if_neg hd, he2]
        dsimp only
        rw [h1]
  · rw [if_neg hp, if_neg hp] at h
    split at h
    · cases h
    · rename_i hd
      split at h
      · cases h
      · rename_i k hk
        injection h with h1 h2
        obtain ⟨he1, he2⟩ := scanExponent_append (Prod.ext hk h2) hr u
        have n2 := dropWhile_nil_ne he1
        have n3 := scanSign_nil_ne n2
        refine ⟨n3, ?_⟩
        obtain ⟨e1, e2⟩ := span_append he1 u
        unfold scanDouble
        dsimp only
        rw [scanSign_append n3]
        dsimp only
        rw [e1, e2, head_append he1, if_neg hp, if_neg hp, if_neg hd, he2]
        dsimp only
        rw [h1]

theorem not_good_cases {s : IStream} (h : s.good = false) (T : Type)
    (scan : List Char → Option T × List Char) :
    (∃ m, readNext scan s = .throws m) ∧ ∀ acc : List T, ∃ m, readFastStep scan (acc, s) = .throws m := by
  constructor
  · refine ⟨"EndOfFile", ?_⟩
    unfold readNext readNextToken
    simp [h]
  · intro acc
    unfold readFastStep IStream.extract
    simp only [h, Bool.false_eq_true, if_false]
    split
    · exact ⟨_, rfl⟩
    · exact ⟨_, rfl⟩

/-- A reader that gives up if the stream is not good, and that reads the same from a longer stream if it did
not come to the end of the shorter one. -/
def Steady {T : Type} (R : IStream → Res (T × IStream)) : Prop :=
  (∀ s : IStream, s.good = false → ∃ m, R s = .throws m) ∧
    ∀ t x s', R ⟨t, false, false⟩ = .ok (x, s') →
      s' = ⟨[], true, true⟩ ∨ ∃ r, s' = ⟨r, false, false⟩ ∧
        ∀ u, R ⟨t ++ u, false, false⟩ = .ok (x, ⟨r ++ u, false, false⟩)

theorem steady_bind {T U : Type} {R : IStream → Res (T × IStream)} {F : T × IStream → Res (U × IStream)}
    (hR : Steady R) (hK : ∀ x, Steady fun s => F (x, s)) : Steady fun s => (R s).bind F := by
  constructor
  · intro s hs
    obtain ⟨m, hm⟩ := hR.1 s hs
    exact ⟨m, by dsimp only; rw [hm]; rfl⟩
  · intro t y s2 h
    obtain ⟨⟨x, s1⟩, h1, h2⟩ := Res.bind_eq_ok.1 h
    rcases hR.2 t x s1 h1 with rfl | ⟨r, rfl, hr⟩
    · obtain ⟨m, hm⟩ := (hK x).1 ⟨[], true, true⟩ rfl
      dsimp only at hm
      rw [hm] at h2; cases h2
    · rcases (hK x).2 r y s2 h2 with h3 | ⟨r', h3, h4⟩
      · exact Or.inl h3
      · refine Or.inr ⟨r', h3, fun u => ?_⟩
        dsimp only
        rw [hr u]
        exact h4 u

theorem steady_map {T U : Type} {R : IStream → Res (T × IStream)} (hR : Steady R) (f : T → U) :
    Steady fun s => (R s).bind fun p => .ok (f p.1, p.2) := by
  constructor
  · intro s hs
    obtain ⟨m, hm⟩ := hR.1 s hs
    exact ⟨m, by dsimp only; rw [hm]; rfl⟩
  · intro t y s2 h
    obtain ⟨⟨x, s1⟩, h1, h2⟩ := Res.bind_eq_ok.1 h
    injection h2 with h2
    injection h2 with h2 h3
    subst h3
    rcases hR.2 t x s1 h1 with rfl | ⟨r, rfl, hr⟩
    · exact Or.inl rfl
    · refine Or.inr ⟨r, rfl, fun u => ?_⟩
      dsimp only
      rw [hr u, ← h2]
      rfl

theorem readNextToken_append {t tok : List Char} {s' : IStream}
    (h : readNextToken ⟨t, false, false⟩ = (tok, s')) (hne : tok ≠ []) :
    s' = ⟨[], true, true⟩ ∨ ∃ r, s' = ⟨r, false, false⟩ ∧
      ∀ u, readNextToken ⟨t ++ u, false, false⟩ = (tok, ⟨r ++ u, false, false⟩) := by
  have hg : ∀ l, (⟨l, false, false⟩ : IStream).good = true := fun _ => rfl
  unfold readNextToken at h
  rw [if_pos (hg t)] at h
  dsimp only at h
  rcases hd : t.dropWhile isSpaceC with _ | ⟨c, t1⟩
  · rw [hd] at h
    injection h with h1 h2
    exact absurd h1.symm hne
  · rw [hd] at h
    dsimp only at h
    rcases he : t1.dropWhile (fun c => !isSpaceC c) with _ | ⟨d, t2⟩
    · rw [he] at h
      injection h with h1 h2
      exact Or.inl h2.symm
    · rw [he] at h
      injection h with h1 h2
      refine Or.inr ⟨d :: t2, h2.symm, fun u => ?_⟩
      have e1 := (span_append (p := isSpaceC) (l := t) (by rw [hd]; simp) u).2
      rw [hd] at e1
      have e2 := span_append (p := fun c => !isSpaceC c) (l := t1) (by rw [he]; simp) u
      rw [he] at e2
      unfold readNextToken
      rw [if_pos (hg _)]
      dsimp only
      rw [e1, List.cons_append]
      dsimp only
      rw [e2.2, List.cons_append]
      dsimp only
      rw [e2.1, h1]

theorem steady_readNext {T : Type} (scan : List Char → Option T × List Char) : Steady (readNext scan) := by
  refine ⟨fun s hs => (not_good_cases hs T scan).1, ?_⟩
  intro t x s' h
  rcases hr : readNextToken ⟨t, false, false⟩ with ⟨tok, s1⟩
  unfold readNext at h
  dsimp only at h
  rw [hr] at h
  dsimp only at h
  split at h
  · cases h
  · rename_i hne
    obtain ⟨x', h1, h2⟩ := Res.bind_eq_ok.1 h
    injection h2 with h2
    injection h2 with h2 h3
    subst h2 h3
    rcases readNextToken_append hr hne with h4 | ⟨r, h4, h5⟩
    · exact Or.inl h4
    · refine Or.inr ⟨r, h4, fun u => ?_⟩
      unfold readNext
      dsimp only
      rw [h5 u]
      dsimp only
      rw [if_neg hne, Res.monad_bind_eq, h1]
      rfl

theorem steady_readIrapHeader : Steady readIrapHeader := by
  unfold readIrapHeader
  simp only [Res.monad_bind_eq]
  repeat' first
    | exact steady_map (steady_readNext _) (fun _ => (⟨_, _, _, _, _, _, _⟩ : IrapHeader))
    | (refine steady_bind (steady_readNext _) fun _ => ?_; dsimp only)

theorem extract_append {t : List Char} {x : ℝ} {s' : IStream}
    (h : IStream.extract scanDouble ⟨t, false, false⟩ = (some x, s')) (he : s'.eof = false) :
    ∃ r, s' = ⟨r, false, false⟩ ∧
      ∀ u, IStream.extract scanDouble ⟨t ++ u, false, false⟩ = (some x, ⟨r ++ u, false, false⟩) := by
  have hg : ∀ l, (⟨l, false, false⟩ : IStream).good = true := fun _ => rfl
  unfold IStream.extract at h
  rw [if_pos (hg t)] at h
  dsimp only at h
  rcases hd : t.dropWhile isSpaceC with _ | ⟨c, t1⟩
  · rw [hd] at h
    cases h
  · rw [hd] at h
    dsimp only at h
    rcases hs : scanDouble (c :: t1) with ⟨o, r⟩
    rw [hs] at h
    rcases o with _ | v
    · cases h
    · dsimp only at h
      injection h with h1 h2
      injection h1 with h1
      subst h1 h2
      have hr : r ≠ [] := by rintro rfl; cases he
      change r.isEmpty = false at he
      refine ⟨r, by rw [he], fun u => ?_⟩
      obtain ⟨-, e2⟩ := scanDouble_append hs hr u
      have e1 := (span_append (p := isSpaceC) (l := t) (by rw [hd]; simp) u).2
      rw [hd] at e1
      unfold IStream.extract
      rw [if_pos (hg _)]
      dsimp only
      rw [e1, List.cons_append]
      dsimp only
      rw [← List.cons_append, e2]
      obtain ⟨a, b, rfl⟩ := List.exists_cons_of_ne_nil hr
      rfl

/-- One number of an array. -/
theorem readFastStep_steady (t : List Char) (acc res : List ℝ) (s' : IStream)
    (h : readFastStep scanDouble (acc, ⟨t, false, false⟩) = .ok (res, s')) :
    ∃ r, s' = ⟨r, false, false⟩ ∧
      ∀ u, readFastStep scanDouble (acc, ⟨t ++ u, false, false⟩) = .ok (res, ⟨r ++ u, false, false⟩) := by
  rcases hx : IStream.extract scanDouble ⟨t, false, false⟩ with ⟨o, s1⟩
  unfold readFastStep at h
  dsimp only at h
  rw [hx] at h
  dsimp only at h
  split at h
  · cases h
  · rename_i he
    rcases o with _ | x
    · cases h
    · dsimp only at h
      injection h with h
      injection h with h1 h2
      subst h2
      obtain ⟨r, h3, h4⟩ := extract_append hx (by simpa using he)
      refine ⟨r, h3, fun u => ?_⟩
      unfold readFastStep
      dsimp only
      rw [h4 u]
      dsimp only
      rw [if_neg (by simp), h1]

theorem readFast_steady (n : ℕ) : ∀ (lo : ℕ) (t : List Char) (acc res : List ℝ) (s' : IStream),
    forN n lo (fun _ st => readFastStep scanDouble st) (acc, ⟨t, false, false⟩) = .ok (res, s') →
    ∃ r, s' = ⟨r, false, false⟩ ∧ res.length = acc.length + n ∧
      ∀ u, forN n lo (fun _ st => readFastStep scanDouble st) (acc, ⟨t ++ u, false, false⟩)
        = .ok (res, ⟨r ++ u, false, false⟩) := by
  induction n with
  | zero =>
    intro lo t acc res s' h
    rw [forN] at h
    injection h with h
    injection h with h1 h2
    exact ⟨t, h2.symm, by rw [h1, Nat.add_zero], fun u => by rw [forN, h1]⟩
  | succ n ih =>
    intro lo t acc res s' h
    rw [forN] at h
    obtain ⟨⟨a1, s1⟩, h1, h2⟩ := Res.bind_eq_ok.1 h
    obtain ⟨r, rfl, hr⟩ := readFastStep_steady t acc a1 s1 h1
    obtain ⟨r', h3, h4, h5⟩ := ih (lo + 1) r a1 res s' h2
    refine ⟨r', h3, ?_, fun u => ?_⟩
    · have : a1.length = acc.length + 1 := by
        unfold readFastStep at h1
        dsimp only at h1
        split at h1
        · cases h1
        · split at h1
          · cases h1
          · injection h1 with h1
            injection h1 with h1 _
            rw [← h1, List.length_append]; rfl
      omega
    · rw [forN, hr u]
      exact h5 u

theorem readFast_cases (n : ℕ) : ∀ (lo : ℕ) (st : List ℝ × IStream),
    (∃ r, forN n lo (fun _ st => readFastStep scanDouble st) st = .ok r) ∨
      ∃ m, forN n lo (fun _ st => readFastStep scanDouble st) st = .throws m := by
  induction n with
  | zero => intro lo st; exact Or.inl ⟨st, rfl⟩
  | succ n ih =>
    intro lo st
    rw [forN]
    have h : (∃ r, readFastStep scanDouble st = .ok r) ∨ ∃ m, readFastStep scanDouble st = .throws m := by
      unfold readFastStep
      dsimp only
      split
      · exact Or.inr ⟨_, rfl⟩
      · split
        · exact Or.inr ⟨_, rfl⟩
        · exact Or.inl ⟨_, rfl⟩
    rcases h with ⟨r, hr⟩ | ⟨m, hm⟩
    · rw [hr]; exact ih (lo + 1) r
    · rw [hm]; exact Or.inr ⟨m, rfl⟩

/-- A reader that returns or throws, whatever the stream. -/
def Answers {T : Type} (r : Res T) : Prop := (∃ x, r = .ok x) ∨ ∃ m, r = .throws m

theorem answers_bind {T U : Type} {r : Res T} {f : T → Res U} (h : Answers r) (hf : ∀ x, Answers (f x)) :
    Answers (r.bind f) := by
  rcases h with ⟨x, rfl⟩ | ⟨m, rfl⟩
  · exact hf x
  · exact Or.inr ⟨m, rfl⟩

theorem answers_readNext {T : Type} (scan : List Char → Option T × List Char) (s : IStream) :
    Answers (readNext scan s) := by
  unfold readNext
  dsimp only
  split
  · exact Or.inr ⟨_, rfl⟩
  · refine answers_bind ?_ fun x => Or.inl ⟨_, rfl⟩
    unfold parseType
    split
    · exact Or.inr ⟨_, rfl⟩
    · split
      · exact Or.inr ⟨_, rfl⟩
      · exact Or.inl ⟨_, rfl⟩

theorem answers_readIrapHeader (s : IStream) : Answers (readIrapHeader s) := by
  unfold readIrapHeader
  repeat' first
    | exact Or.inl ⟨_, rfl⟩
    | refine answers_bind (answers_readNext _ _) fun _ => ?_

end Verif
