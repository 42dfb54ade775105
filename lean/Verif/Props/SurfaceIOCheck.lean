import Verif.Props.SurfaceIO

/-! # Surface files in Irap classic format: which files are accepted -/

namespace Verif

/-- The two sizes in the header, if there is one, are not negative. -/
def SizesNonneg (file : List Char) : Prop :=
  ∀ h s, readIrapHeader (IStream.openOn file) = .ok (h, s) → 0 ≤ h.ni ∧ 0 ≤ h.nj

theorem readIrapHeader_stream {file : List Char} {h : IrapHeader} {s : IStream}
    (e : readIrapHeader (IStream.openOn file) = .ok (h, s)) :
    s = ⟨[], true, true⟩ ∨ ∃ r, s = ⟨r, false, false⟩ := by
  rcases steady_readIrapHeader.2 file h s e with h1 | ⟨r, h1, -⟩
  · exact Or.inl h1
  · exact Or.inr ⟨r, h1⟩

theorem readFast_stream {n : ℕ} {s s' : IStream} {data : List ℝ} (hs : s = ⟨[], true, true⟩ ∨ ∃ r, s = ⟨r, false, false⟩)
    (e : readAsciiArrayFast scanDouble s n = .ok (data, s')) :
    (s' = ⟨[], true, true⟩ ∧ n = 0 ∨ ∃ r, s' = ⟨r, false, false⟩) ∧ data.length = n := by
  unfold readAsciiArrayFast forRange at e
  rw [Nat.sub_zero] at e
  rcases hs with rfl | ⟨t, rfl⟩
  · rcases n with _ | n
    · rw [forN] at e
      injection e with e
      injection e with e1 e2
      exact ⟨Or.inl ⟨e2.symm, rfl⟩, by rw [← e1]; rfl⟩
    · obtain ⟨m, hm⟩ := (not_good_cases (s := ⟨[], true, true⟩) rfl ℝ scanDouble).2 []
      rw [forN, hm] at e
      cases e
  · obtain ⟨r, h1, h2, -⟩ := readFast_steady n 0 t [] data s' e
    exact ⟨Or.inr ⟨r, h1⟩, by simpa using h2⟩

theorem checkEndOfFile_answers {s : IStream} (hs : s = ⟨[], true, true⟩ ∨ ∃ r, s = ⟨r, false, false⟩) :
    Answers (checkEndOfFile s) := by
  rcases hs with rfl | ⟨r, rfl⟩
  · exact Or.inl ⟨_, rfl⟩
  · unfold checkEndOfFile
    rw [if_neg (by simp), if_neg (by simp)]
    split <;> exact Or.inl ⟨_, rfl⟩

theorem sizeOfInt_nonneg {n : ℤ} (h0 : 0 ≤ n) (h : n < 2 ^ 31) : sizeOfInt n = n.toNat := by
  unfold sizeOfInt
  rw [Int.emod_eq_of_lt h0 (by norm_num at h ⊢; omega)]

theorem all_of_dropWhile_nil {p : Char → Bool} {l : List Char} (h : l.dropWhile p = []) :
    ∀ c ∈ l, p c = true := by
  induction l with
  | nil => simp
  | cons a t ih =>
    rw [List.dropWhile_cons] at h
    split at h
    · rename_i ha
      intro c hc
      rw [List.mem_cons] at hc
      rcases hc with rfl | hc
      · exact ha
      · exact ih h c hc
    · cases h

theorem scanInt_range {l : List Char} {v : ℤ} (h : (scanInt l).1 = some v) : -2 ^ 31 ≤ v ∧ v < 2 ^ 31 := by
  unfold scanInt at h
  dsimp only at h
  generalize (if (scanSign l).1 = true then -((digitsValue ((scanSign l).2.takeWhile isDigitC) : ℕ) : ℤ)
    else ((digitsValue ((scanSign l).2.takeWhile isDigitC) : ℕ) : ℤ)) = w at h
  by_cases h1 : (scanSign l).2.takeWhile isDigitC = []
  · rw [if_pos h1] at h; cases h
  · rw [if_neg h1] at h
    by_cases h2 : -2 ^ 31 ≤ w ∧ w < 2 ^ 31
    · rw [if_pos h2] at h
      have := Option.some.inj h
      rwa [← this]
    · rw [if_neg h2] at h; cases h

theorem readNext_int_range {s : IStream} {i : ℤ} {s' : IStream} (h : readNext scanInt s = .ok (i, s')) :
    -2 ^ 31 ≤ i ∧ i < 2 ^ 31 := by
  unfold readNext at h
  dsimp only at h
  split at h
  · cases h
  · obtain ⟨x, h1, h2⟩ := Res.bind_eq_ok.1 h
    injection h2 with h2
    injection h2 with h2 _
    subst h2
    unfold parseType at h1
    split at h1
    · cases h1
    · rename_i y i' hy
      split at h1
      · cases h1
      · injection h1 with h1
        subst h1
        unfold IStream.extract at hy
        split at hy
        · split at hy
          · cases hy
          · rename_i l hl
            dsimp only at hy
            split at hy
            · cases hy
            · rename_i v hv
              injection hy with hy1 hy2
              injection hy1 with hy1
              subst hy1
              exact scanInt_range hv
        · cases hy

theorem readIrapHeader_range {s s' : IStream} {h : IrapHeader} (e : readIrapHeader s = .ok (h, s')) :
    (-2 ^ 31 ≤ h.ni ∧ h.ni < 2 ^ 31) ∧ (-2 ^ 31 ≤ h.nj ∧ h.nj < 2 ^ 31) := by
  unfold readIrapHeader at e
  simp only [Res.monad_bind_eq] at e
  obtain ⟨⟨_, s1⟩, -, e⟩ := Res.bind_eq_ok.1 e
  obtain ⟨⟨nj, s2⟩, hj, e⟩ := Res.bind_eq_ok.1 e
  obtain ⟨⟨_, s3⟩, -, e⟩ := Res.bind_eq_ok.1 e
  obtain ⟨⟨_, s4⟩, -, e⟩ := Res.bind_eq_ok.1 e
  obtain ⟨⟨_, s5⟩, -, e⟩ := Res.bind_eq_ok.1 e
  obtain ⟨⟨_, s6⟩, -, e⟩ := Res.bind_eq_ok.1 e
  obtain ⟨⟨_, s7⟩, -, e⟩ := Res.bind_eq_ok.1 e
  obtain ⟨⟨_, s8⟩, -, e⟩ := Res.bind_eq_ok.1 e
  obtain ⟨⟨ni, s9⟩, hi, e⟩ := Res.bind_eq_ok.1 e
  obtain ⟨⟨_, _⟩, -, e⟩ := Res.bind_eq_ok.1 e
  obtain ⟨⟨_, _⟩, -, e⟩ := Res.bind_eq_ok.1 e
  obtain ⟨⟨_, _⟩, -, e⟩ := Res.bind_eq_ok.1 e
  obtain ⟨⟨_, _⟩, -, e⟩ := Res.bind_eq_ok.1 e
  obtain ⟨⟨_, _⟩, -, e⟩ := Res.bind_eq_ok.1 e
  obtain ⟨⟨_, _⟩, -, e⟩ := Res.bind_eq_ok.1 e
  obtain ⟨⟨_, _⟩, -, e⟩ := Res.bind_eq_ok.1 e
  obtain ⟨⟨_, _⟩, -, e⟩ := Res.bind_eq_ok.1 e
  obtain ⟨⟨_, _⟩, -, e⟩ := Res.bind_eq_ok.1 e
  obtain ⟨⟨_, _⟩, -, e⟩ := Res.bind_eq_ok.1 e
  injection e with e
  injection e with e _
  subst e
  exact ⟨readNext_int_range hi, readNext_int_range hj⟩

/-- Everything that happens in a reading that succeeds. -/
theorem readIrap_ok {file : List Char} {s0 : RegSurf} {r : RegSurf × ℝ} (h : readIrap file s0 = .ok r) :
    ∃ (hd : IrapHeader) (s s' : IStream) (grid : Grid2D ℝ) (data : List ℝ),
      readIrapHeader (IStream.openOn file) = .ok (hd, s) ∧
      ¬ hd.ni - 1 < -2 ^ 31 ∧ ¬ hd.nj - 1 < -2 ^ 31 ∧
      resizeGrid (sizeOfInt hd.ni) (sizeOfInt hd.nj) = .ok grid ∧
      readAsciiArrayFast scanDouble s grid.data.length = .ok (data, s') ∧
      (∃ s2, checkEndOfFile s' = .ok (true, s2)) ∧
      r.1.grid = ⟨sizeOfInt hd.ni, sizeOfInt hd.nj, data⟩ := by
  unfold readIrap at h
  simp only [Res.monad_bind_eq] at h
  obtain ⟨⟨hd, s⟩, e1, h⟩ := Res.bind_eq_ok.1 h
  dsimp only at h
  obtain ⟨ni1, e2, h⟩ := Res.bind_eq_ok.1 h
  obtain ⟨nj1, e3, h⟩ := Res.bind_eq_ok.1 h
  obtain ⟨grid, e4, h⟩ := Res.bind_eq_ok.1 h
  obtain ⟨⟨data, s'⟩, e5, h⟩ := Res.bind_eq_ok.1 h
  dsimp only at h
  obtain ⟨⟨eof, s2⟩, e6, h⟩ := Res.bind_eq_ok.1 h
  dsimp only at h
  split at h
  · rename_i he
    subst he
    injection h with h
    refine ⟨hd, s, s', grid, data, e1, ?_, ?_, e4, e5, ⟨s2, e6⟩, ?_⟩
    · intro hc; unfold predInt32 at e2; rw [if_pos hc] at e2; cases e2
    · intro hc; unfold predInt32 at e3; rw [if_pos hc] at e3; cases e3
    · rw [← h]
      change (⟨grid.ni, grid.nj, data⟩ : Grid2D ℝ) = _
      unfold resizeGrid at e4
      dsimp only at e4
      split at e4
      · cases e4
      · injection e4 with e4
        rw [← e4]
  · cases h

/-- C85. Whatever the file, `ReadIrapClassicAsciiSurf` throws or returns, and the surface it returns has one
value for each of its nodes.

Partial: the sizes in the file must not be negative, see `irap_negative_sizes` and `irap_size_overflow`. -/
theorem irap_read_safe_partial (file : List Char) (s0 : RegSurf) (hs : SizesNonneg file) :
    ((∃ r, readIrap file s0 = .ok r) ∨ ∃ m, readIrap file s0 = .throws m) ∧
      ∀ s' a', readIrap file s0 = .ok (s', a') → s'.grid.data.length = s'.grid.ni * s'.grid.nj := by
  constructor
  · change Answers _
    unfold readIrap
    simp only [Res.monad_bind_eq]
    rcases answers_readIrapHeader (IStream.openOn file) with ⟨⟨h, s⟩, e⟩ | ⟨m, e⟩
    · obtain ⟨h1, h2⟩ := hs h s e
      rw [e]
      simp only [Res.bind_ok]
      have p1 : predInt32 h.ni = .ok (h.ni - 1) := by unfold predInt32; rw [if_neg (by omega)]
      have p2 : predInt32 h.nj = .ok (h.nj - 1) := by unfold predInt32; rw [if_neg (by omega)]
      rw [p1, p2]
      simp only [Res.bind_ok]
      refine answers_bind ?_ fun grid => ?_
      · unfold resizeGrid
        dsimp only
        split
        · exact Or.inr ⟨_, rfl⟩
        · exact Or.inl ⟨_, rfl⟩
      · rcases readFast_cases grid.data.length 0 ([], s) with ⟨⟨data, s'⟩, e2⟩ | ⟨m, e2⟩
        · have e3 : readAsciiArrayFast scanDouble s grid.data.length = .ok (data, s') := e2
          rw [e3]
          simp only [Res.bind_ok]
          have hst := (readFast_stream (readIrapHeader_stream e) e3).1
          refine answers_bind (checkEndOfFile_answers ?_) fun p => ?_
          · rcases hst with h | h
            · exact Or.inl h.1
            · exact Or.inr h
          · split
            · exact Or.inl ⟨_, rfl⟩
            · exact Or.inr ⟨_, rfl⟩
        · have e3 : readAsciiArrayFast scanDouble s grid.data.length = .throws m := e2
          rw [e3]
          exact Or.inr ⟨m, rfl⟩
    · rw [e]; exact Or.inr ⟨m, rfl⟩
  · intro s' a' h
    obtain ⟨hd, s, s1, grid, data, e1, -, -, e4, e5, -, e6⟩ := readIrap_ok h
    obtain ⟨h1, h2⟩ := hs hd s e1
    obtain ⟨r1, r2⟩ := readIrapHeader_range e1
    have hl := (readFast_stream (readIrapHeader_stream e1) e5).2
    change s'.grid = _ at e6
    rw [e6]
    dsimp only
    rw [hl]
    rw [sizeOfInt_nonneg h1 r1.2, sizeOfInt_nonneg h2 r2.2] at *
    unfold resizeGrid at e4
    dsimp only at e4
    split at e4
    · cases e4
    · injection e4 with e4
      rw [← e4, List.length_replicate]
      refine Nat.mod_eq_of_lt ?_
      have a1 : hd.ni.toNat < 2 ^ 31 := by omega
      have a2 : hd.nj.toNat < 2 ^ 31 := by omega
      calc hd.ni.toNat * hd.nj.toNat ≤ 2 ^ 31 * 2 ^ 31 := Nat.mul_le_mul a1.le a2.le
        _ < 2 ^ 64 := by norm_num

/-- The hypothesis holds for every file that is written from a surface, so the theorem says that it can be
read, and for a file that is no surface at all. -/
example (s : RegSurf) (angle : ℝ) (hi : s.grid.ni < 2 ^ 31) (hj : s.grid.nj < 2 ^ 31) :
    SizesNonneg (writeIrap s angle) := by
  intro h st e
  rw [readIrapHeader_write s angle hi hj] at e
  injection e with e
  injection e with e _
  subst e
  exact ⟨Int.natCast_nonneg _, Int.natCast_nonneg _⟩

/-- C85. A file with negative sizes is accepted: with NI = -1 and NJ = -1 and one value, it becomes a surface
of 2^64 - 1 by 2^64 - 1 nodes with one value, and reading the value of its second node is undefined. -/
theorem irap_negative_sizes (s0 : RegSurf) : ∃ (file : List Char) (s' : RegSurf) (a' : ℝ),
    readIrap file s0 = .ok (s', a') ∧ s'.grid.ni = 2 ^ 64 - 1 ∧ s'.grid.nj = 2 ^ 64 - 1 ∧
      s'.grid.data.length = 1 ∧ s'.grid.get 1 0 = .ub "read out of range" := by
  have hd := readIrapHeader_text (ni := -1) (nj := -1) (by norm_num) (by norm_num) 1 1 0 0 0 0 0
    (showFixed 6 5 ++ ' ' :: [])
  have hsz : sizeOfInt (-1) = 2 ^ 64 - 1 := by unfold sizeOfInt; norm_num; rfl
  have hp : predInt32 (-1) = .ok (-1 - 1) := by unfold predInt32; rw [if_neg (by norm_num)]
  have hres : resizeGrid (2 ^ 64 - 1) (2 ^ 64 - 1) = .ok ⟨2 ^ 64 - 1, 2 ^ 64 - 1, [0]⟩ := by
    unfold resizeGrid
    norm_num
  have hread : readAsciiArrayFast scanDouble ⟨'\n' :: (showFixed 6 5 ++ ' ' :: []), false, false⟩ 1
      = .ok ([roundDec 6 5], ⟨[' '], false, false⟩) := by
    have := extract_double (ws := ['\n']) (by decide) (p := 6) (by norm_num) 5 (s := ' ') (by decide) []
    rw [List.cons_append, List.nil_append] at this
    unfold readAsciiArrayFast forRange
    rw [Nat.sub_zero, show (1 : ℕ) = 0 + 1 from rfl, forN]
    unfold readFastStep
    dsimp only
    rw [this]
    rfl
  refine ⟨irapText (-1) (-1) 1 1 0 0 0 0 0 (showFixed 6 5 ++ ' ' :: []),
          { grid := ⟨2 ^ 64 - 1, 2 ^ 64 - 1, [roundDec 6 5]⟩, x_min := roundDec 2 0, y_min := roundDec 2 0,
            lx := ((-1 - 1 : ℤ) : ℝ) * roundDec 6 1, ly := ((-1 - 1 : ℤ) : ℝ) * roundDec 6 1,
            dx := spacing (2 ^ 64 - 1) (((-1 - 1 : ℤ) : ℝ) * roundDec 6 1),
            dy := spacing (2 ^ 64 - 1) (((-1 - 1 : ℤ) : ℝ) * roundDec 6 1), missing := irapMissing },
          Real.pi / 180 * roundDec 6 0, ?_, rfl, rfl, rfl, ?_⟩
  · unfold readIrap
    rw [hd]
    simp only [Res.monad_bind_eq, Res.bind_ok, hp, hsz, hres, List.length_singleton, hread,
      checkEndOfFile_space (ws := [' ']) (by decide), if_true]
    rfl
  · unfold Grid2D.get Grid2D.getIndex
    rw [if_pos (by norm_num)]
    rfl

/-- C85. A file with NI = -2147483648 makes the computation overflow, which is undefined. -/
theorem irap_size_overflow (s0 : RegSurf) : ∃ file : List Char,
    readIrap file s0 = .ub "signed overflow" := by
  refine ⟨irapText (-2 ^ 31) 1 1 1 0 0 0 0 0 [], ?_⟩
  have hd := readIrapHeader_text (ni := -2 ^ 31) (nj := 1) (by norm_num) (by norm_num) 1 1 0 0 0 0 0 []
  have hp : predInt32 (-2 ^ 31) = .ub "signed overflow" := by
    unfold predInt32; rw [if_pos (by norm_num)]
  unfold readIrap
  rw [hd]
  simp only [Res.monad_bind_eq, Res.bind_ok, hp]
  rfl

/-- C86. If a file with at least one value is accepted, then the same file with anything after it is accepted
if and only if that is white space, and gives the same surface. So no file that is accepted can be cut to a
shorter one that is accepted, other than by leaving out white space at its end. -/
theorem irap_extend {t : List Char} {s0 : RegSurf} {r : RegSurf × ℝ} (h : readIrap t s0 = .ok r)
    (hne : r.1.grid.data ≠ []) (u : List Char) :
    ((∀ c ∈ u, isSpaceC c = true) → readIrap (t ++ u) s0 = .ok r) ∧
      ((∃ c ∈ u, isSpaceC c = false) → ∃ m, readIrap (t ++ u) s0 = .throws m) := by
  obtain ⟨hd, s, s1, grid, data, e1, p1, p2, e4, e5, ⟨s2, e6⟩, e7⟩ := readIrap_ok h
  have hl := readFast_stream (readIrapHeader_stream e1) e5
  rw [e7] at hne
  have hn : grid.data.length ≠ 0 := by
    intro h0
    rw [h0] at hl
    exact hne (List.length_eq_zero_iff.1 hl.2)
  rcases steady_readIrapHeader.2 t hd s e1 with rfl | ⟨r1, rfl, hr1⟩
  · exfalso
    unfold readAsciiArrayFast forRange at e5
    rw [Nat.sub_zero] at e5
    obtain ⟨m, hm⟩ := (not_good_cases (s := ⟨[], true, true⟩) rfl ℝ scanDouble).2 []
    obtain ⟨n, hn'⟩ := Nat.exists_eq_succ_of_ne_zero hn
    rw [hn', forN, hm] at e5
    cases e5
  · obtain ⟨r2, rfl, -, hr2⟩ := readFast_steady grid.data.length 0 r1 [] data s1 e5
    have hr1' := hr1 u
    have hr2' : readAsciiArrayFast scanDouble ⟨r1 ++ u, false, false⟩ grid.data.length
        = .ok (data, ⟨r2 ++ u, false, false⟩) := hr2 u
    have hr2sp : ∀ c ∈ r2, isSpaceC c = true := by
      unfold checkEndOfFile at e6
      rw [if_neg (by simp), if_neg (by simp)] at e6
      split at e6
      · rename_i hx
        exact fun c hc => all_of_dropWhile_nil hx c hc
      · injection e6 with e6
        injection e6 with e6 _
        cases e6
    have hpi : predInt32 hd.ni = .ok (hd.ni - 1) := by unfold predInt32; rw [if_neg p1]
    have hpj : predInt32 hd.nj = .ok (hd.nj - 1) := by unfold predInt32; rw [if_neg p2]
    have hopen : ∀ l, IStream.openOn l = ⟨l, false, false⟩ := fun _ => rfl
    constructor
    · intro hu
      rw [← h]
      unfold readIrap
      rw [hopen, hr1', e1]
      simp only [Res.monad_bind_eq, Res.bind_ok, hpi, hpj, e4, e5, hr2', e6]
      rw [checkEndOfFile_space (ws := r2 ++ u)]
      · simp
      · intro c hc
        rw [List.mem_append] at hc
        exact hc.elim (hr2sp c) (hu c)
    · rintro ⟨c, hc, hcs⟩
      refine ⟨"File too long.", ?_⟩
      unfold readIrap
      rw [hopen, hr1']
      simp only [Res.monad_bind_eq, Res.bind_ok, hpi, hpj, e4, hr2']
      have hne2 : (r2 ++ u).dropWhile isSpaceC ≠ [] := by
        intro hx
        have := all_of_dropWhile_nil hx c (List.mem_append_right _ hc)
        rw [hcs] at this; cases this
      obtain ⟨a, l, hal⟩ := List.exists_cons_of_ne_nil hne2
      have : checkEndOfFile ⟨r2 ++ u, false, false⟩ = .ok (false, ⟨a :: l, false, false⟩) := by
        unfold checkEndOfFile
        rw [if_neg (by simp), if_neg (by simp)]
        dsimp only
        rw [hal]
      rw [this]
      rfl

/-- C86. The two parts together, as a statement on files that are cut. -/
theorem irap_cut {t u : List Char} {s0 : RegSurf} {r r' : RegSurf × ℝ} (h : readIrap t s0 = .ok r)
    (hne : r.1.grid.data ≠ []) (h' : readIrap (t ++ u) s0 = .ok r') :
    (∀ c ∈ u, isSpaceC c = true) ∧ r' = r := by
  obtain ⟨h1, h2⟩ := irap_extend h hne u
  have hu : ∀ c ∈ u, isSpaceC c = true := by
    intro c hc
    by_contra hx
    obtain ⟨m, hm⟩ := h2 ⟨c, hc, by simpa using hx⟩
    rw [hm] at h'
    cases h'
  refine ⟨hu, ?_⟩
  rw [h1 hu] at h'
  exact (Res.ok.inj h').symm

/-- There is a file that meets the hypotheses. -/
example (s0 : RegSurf) : ∃ t r, readIrap t s0 = .ok r ∧ r.1.grid.data ≠ [] := by
  refine ⟨_, _, readIrap_writeIrap (twoNodes 10 1 2) s0 0 (by decide) (by decide) rfl ?_, ?_⟩
  · change 2 < 2 ^ 60; norm_num
  · simp [irapBack, twoNodes, RegSurf.ofGrid]

end Verif
