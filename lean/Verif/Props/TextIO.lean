import Verif.Lemmas.SurfaceIO

/-! # Text streams: quotations, comments and arrays -/

namespace Verif

/-! ## Quotations -/

theorem quotedOpen_append {q : Char} {pre : List Char} (hp : q ∉ pre) (l : List Char) :
    quotedOpen q (pre ++ q :: l) = some l := by
  induction pre with
  | nil =>
    rw [List.nil_append, quotedOpen, if_pos rfl]
  | cons a t ih =>
    rw [List.cons_append, quotedOpen, if_neg (by rintro rfl; simp at hp), ih (by simp at hp; exact hp.2)]

theorem quotedClose_append {q : Char} {body : List Char} (hb : q ∉ body) :
    ∀ (c : Char) (s rest : List Char),
      quotedClose q c s (body ++ q :: rest) = (s ++ c :: body, ⟨rest, false, false⟩) := by
  induction body with
  | nil => intro c s rest; rw [List.nil_append, quotedClose, if_pos rfl]
  | cons a t ih =>
    intro c s rest
    rw [List.cons_append, quotedClose, if_neg (by rintro rfl; simp at hb), ih (by simp at hb; exact hb.2)]
    simp

theorem quotedClose_end {q : Char} {body : List Char} (hb : q ∉ body) :
    ∀ (c : Char) (s : List Char), quotedClose q c s body = (s ++ c :: body, ⟨[], true, true⟩) := by
  induction body with
  | nil => intro c s; rfl
  | cons a t ih =>
    intro c s
    rw [quotedClose, if_neg (by rintro rfl; simp at hb), ih (by simp at hb; exact hb.2)]
    simp

/-- C87. `ReadNextQuoted` gives the text between the next two quotation marks and leaves the stream after
the second.

Partial: the text must not be empty, see `readNextQuoted_empty`. -/
theorem readNextQuoted_partial {q : Char} {pre body : List Char} (hp : q ∉ pre) (hb : q ∉ body)
    (hne : body ≠ []) (rest : List Char) :
    readNextQuoted q (IStream.openOn (pre ++ q :: (body ++ q :: rest)))
      = .ok (body, ⟨rest, false, false⟩) := by
  obtain ⟨c, t, rfl⟩ := List.exists_cons_of_ne_nil hne
  unfold readNextQuoted IStream.openOn
  rw [if_neg (by simp), if_neg (by simp)]
  dsimp only
  rw [quotedOpen_append hp, List.cons_append]
  dsimp only
  rw [quotedClose_append (by simp at hb; exact hb.2), List.nil_append]

/-- C87. An empty quotation is not recognised: the result is the closing mark and the text up to the
opening mark of the next quotation. -/
theorem readNextQuoted_empty {q : Char} {pre mid : List Char} (hp : q ∉ pre) (hm : q ∉ mid)
    (rest : List Char) :
    readNextQuoted q (IStream.openOn (pre ++ q :: (q :: (mid ++ q :: rest))))
      = .ok (q :: mid, ⟨rest, false, false⟩) := by
  unfold readNextQuoted IStream.openOn
  rw [if_neg (by simp), if_neg (by simp)]
  dsimp only
  rw [quotedOpen_append hp]
  dsimp only
  rw [quotedClose_append hm, List.nil_append]

/-- C87. A quotation that is not closed is accepted: the result is the rest of the file. -/
theorem readNextQuoted_unclosed {q : Char} {pre body : List Char} (hp : q ∉ pre) (hb : q ∉ body)
    (hne : body ≠ []) :
    readNextQuoted q (IStream.openOn (pre ++ q :: body)) = .ok (body, ⟨[], true, true⟩) := by
  obtain ⟨c, t, rfl⟩ := List.exists_cons_of_ne_nil hne
  unfold readNextQuoted IStream.openOn
  rw [if_neg (by simp), if_neg (by simp)]
  dsimp only
  rw [quotedOpen_append hp]
  dsimp only
  rw [quotedClose_end (by simp at hb; exact hb.2), List.nil_append]

/-- C87. Without a quotation mark, or with none but at the very end, there is nothing to read. -/
theorem readNextQuoted_none {q : Char} {l : List Char} (h : q ∉ l) :
    readNextQuoted q (IStream.openOn l) = .throws "EndOfFile" ∧
      readNextQuoted q (IStream.openOn (l ++ [q])) = .throws "EndOfFile" := by
  have e : quotedOpen q l = none := by
    induction l with
    | nil => rfl
    | cons a t ih => rw [quotedOpen, if_neg (by rintro rfl; simp at h), ih (by simp at h; exact h.2)]
  unfold readNextQuoted IStream.openOn
  rw [if_neg (by simp), if_neg (by simp), if_neg (by simp), if_neg (by simp)]
  dsimp only
  rw [e, quotedOpen_append h]
  exact ⟨rfl, rfl⟩

/-- The hypotheses of the theorems on quotations hold for ordinary text: in `MAPUNITS 'METRES' /` the unit is
read. -/
example : readNextQuoted '\'' (IStream.openOn "MAPUNITS 'METRES' /".toList)
    = .ok ("METRES".toList, ⟨" /".toList, false, false⟩) :=
  readNextQuoted_partial (pre := "MAPUNITS ".toList) (body := "METRES".toList) (by decide) (by decide)
    (by decide) " /".toList

/-! ## Comments -/

/-- Text that has only white space and comments: a comment begins with the symbol and goes to the end of
its line. -/
inductive CommentsOnly (sym : Char) : List Char → Prop
  | nil : CommentsOnly sym []
  | space {c : Char} {l : List Char} : isSpaceC c = true → CommentsOnly sym l → CommentsOnly sym (c :: l)
  | comment {line l : List Char} : '\n' ∉ line → CommentsOnly sym l →
      CommentsOnly sym (sym :: (line ++ '\n' :: l))

theorem skip_inLine {sym : Char} {line : List Char} (h : '\n' ∉ line) (got : Bool) (l : List Char) :
    skipCommentsLoop sym true got (line ++ '\n' :: l) = skipCommentsLoop sym false false l := by
  induction line generalizing got with
  | nil => rw [List.nil_append, skipCommentsLoop, if_pos rfl]
  | cons a t ih =>
    rw [List.cons_append, skipCommentsLoop, if_neg (by rintro rfl; simp at h), ih (by simp at h; exact h.2)]

theorem skip_comment {sym : Char} (hs : isSpaceC sym = false) {line : List Char} (h : '\n' ∉ line) (got : Bool)
    (l : List Char) :
    skipCommentsLoop sym false got (sym :: (line ++ '\n' :: l)) = skipCommentsLoop sym false false l := by
  rw [skipCommentsLoop, if_neg (by rw [hs]; simp), if_pos rfl]
  exact skip_inLine h _ _

/-- C88. `SkipComments` stops at the first character that is neither white space nor in a comment. -/
theorem skipComments_spec {sym : Char} (hs : isSpaceC sym = false) {pre : List Char}
    (hp : CommentsOnly sym pre) {c : Char} (hc : isSpaceC c = false) (hcs : c ≠ sym) (rest : List Char) :
    skipComments sym (IStream.openOn (pre ++ c :: rest)) = .ok (IStream.openOn (c :: rest)) := by
  have key : ∀ got, skipCommentsLoop sym false got (pre ++ c :: rest) = .ok (IStream.openOn (c :: rest)) := by
    induction hp with
    | nil =>
      intro got
      rw [List.nil_append, skipCommentsLoop, if_neg (by rw [hc]; simp), if_neg hcs]
      rfl
    | space ha _ ih =>
      intro got
      rw [List.cons_append, skipCommentsLoop, if_pos ha]
      exact ih true
    | comment hl _ ih =>
      intro got
      rw [List.cons_append, List.append_assoc, List.cons_append, skip_comment hs hl]
      exact ih false
  exact key false

/-- C88. If the file ends with the line of a comment, and if it is empty, a variable without a value is
compared. -/
theorem skipComments_ub {sym : Char} (hs : isSpaceC sym = false) {pre : List Char} (hp : CommentsOnly sym pre)
    {line : List Char} (hl : '\n' ∉ line) :
    skipComments sym (IStream.openOn (pre ++ (sym :: (line ++ ['\n']))))
        = .ub "read of an uninitialised character" ∧
      skipComments sym (IStream.openOn []) = .ub "read of an uninitialised character" := by
  refine ⟨?_, rfl⟩
  have key : ∀ got, skipCommentsLoop sym false got (pre ++ (sym :: (line ++ ['\n'])))
      = .ub "read of an uninitialised character" := by
    induction hp with
    | nil =>
      intro got
      rw [List.nil_append, skip_comment hs hl]
      rfl
    | space ha _ ih =>
      intro got
      rw [List.cons_append, skipCommentsLoop, if_pos ha]
      exact ih true
    | comment hl' _ ih =>
      intro got
      rw [List.cons_append, List.append_assoc, List.cons_append, skip_comment hs hl']
      exact ih false
  exact key false

/-- C88. If the file ends with white space, the stream has failed but is not at its end afterwards, so that
`CheckEndOfFile` does not say that it is. -/
theorem skipComments_space {sym : Char} {ws : List Char} (hw : ∀ c ∈ ws, isSpaceC c = true) (hne : ws ≠ []) :
    skipComments sym (IStream.openOn ws) = .ok ⟨[], false, true⟩ ∧
      checkEndOfFile ⟨[], false, true⟩ = .ub "read of an uninitialised character" := by
  refine ⟨?_, rfl⟩
  have key : ∀ l : List Char, (∀ c ∈ l, isSpaceC c = true) →
      skipCommentsLoop sym false true l = .ok ⟨[], false, true⟩ := by
    intro l
    induction l with
    | nil => intro _; rfl
    | cons a t ih =>
      intro h
      rw [skipCommentsLoop, if_pos (h a (by simp))]
      exact ih fun c hc => h c (by simp [hc])
  obtain ⟨a, t, rfl⟩ := List.exists_cons_of_ne_nil hne
  change skipCommentsLoop sym false false (a :: t) = _
  rw [skipCommentsLoop, if_pos (hw a (by simp))]
  exact key t fun c hc => hw c (by simp [hc])

/-- The hypotheses of the theorems on comments hold for a file with two comments. -/
example : skipComments '!' (IStream.openOn "! one\n\n  ! two\n 3 4".toList)
    = .ok (IStream.openOn "3 4".toList) := by
  have h : CommentsOnly '!' ('!' :: (" one".toList ++ '\n' :: ('\n' :: ' ' :: ' ' ::
      ('!' :: (" two".toList ++ '\n' :: (' ' :: [])))))) :=
    .comment (by decide) (.space (by decide) (.space (by decide) (.space (by decide)
      (.comment (by decide) (.space (by decide) .nil)))))
  exact skipComments_spec (by decide) h (c := '3') (by decide) (by decide) " 4".toList

/-! ## Arrays -/

/-- `scan` reads the same from a longer text if white space comes first in what is added. -/
def Local {T : Type} (scan : List Char → Option T × List Char) : Prop :=
  ∀ (l : List Char) (s : Char) (r : List Char), isSpaceC s = true →
    scan (l ++ s :: r) = ((scan l).1, (scan l).2 ++ s :: r)

theorem isSpaceC_cases {s : Char} (h : isSpaceC s = true) :
    isDigitC s = false ∧ s ≠ '.' ∧ s ≠ 'e' ∧ s ≠ 'E' ∧ s ≠ '-' ∧ s ≠ '+' := by
  unfold isSpaceC at h
  simp only [Bool.or_eq_true, decide_eq_true_eq] at h
  rcases h with ((((h | h) | h) | h) | h) | h <;> subst h <;> decide

theorem span_space {p : Char → Bool} {s : Char} (hs : p s = false) (l r : List Char) :
    (l ++ s :: r).takeWhile p = l.takeWhile p ∧ (l ++ s :: r).dropWhile p = l.dropWhile p ++ s :: r := by
  induction l with
  | nil => simp [List.takeWhile_cons, List.dropWhile_cons, hs]
  | cons a t ih =>
    obtain ⟨h1, h2⟩ := ih
    by_cases ha : p a = true
    · rw [List.cons_append, List.takeWhile_cons, List.takeWhile_cons, List.dropWhile_cons,
        List.dropWhile_cons, if_pos ha, if_pos ha, if_pos ha, if_pos ha, h1, h2]
      exact ⟨rfl, rfl⟩
    · rw [List.cons_append, List.takeWhile_cons, List.takeWhile_cons, List.dropWhile_cons,
        List.dropWhile_cons, if_neg ha, if_neg ha, if_neg ha, if_neg ha]
      exact ⟨rfl, rfl⟩

theorem scanSign_space {s : Char} (hs : isSpaceC s = true) (l r : List Char) :
    scanSign (l ++ s :: r) = ((scanSign l).1, (scanSign l).2 ++ s :: r) := by
  rcases l with _ | ⟨a, t⟩
  · obtain ⟨-, -, -, -, h1, h2⟩ := isSpaceC_cases hs
    rw [List.nil_append]
    unfold scanSign
    split
    · rename_i h; injection h with h3 _; exact absurd h3 h1
    · rename_i h; injection h with h3 _; exact absurd h3 h2
    · rfl
  · exact scanSign_append (by simp) _

theorem head_space {s c : Char} (hsc : s ≠ c) (l r : List Char) :
    (l ++ s :: r).head? = some c ↔ l.head? = some c := by
  rcases l with _ | ⟨a, t⟩
  · simp [hsc]
  · simp

theorem scanInt_local : Local scanInt := by
  intro l s r hs
  obtain ⟨hd, -⟩ := isSpaceC_cases hs
  obtain ⟨h1, h2⟩ := span_space hd (scanSign l).2 r
  unfold scanInt
  dsimp only
  rw [scanSign_space hs]
  dsimp only
  rw [h1, h2]
  split
  · rfl
  · generalize (if (scanSign l).1 = true then -((digitsValue ((scanSign l).2.takeWhile isDigitC) : ℕ) : ℤ)
      else ((digitsValue ((scanSign l).2.takeWhile isDigitC) : ℕ) : ℤ)) = w
    split <;> rfl

theorem scanExponent_local : Local scanExponent := by
  intro l s r hs
  obtain ⟨hd, -, he, hE, -⟩ := isSpaceC_cases hs
  unfold scanExponent
  by_cases hc : l.head? = some 'e' ∨ l.head? = some 'E'
  · have hne : l ≠ [] := by rintro rfl; simp at hc
    rw [if_pos hc, if_pos (by rwa [head_space he, head_space hE])]
    dsimp only
    rw [tail_append_ne hne, scanSign_space hs]
    obtain ⟨h1, h2⟩ := span_space hd (scanSign l.tail).2 r
    dsimp only
    rw [h1, h2]
    split <;> rfl
  · rw [if_neg hc, if_neg (by rwa [head_space he, head_space hE])]

theorem scanDouble_local : Local scanDouble := by
  intro l s r hs
  obtain ⟨hd, hdot, -⟩ := isSpaceC_cases hs
  obtain ⟨h1, h2⟩ := span_space hd (scanSign l).2 r
  unfold scanDouble
  dsimp only
  rw [scanSign_space hs]
  dsimp only
  rw [h1, h2]
  by_cases hp : ((scanSign l).2.dropWhile isDigitC).head? = some '.'
  · have hne : (scanSign l).2.dropWhile isDigitC ≠ [] := by intro h; rw [h] at hp; simp at hp
    have hp' := (head_space hdot ((scanSign l).2.dropWhile isDigitC) r).2 hp
    rw [if_pos hp, if_pos hp, if_pos hp', if_pos hp', tail_append_ne hne]
    obtain ⟨h3, h4⟩ := span_space hd ((scanSign l).2.dropWhile isDigitC).tail r
    rw [h3, h4]
    split
    · rfl
    · rw [scanExponent_local _ _ _ hs]
      dsimp only
      split <;> rfl
  · have hp' : ¬ ((scanSign l).2.dropWhile isDigitC ++ s :: r).head? = some '.' := by
      rwa [head_space hdot]
    rw [if_neg hp, if_neg hp, if_neg hp', if_neg hp']
    split
    · rfl
    · rw [scanExponent_local _ _ _ hs]
      dsimp only
      split <;> rfl

theorem parseType_eq_ok {T : Type} {scan : List Char → Option T × List Char} {tok : List Char} {x : T}
    (hne : tok ≠ []) (ht : ∀ c ∈ tok, isSpaceC c = false) (h : parseType scan tok = .ok x) :
    scan tok = (some x, []) := by
  obtain ⟨a, t, rfl⟩ := List.exists_cons_of_ne_nil hne
  have h1 : (a :: t).dropWhile isSpaceC = a :: t := by
    simp [List.dropWhile_cons, ht a (by simp)]
  rcases hs : scan (a :: t) with ⟨o, r⟩
  unfold parseType IStream.extract IStream.openOn at h
  simp only [IStream.good, Bool.not_false, Bool.and_self, if_true] at h
  rw [h1] at h
  dsimp only at h
  rw [hs] at h
  rcases o with _ | v
  · cases h
  · dsimp only at h
    rcases r with _ | ⟨b, r⟩
    · simp [IStream.get, IStream.good] at h
      rw [h]
    · simp [IStream.get, IStream.good] at h

theorem mem_takeWhile {p : Char → Bool} {l : List Char} {c : Char} (h : c ∈ l.takeWhile p) : p c = true := by
  induction l with
  | nil => simp at h
  | cons a t ih =>
    rw [List.takeWhile_cons] at h
    split at h
    · rename_i ha
      rw [List.mem_cons] at h
      rcases h with rfl | h
      · exact ha
      · exact ih h
    · simp at h

theorem head_dropWhile {p : Char → Bool} {l t : List Char} {c : Char} (h : l.dropWhile p = c :: t) :
    p c = false := by
  induction l with
  | nil => cases h
  | cons a r ih =>
    rw [List.dropWhile_cons] at h
    split at h
    · exact ih h
    · rename_i ha
      injection h with h _
      subst h
      simpa using ha

theorem extract_eq {T : Type} {scan : List Char → Option T × List Char} {t l r : List Char} {a : Char} {x : T}
    (h : t.dropWhile isSpaceC = a :: l) (hs : scan (a :: l) = (some x, r)) :
    IStream.extract scan ⟨t, false, false⟩ = (some x, ⟨r, r.isEmpty, false⟩) := by
  unfold IStream.extract
  simp only [IStream.good, Bool.not_false, Bool.and_self, if_true]
  rw [h]
  dsimp only
  rw [hs]

/-- A token and what follows it. -/
theorem readNextToken_cases {t : List Char} {s' : IStream} {tok : List Char}
    (h : readNextToken ⟨t, false, false⟩ = (tok, s')) (hne : tok ≠ []) (hs' : s'.good = true) :
    (∀ c ∈ tok, isSpaceC c = false) ∧ ∃ ws sp rest, (∀ c ∈ ws, isSpaceC c = true) ∧ isSpaceC sp = true ∧
      t = ws ++ (tok ++ sp :: rest) ∧ s' = ⟨sp :: rest, false, false⟩ := by
  have hg : (⟨t, false, false⟩ : IStream).good = true := rfl
  unfold readNextToken at h
  rw [if_pos hg] at h
  dsimp only at h
  rcases hd : t.dropWhile isSpaceC with _ | ⟨c, t1⟩
  · rw [hd] at h
    injection h with h1 _
    exact absurd h1.symm hne
  · rw [hd] at h
    dsimp only at h
    rcases he : t1.dropWhile (fun c => !isSpaceC c) with _ | ⟨d, t2⟩
    · rw [he] at h
      injection h with _ h2
      rw [← h2] at hs'
      cases hs'
    · rw [he] at h
      injection h with h1 h2
      subst h1
      refine ⟨?_, t.takeWhile isSpaceC, d, t2, fun x hx => mem_takeWhile hx, ?_, ?_, h2.symm⟩
      · intro x hx
        rw [List.mem_cons] at hx
        rcases hx with rfl | hx
        · exact head_dropWhile hd
        · have := mem_takeWhile hx
          simpa using this
      · have := head_dropWhile he
        simpa using this
      · rw [List.cons_append, ← he, List.takeWhile_append_dropWhile, ← hd,
          List.takeWhile_append_dropWhile]

/-- One number: what `ReadNext` reads, `>>` reads too. -/
theorem readFastStep_of_readNext {T : Type} {scan : List Char → Option T × List Char} (hl : Local scan)
    {t : List Char} {x : T} {s' : IStream} (h : readNext scan ⟨t, false, false⟩ = .ok (x, s'))
    (hs' : s'.good = true) (acc : List T) :
    (∃ r, s' = ⟨r, false, false⟩) ∧ readFastStep scan (acc, ⟨t, false, false⟩) = .ok (acc ++ [x], s') := by
  rcases hr : readNextToken ⟨t, false, false⟩ with ⟨tok, s1⟩
  unfold readNext at h
  dsimp only at h
  rw [hr] at h
  dsimp only at h
  split at h
  · cases h
  · rename_i hne
    obtain ⟨x', h1, h2⟩ := Res.bind_eq_ok.1 h
    injection h2 with h2
    injection h2 with h2 h3
    subst h2 h3
    obtain ⟨htok, ws, sp, rest, hws, hsp, rfl, rfl⟩ := readNextToken_cases hr hne hs'
    refine ⟨⟨_, rfl⟩, ?_⟩
    have hsc := parseType_eq_ok hne htok h1
    have hsc2 : scan (tok ++ sp :: rest) = (some x', sp :: rest) := by
      rw [hl tok sp rest hsp, hsc]; rfl
    obtain ⟨a, t', rfl⟩ := List.exists_cons_of_ne_nil hne
    have h4 : (ws ++ (a :: t' ++ sp :: rest)).dropWhile isSpaceC = a :: t' ++ sp :: rest :=
      dropWhile_space hws (by intro c hc; simp at hc; subst hc; exact htok _ (by simp))
    unfold readFastStep
    dsimp only
    rw [extract_eq h4 hsc2]
    rfl

/-- C89. If `ReadAsciiArray` reads an array and does not come to the end of the file, then
`ReadAsciiArrayFast` reads the same numbers and leaves the stream in the same place. -/
theorem readAsciiArrayFast_eq {T : Type} {scan : List Char → Option T × List Char} (hl : Local scan)
    {t : List Char} {n : ℕ} {xs : List T} {s' : IStream}
    (h : readAsciiArray scan ⟨t, false, false⟩ n = .ok (xs, s')) (hs' : s'.good = true) :
    readAsciiArrayFast scan ⟨t, false, false⟩ n = .ok (xs, s') := by
  unfold readAsciiArray readAsciiArrayFast forRange at *
  rw [Nat.sub_zero] at *
  suffices key : ∀ (n lo : ℕ) (acc : List T) (t : List Char),
      forN n lo (fun _ (st : List T × IStream) => do
        let r ← readNext scan st.2
        .ok (st.1 ++ [r.1], r.2)) (acc, ⟨t, false, false⟩) = .ok (xs, s') →
      forN n lo (fun _ st => readFastStep scan st) (acc, ⟨t, false, false⟩) = .ok (xs, s') from
    key n 0 [] t h
  clear h
  intro n
  induction n with
  | zero => intro lo acc t h; exact h
  | succ n ih =>
    intro lo acc t h
    rw [forN] at h ⊢
    obtain ⟨⟨a1, s1⟩, h1, h2⟩ := Res.bind_eq_ok.1 h
    obtain ⟨⟨x, s2⟩, h3, h4⟩ := Res.bind_eq_ok.1 h1
    injection h4 with h4
    injection h4 with h4 h5
    dsimp only at h3 h4 h5
    subst h4 h5
    have hg : s2.good = true := by
      by_contra hb
      have hb' : s2.good = false := by simpa using hb
      rcases n with _ | n
      · rw [forN] at h2
        injection h2 with h2
        injection h2 with _ h2
        rw [h2] at hb'
        rw [hs'] at hb'
        cases hb'
      · obtain ⟨m, hm⟩ := (not_good_cases hb' T scan).1
        rw [forN] at h2
        dsimp only at h2
        rw [hm] at h2
        cases h2
    obtain ⟨⟨r, rfl⟩, h6⟩ := readFastStep_of_readNext hl h3 hg acc
    rw [h6, Res.bind_ok]
    exact ih _ _ _ h2

/-- C89. A number that is the last thing in a file is read by `ReadAsciiArray` and refused by
`ReadAsciiArrayFast`. -/
theorem readAsciiArrayFast_last {i : ℤ} (h : -2 ^ 31 ≤ i ∧ i < 2 ^ 31) :
    readAsciiArray scanInt (IStream.openOn (showInt i)) 1 = .ok ([i], ⟨[], true, true⟩) ∧
      readAsciiArrayFast scanInt (IStream.openOn (showInt i)) 1 = .throws "EndOfFile" := by
  obtain ⟨hne, hsp⟩ := showInt_chars i
  have hsc := scanInt_showInt h (rest := []) (by simp)
  rw [List.append_nil] at hsc
  obtain ⟨a, t, hat⟩ := List.exists_cons_of_ne_nil hne
  have hd : (showInt i).dropWhile isSpaceC = a :: t := by
    rw [hat, List.dropWhile_cons, if_neg]
    rw [hsp a (by rw [hat]; simp)]; simp
  have hd2 : t.takeWhile (fun c => !isSpaceC c) = t ∧ t.dropWhile (fun c => !isSpaceC c) = [] := by
    have : ∀ l : List Char, (∀ c ∈ l, isSpaceC c = false) →
        l.takeWhile (fun c => !isSpaceC c) = l ∧ l.dropWhile (fun c => !isSpaceC c) = [] := by
      intro l
      induction l with
      | nil => intro _; exact ⟨rfl, rfl⟩
      | cons b l ih =>
        intro hb
        obtain ⟨h1, h2⟩ := ih fun c hc => hb c (by simp [hc])
        simp [List.takeWhile_cons, List.dropWhile_cons, hb b (by simp), h1, h2]
    exact this t fun c hc => hsp c (by rw [hat]; simp [hc])
  constructor
  · have htok : readNextToken ⟨showInt i, false, false⟩ = (showInt i, ⟨[], true, true⟩) := by
      unfold readNextToken
      simp only [IStream.good, Bool.not_false, Bool.and_self, if_true]
      rw [hd]
      dsimp only
      rw [hd2.2]
      dsimp only
      rw [hd2.1, hat]
    have hr : readNext scanInt ⟨showInt i, false, false⟩ = .ok (i, ⟨[], true, true⟩) := by
      unfold readNext
      dsimp only
      rw [htok]
      dsimp only
      rw [if_neg hne, Res.monad_bind_eq, parseType_ok hne hsp hsc]
      rfl
    unfold readAsciiArray forRange IStream.openOn
    rw [Nat.sub_zero, show (1 : ℕ) = 0 + 1 from rfl, forN]
    dsimp only
    rw [hr]
    rfl
  · unfold readAsciiArrayFast forRange IStream.openOn
    rw [Nat.sub_zero, show (1 : ℕ) = 0 + 1 from rfl, forN]
    rw [hat] at hsc
    unfold readFastStep
    dsimp only
    rw [extract_eq hd hsc]
    rfl

/-- C89. Two numbers without white space between them are refused by `ReadAsciiArray` and read by
`ReadAsciiArrayFast`. -/
theorem readAsciiArrayFast_glued :
    readAsciiArray scanInt (IStream.openOn "1-2 ".toList) 2 = .throws "Could not convert whole" ∧
      readAsciiArrayFast scanInt (IStream.openOn "1-2 ".toList) 2 = .ok ([1, -2], ⟨[' '], false, false⟩) := by
  exact ⟨rfl, rfl⟩

theorem readAsciiArray_write_aux {T : Type} {scan : List Char → Option T × List Char} {shw : T → List Char}
    {P : T → Prop} {f : T → T} (hne : ∀ v, shw v ≠ []) (hsp : ∀ v, ∀ c ∈ shw v, isSpaceC c = false)
    (hrd : ∀ v, P v → scan (shw v) = (some (f v), [])) (perLine : ℕ) (rest : List Char) (vs : List T) :
    ∀ (count lo : ℕ) (ws : List Char) (acc : List T), (∀ c ∈ ws, isSpaceC c = true) → (∀ v ∈ vs, P v) →
      ∃ ws', (∀ c ∈ ws', isSpaceC c = true) ∧
        forN vs.length lo (fun _ (st : List T × IStream) => do
            let r ← readNext scan st.2
            .ok (st.1 ++ [r.1], r.2)) (acc, ⟨ws ++ (writeAsciiLoop shw perLine count vs ++ rest), false, false⟩)
          = .ok (acc ++ vs.map f, ⟨ws' ++ rest, false, false⟩) := by
  induction vs with
  | nil =>
    intro count lo ws acc hws _
    exact ⟨ws, hws, by simp [forN, writeAsciiLoop]⟩
  | cons v vs ih =>
    intro count lo ws acc hws hP
    obtain ⟨ws', h1, h3⟩ := ih (count + 1) (lo + 1)
      (' ' :: if count % perLine = 0 then ['\n'] else []) (acc ++ [f v]) (by
        intro c hc
        rw [List.mem_cons] at hc
        rcases hc with rfl | hc
        · decide
        · split at hc
          · simp at hc; subst hc; decide
          · simp at hc) (fun w hw => hP w (by simp [hw]))
    have hr := readNext_ok (scan := scan) (ws := ws) (tok := shw v) (s := ' ')
      (rest := (if count % perLine = 0 then ['\n'] else []) ++ (writeAsciiLoop shw perLine (count + 1) vs ++ rest))
      hws (hne v) (hsp v) (by decide) (hrd v (hP v (by simp)))
    refine ⟨ws', h1, ?_⟩
    rw [List.length_cons, forN]
    dsimp only
    rw [writeAsciiLoop]
    simp only [List.append_assoc, List.cons_append, List.nil_append] at hr h3 ⊢
    rw [hr]
    simp only [Res.monad_bind_eq, Res.bind_ok] at h3 ⊢
    rw [h3]
    simp

/-- C89. An array written with `WriteAsciiArray`, in a format that `>>` can read, is read by both readers,
whatever comes after it: `f v` is the number that is read where `v` was written. -/
theorem readAsciiArray_write {T : Type} {scan : List Char → Option T × List Char} (hl : Local scan)
    {shw : T → List Char} {P : T → Prop} {f : T → T} (hne : ∀ v, shw v ≠ [])
    (hsp : ∀ v, ∀ c ∈ shw v, isSpaceC c = false) (hrd : ∀ v, P v → scan (shw v) = (some (f v), []))
    {perLine : ℕ} (hpl : perLine ≠ 0) (rest : List Char) (vs : List T) (hP : ∀ v ∈ vs, P v) :
    ∃ text ws', writeAsciiArray shw perLine vs = .ok text ∧ (∀ c ∈ ws', isSpaceC c = true) ∧
      readAsciiArray scan (IStream.openOn (text ++ rest)) vs.length
        = .ok (vs.map f, ⟨ws' ++ rest, false, false⟩) ∧
      readAsciiArrayFast scan (IStream.openOn (text ++ rest)) vs.length
        = .ok (vs.map f, ⟨ws' ++ rest, false, false⟩) := by
  obtain ⟨ws', h1, h3⟩ := readAsciiArray_write_aux (scan := scan) hne hsp hrd perLine rest vs 1 0 [] []
    (by simp) hP
  have h4 : readAsciiArray scan (IStream.openOn (writeAsciiLoop shw perLine 1 vs ++ rest)) vs.length
      = .ok (vs.map f, ⟨ws' ++ rest, false, false⟩) := h3
  refine ⟨_, ws', ?_, h1, h4, readAsciiArrayFast_eq hl h4 rfl⟩
  unfold writeAsciiArray
  rw [if_neg fun h => hpl h.1]

/-- C89. Integers are read back exactly. -/
theorem readAsciiArray_int {perLine : ℕ} (hpl : perLine ≠ 0) (rest : List Char) (vs : List ℤ)
    (hv : ∀ v ∈ vs, -2 ^ 31 ≤ v ∧ v < 2 ^ 31) :
    ∃ text ws', writeAsciiArray showInt perLine vs = .ok text ∧ (∀ c ∈ ws', isSpaceC c = true) ∧
      readAsciiArray scanInt (IStream.openOn (text ++ rest)) vs.length
        = .ok (vs, ⟨ws' ++ rest, false, false⟩) ∧
      readAsciiArrayFast scanInt (IStream.openOn (text ++ rest)) vs.length
        = .ok (vs, ⟨ws' ++ rest, false, false⟩) := by
  have := readAsciiArray_write scanInt_local (shw := showInt) (f := id)
    (P := fun v => -2 ^ 31 ≤ v ∧ v < 2 ^ 31) (fun v => (showInt_chars v).1) (fun v => (showInt_chars v).2)
    (fun v hv => by
      have := scanInt_showInt hv (rest := []) (by simp)
      rwa [List.append_nil] at this) hpl rest vs hv
  rwa [List.map_id] at this

/-- C89. Numbers written with `p` decimals are read back within half a unit of the last decimal. -/
theorem readAsciiArray_fixed {p : ℕ} (hp : p ≠ 0) {perLine : ℕ} (hpl : perLine ≠ 0) (rest : List Char)
    (vs : List ℝ) :
    ∃ (f : ℝ → ℝ) (text ws' : List Char), writeAsciiArray (showFixed p) perLine vs = .ok text ∧ (∀ v, |f v - v| ≤ 1 / 2 / 10 ^ p) ∧
      (∀ c ∈ ws', isSpaceC c = true) ∧
      readAsciiArray scanDouble (IStream.openOn (text ++ rest)) vs.length
        = .ok (vs.map f, ⟨ws' ++ rest, false, false⟩) ∧
      readAsciiArrayFast scanDouble (IStream.openOn (text ++ rest))
          vs.length
        = .ok (vs.map f, ⟨ws' ++ rest, false, false⟩) := by
  obtain ⟨text, ws', h0, h1, h2, h3⟩ := readAsciiArray_write scanDouble_local (shw := showFixed p) (f := roundDec p)
    (P := fun _ => True) (fun v => (showFixed_chars p v).1) (fun v => (showFixed_chars p v).2)
    (fun v _ => by
      have := scanDouble_showFixed hp v (rest := []) (by simp)
      rwa [List.append_nil] at this) hpl rest vs (fun _ _ => trivial)
  exact ⟨roundDec p, text, ws', h0, roundDec_err p, h1, h2, h3⟩

/-- The hypothesis on the integers holds for an array with the largest and the smallest of them. -/
example : ∀ v ∈ ([2147483647, -2147483648, 0] : List ℤ), -2 ^ 31 ≤ v ∧ v < 2 ^ 31 := by decide

theorem takeWhile_line {line : List Char} (h : '\n' ∉ line) (t : List Char) :
    (line ++ '\n' :: t).takeWhile (· ≠ '\n') = line ∧ (line ++ '\n' :: t).dropWhile (· ≠ '\n') = '\n' :: t := by
  induction line with
  | nil => simp
  | cons c l ih =>
    rw [List.mem_cons, not_or] at h
    have hc : c ≠ '\n' := fun e => h.1 e.symm
    simp only [List.cons_append, List.takeWhile_cons, List.dropWhile_cons, ne_eq, hc, not_false_eq_true, decide_true,
      if_true]
    exact ⟨congrArg _ (ih h.2).1, (ih h.2).2⟩

theorem takeWhile_no_line {line : List Char} (h : '\n' ∉ line) :
    line.takeWhile (· ≠ '\n') = line ∧ line.dropWhile (· ≠ '\n') = [] := by
  induction line with
  | nil => simp
  | cons c l ih =>
    rw [List.mem_cons, not_or] at h
    have hc : c ≠ '\n' := fun e => h.1 e.symm
    simp only [List.takeWhile_cons, List.dropWhile_cons, ne_eq, hc, not_false_eq_true, decide_true, if_true]
    exact ⟨congrArg _ (ih h.2).1, (ih h.2).2⟩

/-- C92. The rest of the line is read up to and with its end, and the stream is left at the next line; asked to
throw, the function throws exactly if the rest is not all white space. -/
theorem discardRestOfLine_spec {line : List Char} (h : '\n' ∉ line) (t : List Char) (throwing : Bool) :
    ((∃ msg, discardRestOfLine ⟨line ++ '\n' :: t, false, false⟩ throwing = .throws msg) ↔
        throwing = true ∧ ∃ c ∈ line, isSpaceC c = false) ∧
      ((throwing = false ∨ ∀ c ∈ line, isSpaceC c = true) →
        discardRestOfLine ⟨line ++ '\n' :: t, false, false⟩ throwing = .ok ⟨t, false, false⟩) := by
  have hg : IStream.getline ⟨line ++ '\n' :: t, false, false⟩ = (line, ⟨t, false, false⟩) := by
    unfold IStream.getline
    rw [if_pos (show IStream.good ⟨line ++ '\n' :: t, false, false⟩ = true from rfl)]
    dsimp only
    rw [(takeWhile_line h t).1, (takeWhile_line h t).2]
  unfold discardRestOfLine
  rw [hg]
  dsimp only
  have hall : line.all isSpaceC = true ↔ ∀ c ∈ line, isSpaceC c = true := List.all_eq_true
  by_cases hc : (throwing && !line.all isSpaceC) = true
  · rw [if_pos hc]
    rw [Bool.and_eq_true, Bool.not_eq_true', ← Bool.not_eq_true, hall] at hc
    refine ⟨⟨fun _ => ⟨hc.1, ?_⟩, fun _ => ⟨_, rfl⟩⟩, ?_⟩
    · by_contra hn
      refine hc.2 fun c hcl => ?_
      by_contra hcs
      exact hn ⟨c, hcl, by simpa using hcs⟩
    · rintro (h1 | h1)
      · rw [hc.1] at h1; cases h1
      · exact absurd h1 hc.2
  · rw [if_neg hc]
    refine ⟨⟨?_, ?_⟩, fun _ => rfl⟩
    · rintro ⟨msg, hm⟩
      cases hm
    · rintro ⟨h1, c, hcl, hcs⟩
      exfalso
      refine hc ?_
      rw [h1, Bool.true_and, Bool.not_eq_true', ← Bool.not_eq_true, hall]
      intro hh
      rw [hh c hcl] at hcs
      cases hcs

/-- C92. A last line without an end is read to the end of the file; a second call does not read anything and does
not throw, but the stream has failed. -/
theorem discardRestOfLine_last {line : List Char} (h : '\n' ∉ line) (hne : line ≠ []) :
    discardRestOfLine ⟨line, false, false⟩ false = .ok ⟨[], true, false⟩ ∧
      ∀ throwing, discardRestOfLine ⟨[], true, false⟩ throwing = .ok ⟨[], true, true⟩ := by
  constructor
  · unfold discardRestOfLine IStream.getline
    rw [if_pos (show IStream.good ⟨line, false, false⟩ = true from rfl)]
    dsimp only
    rw [(takeWhile_no_line h).1, (takeWhile_no_line h).2]
    cases line with
    | nil => exact absurd rfl hne
    | cons c l => rfl
  · intro throwing
    cases throwing <;> rfl

/-- A line with text, and one without. -/
example : discardRestOfLine (IStream.openOn "  ab\ncd".toList) false = .ok ⟨"cd".toList, false, false⟩ ∧
    (∃ msg, discardRestOfLine (IStream.openOn "  ab\ncd".toList) true = .throws msg) ∧
    discardRestOfLine (IStream.openOn "  \ncd".toList) true = .ok ⟨"cd".toList, false, false⟩ :=
  ⟨rfl, ⟨_, rfl⟩, rfl⟩

end Verif
