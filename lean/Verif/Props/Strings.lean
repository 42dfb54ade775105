import Verif.Lemmas.Strings
import Verif.Props.Factory

/-!
# C52, C55, C56: string functions

Upper case, trimming, splitting, quotations, replacement and lines of numbers.
-/

namespace Verif

open Spec

/-! ### Upper case -/

/-- Upper case keeps the length, changes letters only, and done twice is the same as done once. -/
theorem uppercase_idempotent {s : List Char} (hs : ∀ c ∈ s, c.toNat < 128) :
    ∃ u, uppercase s = .ok u ∧ u.length = s.length ∧ uppercase u = .ok u ∧
      ∀ (i : ℕ) (c : Char), s[i]? = some c → u[i]? = some c.toUpper := by
  have h1 : ∀ c : Char, c.toNat < 128 → upAscii c = c.toUpper :=
    ascii_cases (fun c => upAscii c = c.toUpper) (by decide +kernel)
  have h2 : ∀ c : Char, c.toNat < 128 → upAscii (upAscii c) = upAscii c :=
    ascii_cases (fun c => upAscii (upAscii c) = upAscii c) (by decide +kernel)
  have h3 : ∀ c : Char, c.toNat < 128 → (upAscii c).toNat < 128 :=
    ascii_cases (fun c => (upAscii c).toNat < 128) (by decide +kernel)
  refine ⟨s.map upAscii, uppercase_ascii hs, by simp, ?_, ?_⟩
  · have hu : IsAscii (s.map upAscii) := by
      intro c hc
      obtain ⟨d, hd, rfl⟩ := List.mem_map.1 hc
      exact h3 d (hs d hd)
    rw [uppercase_ascii hu, List.map_map]
    congr 1
    exact List.map_congr_left fun c hc => h2 c (hs c hc)
  · intro i c hc
    rw [List.getElem?_map, hc, Option.map_some, h1 c (hs c (List.mem_of_getElem? hc))]

/-- A mixed spelling. -/
example : uppercase "Matern32".toList = .ok "MATERN32".toList := by rfl

/-! ### Trimming -/

/-- `Chomp` returns the text without the blanks at its ends. -/
theorem chomp_spec (s : List Char) : ∃ k r m, s = List.replicate k ' ' ++ r ++ List.replicate m ' ' ∧
    r.head? ≠ some ' ' ∧ r.getLast? ≠ some ' ' ∧ chomp s = .ok r := by
  -- the leading blanks
  have lead : ∀ s : List Char, ∃ k t, s = List.replicate k ' ' ++ t ∧ t.head? ≠ some ' ' := by
    intro s
    induction s with
    | nil => exact ⟨0, [], rfl, by simp⟩
    | cons c s ih =>
      by_cases hc : c = ' '
      · obtain ⟨k, t, rfl, ht⟩ := ih
        exact ⟨k + 1, t, by rw [hc, List.replicate_succ, List.cons_append], ht⟩
      · exact ⟨0, c :: s, rfl, by simpa using hc⟩
  obtain ⟨k, t, hs, ht⟩ := lead s
  obtain ⟨m, r, hr, hr'⟩ := lead t.reverse
  have htr : t = r.reverse ++ List.replicate m ' ' := by
    have := congrArg List.reverse hr
    simpa using this
  refine ⟨k, r.reverse, m, by rw [hs, htr, List.append_assoc], ?_, by simpa using hr', ?_⟩
  · intro h
    apply ht
    rw [htr]
    match hrr : r.reverse, h with
    | a :: l, h => simpa using h
  · have hs' : s = List.replicate k ' ' ++ r.reverse ++ List.replicate m ' ' := by
      rw [hs, htr, List.append_assoc]
    have h0 : r.reverse.head? ≠ some ' ' := by
      intro h
      apply ht
      rw [htr]
      match hrr : r.reverse, h with
      | a :: l, h => simpa using h
    have h1 : r.reverse.getLast? ≠ some ' ' := by simpa using hr'
    generalize r.reverse = r at *
    clear hr hr' htr ht hs
    cases r with
    | nil =>
      have hf : findFrom (fun c => decide (c ≠ ' ')) s 0 = none := by
        simp [findFrom, hs']
      have hl : findLastNotSpace s = none := by
        simp [findLastNotSpace, hs']
      simp only [chomp, hf, hl, eraseFrom, nextPos, Res.monad_bind_eq]
      rfl
    | cons a r =>
      have ha : a ≠ ' ' := by simpa using h0
      have hf : findFrom (fun c => decide (c ≠ ' ')) s 0 = some k := by
        refine findFrom_eq (c := a) ?_ (by simpa using ha) (by omega) ?_
        · rw [hs', List.append_assoc, List.getElem?_append_right (by simp)]
          simp
        · intro j d _ hlt hd
          rw [hs', List.append_assoc, List.getElem?_append_left (by simpa using hlt)] at hd
          have := List.mem_of_getElem? hd
          simpa using List.eq_of_mem_replicate this
      have hl : findLastNotSpace s = some (k + r.length) := by
        obtain ⟨b, hb⟩ : ∃ b, (a :: r).getLast? = some b :=
          ⟨_, List.getLast?_eq_some_getLast (by simp)⟩
        have hb' : b ≠ ' ' := by rw [hb] at h1; simpa using h1
        have hsr : s.reverse = List.replicate m ' ' ++ (a :: r).reverse ++ List.replicate k ' ' := by
          rw [hs']; simp
        have : s.reverse.findIdx? (fun c => decide (c ≠ ' ')) = some m := by
          have hq := findFrom_eq (p := fun c => decide (c ≠ ' ')) (s := s.reverse) (pos := 0) (i := m)
            (c := b) (by
              rw [hsr, List.append_assoc, List.getElem?_append_right (by simp), List.length_replicate,
                Nat.sub_self, List.getElem?_append_left (by simp), ← List.head?_eq_getElem?,
                List.head?_reverse]
              exact hb) (by simpa using hb') (by omega) (by
              intro j d _ hlt hd
              rw [hsr, List.append_assoc, List.getElem?_append_left (by simpa using hlt)] at hd
              have := List.mem_of_getElem? hd
              simpa using List.eq_of_mem_replicate this)
          simpa [findFrom] using hq
        simp only [findLastNotSpace, this, Option.map_some, Option.some.injEq]
        rw [hs']
        simp
        omega
      have hlen : k + r.length + 1 ≤ s.length := by rw [hs']; simp
      simp only [chomp, hf, hl, eraseFrom, nextPos, Res.monad_bind_eq]
      rw [if_neg (by omega), Res.bind_ok, hs']
      rw [List.take_append_of_le_length (by simp), List.take_of_length_le (by simp; omega)]
      simp

/-- Blanks at both ends. -/
example : chomp "  a b ".toList = .ok "a b".toList := by rfl

/-- Other white space stays: `Chomp` is no inverse of indenting with tabulators. -/
theorem chomp_tab_refuted : ∃ c, Space c ∧ chomp [c, 'a'] = .ok [c, 'a'] :=
  ⟨'\t', by unfold Space; decide, by rfl⟩

/-! ### Splitting -/

/-- `GetTokens` returns the words of the text, and there is only one list of words. -/
theorem getTokens_spec (s : List Char) (l : List (List Char)) : getTokens s = .ok l ↔ Words s l := by
  refine ⟨fun h => ?_, getTokens_words⟩
  obtain ⟨l', hl'⟩ := words_exist s
  have := (getTokens_words hl').symm.trans h
  rw [Res.ok.injEq] at this
  exact this ▸ hl'

/-- It always returns. -/
theorem getTokens_total (s : List Char) : ∃ l, getTokens s = .ok l := by
  obtain ⟨l, hl⟩ := words_exist s
  exact ⟨l, getTokens_words hl⟩

/-- Two words. -/
example : Words " a\tbc".toList ["a".toList, "bc".toList] := by
  have hsp : ∀ c ∈ [' ', '\t'], Space c := by unfold Space; decide
  have hno : ∀ c ∈ ['a', 'b', 'c'], ¬ Space c := by unfold Space; decide
  refine Words.cons (w := [' ']) (t := ['a']) (r := ['\t', 'b', 'c']) ?_ ⟨by simp, ?_⟩ ?_
    (Words.cons (w := ['\t']) (t := ['b', 'c']) (r := []) ?_ ⟨by simp, ?_⟩ ?_ (Words.nil ?_))
  · intro c hc; exact hsp c (by simp at hc; simp [hc])
  · intro c hc; exact hno c (by simp at hc; simp [hc])
  · intro c hc; exact hsp c (by simp at hc; simp [← hc])
  · intro c hc; exact hsp c (by simp at hc; simp [hc])
  · intro c hc; exact hno c (by simp at hc; rcases hc with h | h <;> simp [h])
  · intro c hc; simp at hc
  · intro c hc; simp at hc

/-! ### Quotations -/

/-- `GetQuotedTokens` returns the items of a line of words and quotations.

Partial: the line must not begin with a quotation mark, words must have no quotation marks inside, and
every quotation must be closed and followed by white space or the end. -/
theorem getQuotedTokens_partial {s : List Char} {items : List Item} (h : Line s items)
    (h0 : s.head? ≠ some '"') : getQuotedTokens s = .ok (items.map Item.content) := by
  obtain ⟨st, hst⟩ := quotedLoop (s := s) (pre := []) h rfl (some 0) (by
    intro i hi
    simp only [nextPos, List.length_nil, Nat.zero_le, iff_true]
    rcases Nat.eq_zero_or_pos i with h | h
    · subst h
      rw [← List.head?_eq_getElem?] at hi
      exact absurd hi h0
    · omega) []
  simp [getQuotedTokens, hst]

/-- A word and a quotation with a blank in it. -/
example : getQuotedTokens "x \"a b\"".toList = .ok ["x".toList, "a b".toList] := by
  have hx : ∀ c ∈ ['x'], ¬ Space c := by unfold Space; decide
  refine getQuotedTokens_partial (items := [.plain ['x'], .quoted ['a', ' ', 'b']]) ?_ (by decide)
  refine Line.cons (w := []) (it := .plain ['x']) (r := [' ', '"', 'a', ' ', 'b', '"']) (by simp [Blank])
    ⟨⟨by simp, hx⟩, by decide⟩ ?_
    (Line.cons (w := [' ']) (it := .quoted ['a', ' ', 'b']) (r := []) ?_ (by simp [Item.Good]) ?_
      (Line.nil (by simp [Blank])))
  · intro c hc
    simp at hc
    subst hc
    unfold Space; decide
  · intro c hc
    simp at hc
    subst hc
    unfold Space; decide
  · intro c hc
    simp at hc

/-- A line that begins with a quotation is read wrongly: the first mark is not seen, so that the text
behind the quotation is returned in its place. -/
theorem getQuotedTokens_first_refuted :
    Line "\"a b\" c".toList [.quoted "a b".toList, .plain "c".toList] ∧
    getQuotedTokens "\"a b\" c".toList = .ok [" c".toList, "c".toList] := by
  constructor
  · have hc : ∀ c ∈ ['c'], ¬ Space c := by unfold Space; decide
    refine Line.cons (w := []) (it := .quoted ['a', ' ', 'b']) (r := [' ', 'c']) (by simp [Blank])
      (by simp [Item.Good]) ?_
      (Line.cons (w := [' ']) (it := .plain ['c']) (r := []) ?_ ⟨⟨by simp, hc⟩, by decide⟩ ?_
        (Line.nil (by simp [Blank])))
    · intro c hc
      simp at hc
      subst hc
      unfold Space; decide
    · intro c hc
      simp at hc
      subst hc
      unfold Space; decide
    · intro c hc
      simp at hc
  · have hskip : skipToQuote (skipLoneQuote [' ', 'b', '"', ' ', 'c'] ['"', 'a']).1
        (skipLoneQuote [' ', 'b', '"', ' ', 'c'] ['"', 'a']).2 = .ok [' ', 'c'] := by
      have := skipToQuote_upto (u := [' ', 'b']) (r := [' ', 'c']) (tmp := ['"', 'a']) (by decide)
        (by intro c hc; simp at hc; subst hc; unfold Space; decide) (by decide)
      exact this
    have h1 : quotedStep "\"a b\" c".toList ("\"a b\" c".toList, some 0, [])
        = .ok (none, [' ', 'c'], none, [" c".toList]) := by
      have he : extractWord "\"a b\" c".toList = some (['"', 'a'], [' ', 'b', '"', ' ', 'c']) := by rfl
      simp only [quotedStep, he]
      rw [if_neg (by simp), hskip]
      rfl
    have h2 : quotedStep "\"a b\" c".toList ([' ', 'c'], none, [" c".toList])
        = .ok (none, [], none, [" c".toList, "c".toList]) := by rfl
    have h3 : quotedStep "\"a b\" c".toList ([], none, [" c".toList, "c".toList])
        = .ok (some [" c".toList, "c".toList], [], none, [" c".toList, "c".toList]) := by rfl
    unfold getQuotedTokens
    rw [untilLoop_unfold, h1, Res.bind_ok]
    simp only
    rw [untilLoop_unfold, h2, Res.bind_ok]
    simp only
    rw [untilLoop_unfold, h3, Res.bind_ok]
    rfl

/-- A quotation that is not closed makes `GetQuotedTokens` loop for ever. -/
theorem getQuotedTokens_open_diverges : getQuotedTokens "x \"a".toList = .diverges := by
  have hskip : skipToQuote [] ['"', 'a'] = .diverges := by
    unfold skipToQuote
    rw [untilLoop_diverges]
    · rfl
    · intro n
      induction n with
      | zero => rfl
      | succ n ih =>
        have : skipStep ([], ['"', 'a']) = .ok (none, [], ['"', 'a']) := by rfl
        rw [untilFuel, this, Res.bind_ok]
        exact ih
  have h1 : quotedStep "x \"a".toList ("x \"a".toList, some 0, [])
      = .ok (none, [' ', '"', 'a'], some 0, ["x".toList]) := by rfl
  have h2 : quotedStep "x \"a".toList ([' ', '"', 'a'], some 0, ["x".toList]) = .diverges := by
    have he : extractWord [' ', '"', 'a'] = some (['"', 'a'], []) := by rfl
    have hl : skipLoneQuote [] ['"', 'a'] = ([], ['"', 'a']) := by rfl
    simp only [quotedStep, he, hl]
    rw [if_neg (by simp), hskip]
    rfl
  unfold getQuotedTokens
  rw [untilLoop_unfold, h1, Res.bind_ok]
  simp only
  rw [untilLoop_unfold, h2]
  rfl

/-! ### Replacement -/

/-- `Substitute` replaces every occurrence of `out`.

Partial: `out` and `inn` must have the same length and no character in common, and `out` must not be
empty. -/
theorem substitute_partial {out inn : List Char} (hout : out ≠ []) (hlen : inn.length = out.length)
    (hdis : ∀ c ∈ inn, c ∉ out) (text : List Char) :
    substitute text out inn = .ok (replaceAll out inn text) := by
  have ho : 0 < out.length := List.length_pos_iff.2 hout
  suffices h : ∃ t, untilLoop (substituteStep out inn) text = .ok ((), t) ∧
      t = replaceAll out inn text by
    obtain ⟨t, h1, h2⟩ := h
    simp [substitute, h1, h2]
  induction hn : text.countP (fun c => decide (c ∈ out)) using Nat.strong_induction_on
    generalizing text with
  | _ n ih =>
    rw [untilLoop_unfold]
    cases hf : findSub out text with
    | none =>
      simp only [substituteStep, hf, Res.bind_ok]
      exact ⟨text, rfl, (replaceAll_none hout text (findSub_none hf)).symm⟩
    | some pos =>
      simp only [substituteStep, hf, Res.bind_ok]
      obtain ⟨hpos, ⟨b, hb⟩, hfirst⟩ := findSub_some hf
      have htext : text = text.take pos ++ (out ++ b) := by
        rw [hb, List.take_append_drop]
      have hdrop : text.drop (pos + inn.length) = b := by
        rw [hlen, ← List.drop_drop, ← hb, List.drop_left]
      set a := text.take pos with ha
      have hal : a.length = pos := by rw [ha]; simp; omega
      rw [hdrop]
      -- no occurrence begins in the part already done
      have hnew : ∀ i < (a ++ inn).length, ¬ out <+: (a ++ inn ++ b).drop i := by
        intro i hi hp
        rw [List.prefix_iff_getElem?] at hp
        by_cases hia : a.length ≤ i
        · have h0 := hp 0 ho
          rw [List.getElem?_drop, Nat.add_zero, List.getElem?_append_left hi,
            List.getElem?_append_right hia] at h0
          exact hdis _ (List.mem_of_getElem? h0) (List.getElem_mem _)
        · by_cases hend : i + out.length ≤ a.length
          · refine hfirst i (by omega) ?_
            rw [List.prefix_iff_getElem?]
            intro j hj
            have := hp j hj
            rw [List.getElem?_drop, List.append_assoc, List.getElem?_append_left (by omega)] at this
            rw [List.getElem?_drop, htext, List.getElem?_append_left (by omega)]
            exact this
          · have h0 := hp (a.length - i) (by omega)
            rw [List.getElem?_drop, show i + (a.length - i) = a.length by omega, List.append_assoc,
              List.getElem?_append_right le_rfl, Nat.sub_self, List.getElem?_append_left (by omega)]
              at h0
            exact hdis _ (List.mem_of_getElem? h0) (List.getElem_mem _)
      have hcount : (a ++ inn ++ b).countP (fun c => decide (c ∈ out)) < n := by
        have h1 : inn.countP (fun c => decide (c ∈ out)) = 0 := by
          rw [List.countP_eq_zero]
          intro c hc
          simpa using hdis c hc
        have h2 : out.countP (fun c => decide (c ∈ out)) = out.length := by
          rw [List.countP_eq_length]
          intro c hc
          simpa using hc
        rw [← hn, htext, List.countP_append, List.countP_append, List.countP_append,
          List.countP_append, h1, h2]
        omega
      obtain ⟨t, ht1, ht2⟩ := ih _ hcount (a ++ inn ++ b) rfl
      refine ⟨t, ht1, ?_⟩
      rw [ht2, replaceAll_skip hout _ _ hnew]
      conv_rhs => rw [htext]
      rw [replaceAll_skip hout a (out ++ b) (by
        intro i hi
        rw [← htext]
        exact hfirst i (by omega)), replaceAll_prefix hout, List.append_assoc]

/-- Blanks become underscores. -/
example : substitute "a b c".toList " ".toList "_".toList = .ok "a_b_c".toList := by
  rw [substitute_partial (by decide) (by decide) (by decide)]
  rfl

/-- With a shorter text a part of what should go stays; with a longer one, text that should stay goes.
-/
theorem substitute_length_refuted :
    substitute "abc".toList "ab".toList "x".toList = .ok "xbc".toList ∧
    replaceAll "ab".toList "x".toList "abc".toList = "xc".toList ∧
    substitute "ac".toList "a".toList "bb".toList = .ok "bb".toList ∧
    replaceAll "a".toList "bb".toList "ac".toList = "bbc".toList := by
  refine ⟨?_, rfl, ?_, rfl⟩
  · have : untilLoop (substituteStep "ab".toList "x".toList) "abc".toList = .ok ((), "xbc".toList) := by
      have h : untilFuel (substituteStep "ab".toList "x".toList) 2 "abc".toList
          = .ok ((), "xbc".toList) := rfl
      rw [untilLoop_eq (n := 2) (by rw [h]; simp), h]
    simp only [substitute, this, Res.bind_ok]
  · have : untilLoop (substituteStep "a".toList "bb".toList) "ac".toList = .ok ((), "bb".toList) := by
      have h : untilFuel (substituteStep "a".toList "bb".toList) 2 "ac".toList
          = .ok ((), "bb".toList) := rfl
      rw [untilLoop_eq (n := 2) (by rw [h]; simp), h]
    simp only [substitute, this, Res.bind_ok]

/-- If the new text contains the old one the replacement never ends. -/
theorem substitute_diverges {out inn text : List Char} (h1 : out <:+: inn) (h2 : out <:+: text) :
    substitute text out inn = .diverges := by
  have : untilLoop (substituteStep out inn) text = .diverges := by
    apply untilLoop_diverges
    intro n
    induction n generalizing text with
    | zero => rfl
    | succ n ih =>
      obtain ⟨pos, hpos⟩ := Option.isSome_iff_exists.1 (findSub_isSome h2)
      simp only [untilFuel, substituteStep, hpos, Res.bind_ok]
      exact ih (h1.trans ⟨text.take pos, text.drop (pos + inn.length), rfl⟩)
  rw [substitute, this]
  rfl

/-- "a" by "aa", anywhere. -/
example : substitute "cat".toList "a".toList "aa".toList = .diverges :=
  substitute_diverges ⟨[], ['a'], rfl⟩ ⟨['c'], ['t'], rfl⟩

/-! ### Lines of numbers -/

/-- From a line with enough fields, the first `n` fields are read. -/
theorem parseAsciiArrayFast_spec {α : Type} (parse : List Char → α) {s : List Char}
    {l : List (List Char)} (h : Fields s l) {n : ℕ} (hn : n ≤ l.length) :
    parseAsciiArrayFast parse s n = .ok ((l.take n).map parse) := by
  cases h with
  | nil hw =>
    have : n = 0 := by simpa using hn
    subst this
    rfl
  | @cons w t r l hw ht0 ht hr h =>
    have hf := findFrom_field (pre := []) (w := w) (t := t) (r := r) hw ht0 (fun c hc => (ht c hc).1)
    simp only [List.nil_append, List.length_nil, Nat.zero_add] at hf
    have := parseFastLoop_fields parse h n (by simpa using hn) w t ht0 ht hr
    unfold parseAsciiArrayFast
    simp only [hf]
    rw [show nextPos (some w.length) = w.length + 1 from rfl, this]
    simp

/-- With fewer fields than asked for the function should throw. It does if the line ends with white
space (see the example), but not otherwise: when the line does not end with white space, the function
never throws, however many numbers are asked for. -/
theorem parseAsciiArrayFast_short_refuted {α : Type} (parse : List Char → α) {s : List Char} {c : Char}
    (hc : s.getLast? = some c) (hcs : ¬ NumSpace c) (n : ℕ) :
    ∃ l, parseAsciiArrayFast parse s n = .ok l ∧ l.length = n := by
  have hcs' : isSpaceFast c = false := by
    rw [← isSpaceFast_iff] at hcs
    simpa using hcs
  have hlast : s[s.length - 1]? = some c := by rw [← List.getLast?_eq_getElem?]; exact hc
  obtain ⟨p, hp⟩ : ∃ p, findFrom (fun c => !isSpaceFast c) s 0 = some p := by
    by_contra h
    push Not at h
    have := findFrom_none (Option.eq_none_iff_forall_ne_some.2 h) (s.length - 1) c (by omega) hlast
    simp [hcs'] at this
  have := parseFastLoop_true parse n s c hc hcs' p (findFrom isSpaceFast s (nextPos (some p)))
    (fun q hq => (findFrom_some hq).2)
  unfold parseAsciiArrayFast
  simp only [hp]
  rw [if_pos this.1]
  exact ⟨_, rfl, this.2⟩

/-- Three numbers from "1 2": the first is read again. With a blank at the end the function throws. -/
example : parseAsciiArrayFast id "1 2".toList 3 = .ok ["1".toList, "2".toList, "1".toList] ∧
    parseAsciiArrayFast id "1 2 ".toList 3 = .throws "Not enough elements parsed from string." ∧
    parseAsciiArrayFast id "1 2 ".toList 2 = .ok ["1".toList, "2".toList] := ⟨rfl, rfl, rfl⟩

end Verif
