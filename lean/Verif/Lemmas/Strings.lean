import Verif.Model.Strings
import Verif.Spec.Strings
import Verif.Lemmas.Outcome
import Verif.Lemmas.Loop
import Mathlib.Tactic.Tauto

/-!
# Lemmas on strings
-/

namespace Verif

open Spec

theorem isSpaceC_iff (c : Char) : isSpaceC c = true ↔ Space c := by
  unfold isSpaceC Space
  simp only [List.mem_cons, List.not_mem_nil, or_false, Bool.or_eq_true, decide_eq_true_eq]
  tauto

theorem dropWhile_blank {w : List Char} (hw : Blank w) (r : List Char) :
    (w ++ r).dropWhile isSpaceC = r.dropWhile isSpaceC := by
  induction w with
  | nil => rfl
  | cons c w ih =>
    have hc : isSpaceC c = true := (isSpaceC_iff c).2 (hw c (by simp))
    rw [List.cons_append, List.dropWhile_cons_of_pos hc]
    exact ih fun d hd => hw d (by simp [hd])

theorem extractWord_blank {w : List Char} (hw : Blank w) : extractWord w = none := by
  have := dropWhile_blank hw []
  simp only [List.append_nil, List.dropWhile_nil] at this
  simp [extractWord, this]

theorem extractWord_word {w t r : List Char} (hw : Blank w) (ht : Word t) (hr : Sep r) :
    extractWord (w ++ t ++ r) = some (t, r) := by
  obtain ⟨ht0, htw⟩ := ht
  have hns : ∀ c ∈ t, (!isSpaceC c) = true := fun c hc => by
    have := htw c hc
    rw [← isSpaceC_iff] at this
    simpa using this
  have h1 : (w ++ t ++ r).dropWhile isSpaceC = t ++ r := by
    rw [List.append_assoc, dropWhile_blank hw]
    match t, ht0 with
    | c :: t, _ =>
      have : ¬ isSpaceC c = true := by simpa using hns c (by simp)
      rw [List.cons_append, List.dropWhile_cons_of_neg this]
  have h2 : (t ++ r).takeWhile (fun c => !isSpaceC c) = t := by
    rw [List.takeWhile_append_of_pos hns]
    match r with
    | [] => simp
    | c :: r =>
      have : isSpaceC c = true := (isSpaceC_iff c).2 (hr c rfl)
      simp [this]
  have h3 : (t ++ r).dropWhile (fun c => !isSpaceC c) = r := by
    rw [List.dropWhile_append_of_pos hns]
    match r with
    | [] => simp
    | c :: r =>
      have : isSpaceC c = true := (isSpaceC_iff c).2 (hr c rfl)
      simp [this]
  have h4 : t ++ r ≠ [] := by simp [ht0]
  simp only [extractWord, h1, h4, if_false, h2, h3]

/-- Every text is blank or begins with a word. -/
theorem blank_or_word (s : List Char) :
    Blank s ∨ ∃ w t r, s = w ++ t ++ r ∧ Blank w ∧ Word t ∧ Sep r := by
  induction s with
  | nil => exact .inl fun c hc => by simp at hc
  | cons c s ih =>
    by_cases hc : Space c
    · rcases ih with ih | ⟨w, t, r, rfl, hw, ht, hr⟩
      · exact .inl fun d hd => by
          rcases List.mem_cons.1 hd with rfl | hd
          · exact hc
          · exact ih d hd
      · refine .inr ⟨c :: w, t, r, by simp, fun d hd => ?_, ht, hr⟩
        rcases List.mem_cons.1 hd with rfl | hd
        · exact hc
        · exact hw d hd
    · right
      rcases ih with ih | ⟨w, t, r, rfl, hw, ht, hr⟩
      · refine ⟨[], [c], s, by simp, fun d hd => by simp at hd, ⟨by simp, ?_⟩, ?_⟩
        · intro d hd
          rw [List.mem_singleton] at hd
          exact hd ▸ hc
        · intro d hd
          exact ih d (List.mem_of_mem_head? hd)
      · cases w with
        | nil =>
          refine ⟨[], c :: t, r, by simp, fun d hd => by simp at hd, ⟨by simp, fun d hd => ?_⟩, hr⟩
          rcases List.mem_cons.1 hd with rfl | hd
          · exact hc
          · exact ht.2 d hd
        | cons e w =>
          refine ⟨[], [c], e :: w ++ t ++ r, by simp, fun d hd => by simp at hd, ⟨by simp, ?_⟩, ?_⟩
          · intro d hd
            rw [List.mem_singleton] at hd
            exact hd ▸ hc
          · intro d hd
            simp only [List.cons_append, List.head?_cons, Option.some.injEq] at hd
            exact hd ▸ hw e (by simp)

theorem words_exist (s : List Char) : ∃ l, Words s l := by
  induction hn : s.length using Nat.strong_induction_on generalizing s with
  | _ n ih =>
    rcases blank_or_word s with hs | ⟨w, t, r, rfl, hw, ht, hr⟩
    · exact ⟨[], .nil hs⟩
    · have : 0 < t.length := List.length_pos_iff.2 ht.1
      obtain ⟨l, hl⟩ := ih r.length (by simp at hn; omega) r rfl
      exact ⟨t :: l, .cons hw ht hr hl⟩

theorem getTokens_words {s : List Char} {l : List (List Char)} (h : Words s l) :
    getTokens s = .ok l := by
  suffices hh : ∀ v, ∃ st, untilLoop getTokensStep (s, v) = .ok (v ++ l, st) by
    obtain ⟨st, hst⟩ := hh []
    simp [getTokens, hst]
  induction h with
  | nil hw =>
    intro v
    rw [untilLoop_unfold]
    simp [getTokensStep, extractWord_blank hw]
  | cons hw ht hr _ ih =>
    intro v
    rw [untilLoop_unfold]
    simp only [getTokensStep, extractWord_word hw ht hr, Res.bind_ok]
    obtain ⟨st, hst⟩ := ih (v ++ [_])
    exact ⟨st, by rw [hst]; simp⟩

/-! ### Quotations -/

/-- Reading a word from a text up to a quotation mark: either the word ends with the mark or the mark
is still ahead. -/
theorem extractWord_upto {u r : List Char} (hu : '"' ∉ u) (hr : Sep r) :
    (∃ tmp, extractWord (u ++ '"' :: r) = some (tmp, r) ∧ tmp.getLast? = some '"') ∨
    ∃ tmp u', extractWord (u ++ '"' :: r) = some (tmp, u' ++ '"' :: r) ∧ tmp.getLast? ≠ some '"' ∧
      '"' ∉ u' ∧ u'.length < u.length := by
  have hq : ¬ Space '"' := by unfold Space; decide
  rcases blank_or_word u with hb | ⟨w, t, u', rfl, hw, ht, hu'⟩
  · left
    have := extractWord_word (w := u) (t := ['"']) (r := r) hb
      ⟨by simp, fun d hd => by rw [List.mem_singleton] at hd; exact hd ▸ hq⟩ hr
    exact ⟨['"'], by simpa using this, by simp⟩
  · cases u' with
    | nil =>
      left
      have := extractWord_word (w := w) (t := t ++ ['"']) (r := r) hw ⟨by simp, fun d hd => by
        rcases List.mem_append.1 hd with hd | hd
        · exact ht.2 d hd
        · rw [List.mem_singleton] at hd; exact hd ▸ hq⟩ hr
      exact ⟨t ++ ['"'], by simpa using this, by simp⟩
    | cons c u' =>
      right
      have hsep : Sep (c :: u' ++ '"' :: r) := fun d hd => hu' d (by simpa using hd)
      have := extractWord_word (w := w) (t := t) (r := c :: u' ++ '"' :: r) hw ht hsep
      refine ⟨t, c :: u', by simpa using this, ?_, ?_, ?_⟩
      · intro h
        exact hu (by simp [List.mem_of_getLast? h])
      · intro h
        exact hu (by simp only [List.mem_append]; exact .inr h)
      · have : 0 < t.length := List.length_pos_iff.2 ht.1
        simp; omega

theorem skipToQuote_done {iss tmp : List Char} (h : tmp.getLast? = some '"') :
    skipToQuote iss tmp = .ok iss := by
  unfold skipToQuote
  rw [untilLoop_unfold]
  simp [skipStep, h]

theorem skipToQuote_next {iss tmp iss' tmp' : List Char} (h : tmp.getLast? ≠ some '"')
    (he : extractWord iss = some (tmp', iss')) : skipToQuote iss tmp = skipToQuote iss' tmp' := by
  conv_lhs => unfold skipToQuote
  rw [untilLoop_unfold]
  simp only [skipStep, h, if_false, he, Res.bind_ok]
  rfl

theorem skipToQuote_upto {u r tmp : List Char} (hu : '"' ∉ u) (hr : Sep r)
    (ht : tmp.getLast? ≠ some '"') : skipToQuote (u ++ '"' :: r) tmp = .ok r := by
  induction hn : u.length using Nat.strong_induction_on generalizing u tmp with
  | _ n ih =>
    rcases extractWord_upto hu hr with ⟨tmp', he, hl⟩ | ⟨tmp', u', he, hl, hu', hlt⟩
    · rw [skipToQuote_next ht he, skipToQuote_done hl]
    · rw [skipToQuote_next ht he]
      exact ih u'.length (by omega) hu' hl rfl

/-- From the first word of a quotation the stream is moved behind the quotation. -/
theorem skipQuotation {w q r : List Char} (hw : Blank w) (hq : '"' ∉ q) (hr : Sep r) :
    ∃ tmp iss, extractWord (w ++ ('"' :: q ++ ['"']) ++ r) = some (tmp, iss) ∧ tmp.take 1 = ['"'] ∧
      skipToQuote (skipLoneQuote iss tmp).1 (skipLoneQuote iss tmp).2 = .ok r := by
  have hs : ¬ Space '"' := by unfold Space; decide
  -- split the quotation at its first white space
  have hsplit : (∀ c ∈ q, ¬ Space c) ∨ ∃ b c d, q = b ++ c :: d ∧ (∀ x ∈ b, ¬ Space x) ∧ Space c := by
    clear hq
    induction q with
    | nil => left; simp
    | cons a q ih =>
      by_cases ha : Space a
      · exact .inr ⟨[], a, q, rfl, by simp, ha⟩
      · rcases ih with ih | ⟨b, c, d, rfl, hb, hc⟩
        · left
          intro x hx
          rcases List.mem_cons.1 hx with rfl | hx
          · exact ha
          · exact ih x hx
        · refine .inr ⟨a :: b, c, d, rfl, ?_, hc⟩
          intro x hx
          rcases List.mem_cons.1 hx with rfl | hx
          · exact ha
          · exact hb x hx
  rcases hsplit with hq' | ⟨b, c, d, rfl, hb, hc⟩
  · have := extractWord_word (w := w) (t := '"' :: q ++ ['"']) (r := r) hw ⟨by simp, fun x hx => by
      simp only [List.cons_append, List.mem_cons, List.mem_append, List.not_mem_nil, or_false] at hx
      rcases hx with rfl | hx | rfl
      · exact hs
      · exact hq' x hx
      · exact hs⟩ hr
    refine ⟨_, _, this, by simp, ?_⟩
    have hlone : skipLoneQuote r ('"' :: q ++ ['"']) = (r, '"' :: q ++ ['"']) := by
      unfold skipLoneQuote
      rw [if_neg (by simp)]
    rw [hlone]
    exact skipToQuote_done (List.getLast?_concat ..)
  · have hsep : Sep (c :: d ++ '"' :: r) := fun x hx => by
      simp only [List.cons_append, List.head?_cons, Option.some.injEq] at hx
      exact hx ▸ hc
    have hd : '"' ∉ c :: d := fun h => hq (by simp only [List.mem_append]; exact .inr h)
    have := extractWord_word (w := w) (t := '"' :: b) (r := c :: d ++ '"' :: r) hw ⟨by simp, fun x hx => by
      rcases List.mem_cons.1 hx with rfl | hx
      · exact hs
      · exact hb x hx⟩ hsep
    refine ⟨'"' :: b, c :: d ++ '"' :: r, by simpa using this, by simp, ?_⟩
    by_cases hb0 : b = []
    · subst hb0
      rcases extractWord_upto hd hr with ⟨tmp', he, hl⟩ | ⟨tmp', u', he, hl, hu', -⟩
      · have hlone : skipLoneQuote (c :: d ++ '"' :: r) ['"'] = (r, tmp') := by
          simp only [skipLoneQuote, he]
          rfl
        rw [hlone]
        exact skipToQuote_done hl
      · have hlone : skipLoneQuote (c :: d ++ '"' :: r) ['"'] = (u' ++ '"' :: r, tmp') := by
          simp only [skipLoneQuote, he]
          rfl
        rw [hlone]
        exact skipToQuote_upto hu' hr hl
    · have hlone : skipLoneQuote (c :: d ++ '"' :: r) ('"' :: b) = (c :: d ++ '"' :: r, '"' :: b) := by
        unfold skipLoneQuote
        rw [if_neg (by simpa using hb0)]
      rw [hlone]
      refine skipToQuote_upto hd hr ?_
      rw [List.getLast?_cons]
      intro h
      match b, hb0 with
      | a :: b, _ =>
        have h' : ((a :: b).getLast? ) = some '"' := by
          rw [List.getLast?_cons] at h ⊢
          simpa using h
        exact hq (List.mem_append_left _ (List.mem_of_getLast? h'))

theorem findFrom_eq {p : Char → Bool} {s : List Char} {pos i : ℕ} {c : Char} (hi : s[i]? = some c)
    (hc : p c = true) (hpos : pos ≤ i)
    (hlt : ∀ j d, pos ≤ j → j < i → s[j]? = some d → p d = false) : findFrom p s pos = some i := by
  have : (s.drop pos).findIdx? p = some (i - pos) := by
    rw [List.findIdx?_eq_some_iff_getElem]
    have hlen : i < s.length := by
      rw [List.getElem?_eq_some_iff] at hi
      exact hi.1
    refine ⟨by simp; omega, ?_, ?_⟩
    · rw [List.getElem_drop]
      have : s[pos + (i - pos)]? = some c := by rw [show pos + (i - pos) = i by omega]; exact hi
      rw [List.getElem?_eq_some_iff] at this
      rw [this.2]
      exact hc
    · intro j hj
      rw [List.getElem_drop]
      have := hlt (pos + j) s[pos + j] (by omega) (by omega) (by simp)
      simp [this]
  simp [findFrom, this]
  omega

/-- The loop of `GetQuotedTokens` from a point in the line: `last` must separate the quotation marks
already read from those ahead. -/
theorem quotedLoop {s pre iss : List Char} {items : List Item} (h : Line iss items)
    (hs : s = pre ++ iss) (last : Option ℕ)
    (hq : ∀ i, s[i]? = some '"' → (nextPos last ≤ i ↔ pre.length ≤ i)) (v : List (List Char)) :
    ∃ st, untilLoop (quotedStep s) (iss, last, v) = .ok (v ++ items.map Item.content, st) := by
  induction h generalizing pre last v with
  | nil hw =>
    rw [untilLoop_unfold]
    simp [quotedStep, extractWord_blank hw]
  | @cons w it r l hw hg hr _ ih =>
    have hwq : '"' ∉ w := fun h => by
      have : ¬ Space '"' := by unfold Space; decide
      exact this (hw _ h)
    rw [untilLoop_unfold]
    cases it with
    | plain t =>
      obtain ⟨ht, htq⟩ := hg
      have h1 : t.take 1 ≠ ['"'] := by
        match t, ht.1 with
        | a :: t, _ =>
          intro h
          simp only [List.take_succ_cons, List.take_zero, List.cons.injEq, and_true] at h
          exact htq (by simp [h])
      have hst : quotedStep s (w ++ (Item.plain t).text ++ r, last, v)
          = .ok (none, r, last, v ++ [t]) := by
        simp only [quotedStep, Item.text, extractWord_word hw ht hr, ne_eq, h1, not_false_eq_true,
          if_true]
      rw [hst, Res.bind_ok]
      obtain ⟨st, hst⟩ := ih (pre := pre ++ (w ++ t)) (by rw [hs]; simp [Item.text]) last (by
        intro i hi
        rw [hq i hi]
        constructor
        · intro hle
          by_contra hc
          -- a mark inside w or t
          rw [hs, List.getElem?_append_right hle] at hi
          simp only [List.length_append, not_le] at hc
          rw [Item.text, List.getElem?_append_left (by simp; omega)] at hi
          have := List.mem_of_getElem? hi
          rcases List.mem_append.1 this with h | h
          · exact hwq h
          · exact htq h
        · intro hle
          simp only [List.length_append] at hle
          omega) (v ++ [t])
      exact ⟨st, by
        show untilLoop (quotedStep s) (r, last, v ++ [t]) = _
        rw [hst]; simp [Item.content]⟩
    | quoted q =>
      have hqq : '"' ∉ q := hg
      obtain ⟨tmp, iss, he, htake, hskip⟩ := skipQuotation hw hqq hr
      have hsf : s = (pre ++ w) ++ '"' :: (q ++ '"' :: r) := by rw [hs]; simp [Item.text]
      have hss : s = (pre ++ w ++ '"' :: q) ++ '"' :: r := by rw [hs]; simp [Item.text]
      have hf : findFrom isQuote s (nextPos last) = some (pre.length + w.length) := by
        have hi : s[pre.length + w.length]? = some '"' := by
          rw [hsf, List.getElem?_append_right (by simp)]
          simp
        refine findFrom_eq hi rfl ((hq _ hi).2 (by omega)) ?_
        intro j d hj hlt hd
        by_contra hc
        have hd' : d = '"' := by simpa [isQuote] using hc
        subst hd'
        have hle := (hq j hd).1 hj
        rw [hs, List.getElem?_append_right hle, List.append_assoc,
          List.getElem?_append_left (by omega)] at hd
        exact hwq (List.mem_of_getElem? hd)
      have hsec : findFrom isQuote s (pre.length + w.length + 1)
          = some (pre.length + w.length + 1 + q.length) := by
        have hi : s[pre.length + w.length + 1 + q.length]? = some '"' := by
          rw [hss, List.getElem?_append_right (by simp; omega)]
          rw [show pre.length + w.length + 1 + q.length - (pre ++ w ++ '"' :: q).length = 0 by
            simp; omega]
          rfl
        refine findFrom_eq hi rfl (by omega) ?_
        intro j d hj hlt hd
        by_contra hc
        have hd' : d = '"' := by simpa [isQuote] using hc
        subst hd'
        have hss' : s = (pre ++ w ++ ['"']) ++ (q ++ '"' :: r) := by rw [hs]; simp [Item.text]
        rw [hss', List.getElem?_append_right (by simp; omega),
          List.getElem?_append_left (by simp; omega)] at hd
        exact hqq (List.mem_of_getElem? hd)
      have hb : between s (some (pre.length + w.length)) (some (pre.length + w.length + 1 + q.length))
          = q := by
        have hss' : s = (pre ++ w ++ ['"']) ++ (q ++ '"' :: r) := by rw [hs]; simp [Item.text]
        have hl : (pre ++ w ++ ['"']).length = pre.length + w.length + 1 := by simp; omega
        simp only [between, nextPos]
        rw [hss', List.drop_append_of_le_length (by omega), List.drop_of_length_le (by omega)]
        simp
      have hst : quotedStep s (w ++ (Item.quoted q).text ++ r, last, v)
          = .ok (none, r, some (pre.length + w.length + 1 + q.length), v ++ [q]) := by
        have hnp : nextPos (some (pre.length + w.length)) = pre.length + w.length + 1 := rfl
        have he' : extractWord (w ++ (Item.quoted q).text ++ r) = some (tmp, iss) := he
        simp only [quotedStep, he', htake, ne_eq, not_true_eq_false, if_false, hf, hnp, hsec, hb,
          hskip, Res.bind_ok]
      rw [hst, Res.bind_ok]
      obtain ⟨st, hst⟩ := ih (pre := pre ++ w ++ '"' :: q ++ ['"']) (by simpa using hss)
        (some (pre.length + w.length + 1 + q.length)) (by
          intro i hi
          simp only [nextPos, List.length_append, List.length_cons, List.length_nil]
          omega) (v ++ [q])
      exact ⟨st, by
        show untilLoop (quotedStep s) (r, some _, v ++ [q]) = _
        rw [hst]; simp [Item.content]⟩

/-! ### Substitution -/

theorem findSub_none {out text : List Char} (h : findSub out text = none) (i : ℕ)
    (hi : i ≤ text.length) : ¬ out <+: text.drop i := by
  induction text generalizing i with
  | nil =>
    simp only [findSub] at h
    split_ifs at h with h0
    have : i = 0 := by simpa using hi
    subst this
    simpa using h0
  | cons c text ih =>
    simp only [findSub] at h
    split_ifs at h with h0
    rw [Option.map_eq_none_iff] at h
    cases i with
    | zero => simpa using h0
    | succ i => simpa using ih h i (by simpa using hi)

theorem findSub_some {out text : List Char} {pos : ℕ} (h : findSub out text = some pos) :
    pos ≤ text.length ∧ out <+: text.drop pos ∧ ∀ i < pos, ¬ out <+: text.drop i := by
  induction text generalizing pos with
  | nil =>
    simp only [findSub] at h
    split_ifs at h with h0
    have : 0 = pos := by simpa using h
    subst this
    simp [h0]
  | cons c text ih =>
    simp only [findSub] at h
    split_ifs at h with h0
    · have : 0 = pos := by simpa using h
      subst this
      exact ⟨by simp, by simpa using h0, by simp⟩
    · rw [Option.map_eq_some_iff] at h
      obtain ⟨p, hp, rfl⟩ := h
      obtain ⟨h1, h2, h3⟩ := ih hp
      refine ⟨by simpa using h1, by simpa using h2, ?_⟩
      intro i hi
      cases i with
      | zero => simpa using h0
      | succ i => simpa using h3 i (by omega)

theorem findSub_isSome {out text : List Char} (h : out <:+: text) : (findSub out text).isSome := by
  obtain ⟨a, b, rfl⟩ := h
  by_contra hc
  have hn : findSub out (a ++ out ++ b) = none := by simpa using hc
  refine findSub_none hn a.length (by simp) ?_
  rw [List.append_assoc, List.drop_left]
  exact List.prefix_append _ _

theorem replaceGo_fuel {out inn : List Char} (hout : out ≠ []) (s : List Char) (n m : ℕ)
    (hn : s.length ≤ n) (hm : s.length ≤ m) : replaceGo out inn n s = replaceGo out inn m s := by
  have ho : 0 < out.length := List.length_pos_iff.2 hout
  induction n generalizing s m with
  | zero =>
    have : s = [] := by simpa using hn
    subst this
    cases m <;> rfl
  | succ n ih =>
    match s, m with
    | [], 0 => rfl
    | [], m + 1 => rfl
    | c :: s, m + 1 =>
      simp only [replaceGo, List.length_cons] at hn hm ⊢
      split_ifs
      · rw [ih _ m (by simp; omega) (by simp; omega)]
      · rw [ih s m (by omega) (by omega)]

theorem replaceAll_prefix {out inn : List Char} (hout : out ≠ []) (s : List Char) :
    replaceAll out inn (out ++ s) = inn ++ replaceAll out inn s := by
  unfold replaceAll
  match out, hout with
  | c :: out, hout =>
    have hp : (c :: out).isPrefixOf (c :: (out ++ s)) = true := by
      rw [List.isPrefixOf_iff_prefix]
      exact List.prefix_append (c :: out) s
    simp only [List.cons_append, List.length_cons, replaceGo, hp, if_true]
    congr 1
    have : List.drop (out.length + 1) (c :: (out ++ s)) = s := by simp
    rw [this]
    exact replaceGo_fuel hout _ _ _ (by simp) le_rfl

theorem replaceAll_cons {out inn : List Char} (hout : out ≠ []) (c : Char) (s : List Char)
    (h : ¬ out <+: c :: s) : replaceAll out inn (c :: s) = c :: replaceAll out inn s := by
  unfold replaceAll
  have hp : ¬ out.isPrefixOf (c :: s) = true := by rwa [List.isPrefixOf_iff_prefix]
  simp only [List.length_cons, replaceGo, hp, if_false]
  rfl

theorem replaceAll_skip {out inn : List Char} (hout : out ≠ []) (a s : List Char)
    (h : ∀ i < a.length, ¬ out <+: (a ++ s).drop i) :
    replaceAll out inn (a ++ s) = a ++ replaceAll out inn s := by
  induction a with
  | nil => rfl
  | cons c a ih =>
    rw [List.cons_append, replaceAll_cons hout _ _ (by simpa using h 0 (by simp)), ih, List.cons_append]
    intro i hi
    simpa using h (i + 1) (by simpa using hi)

theorem replaceAll_none {out inn : List Char} (hout : out ≠ []) (s : List Char)
    (h : ∀ i ≤ s.length, ¬ out <+: s.drop i) : replaceAll out inn s = s := by
  have := replaceAll_skip (inn := inn) hout s [] (by
    intro i hi
    simpa using h i (by omega))
  simpa [replaceAll, replaceGo] using this

/-! ### Lines of numbers -/

theorem isSpaceFast_iff (c : Char) : isSpaceFast c = true ↔ NumSpace c := by
  unfold isSpaceFast NumSpace
  simp only [List.mem_cons, List.not_mem_nil, or_false, Bool.or_eq_true, decide_eq_true_eq]
  tauto

theorem not_isSpaceFast_iff (c : Char) : (!isSpaceFast c) = true ↔ ¬ NumSpace c := by
  rw [← isSpaceFast_iff]
  simp

theorem findFrom_none {p : Char → Bool} {s : List Char} {pos : ℕ} (h : findFrom p s pos = none) (i : ℕ)
    (c : Char) (hi : pos ≤ i) (hc : s[i]? = some c) : p c = false := by
  simp only [findFrom, Option.map_eq_none_iff, List.findIdx?_eq_none_iff] at h
  refine h c ?_
  have : (s.drop pos)[i - pos]? = some c := by
    rw [List.getElem?_drop, show pos + (i - pos) = i by omega]
    exact hc
  exact List.mem_of_getElem? this

theorem findFrom_some {p : Char → Bool} {s : List Char} {pos i : ℕ} (h : findFrom p s pos = some i) :
    pos ≤ i ∧ ∃ c, s[i]? = some c ∧ p c = true := by
  simp only [findFrom, Option.map_eq_some_iff] at h
  obtain ⟨j, hj, rfl⟩ := h
  rw [List.findIdx?_eq_some_iff_getElem] at hj
  obtain ⟨hlt, hp, -⟩ := hj
  refine ⟨by omega, _, ?_, hp⟩
  rw [List.getElem_drop, List.getElem?_eq_some_iff]
  have : j < s.length - pos := by simpa using hlt
  exact ⟨by omega, by simp [Nat.add_comm]⟩

/-- The next field after blanks. -/
theorem findFrom_field {pre w t r : List Char} (hw : ∀ c ∈ w, NumSpace c) (ht0 : t ≠ [])
    (ht : ∀ c ∈ t, ¬ NumSpace c) :
    findFrom (fun c => !isSpaceFast c) (pre ++ w ++ t ++ r) pre.length
      = some (pre.length + w.length) := by
  match t, ht0 with
  | a :: t, _ =>
    refine findFrom_eq (c := a) ?_ ((not_isSpaceFast_iff a).2 (ht a (by simp))) (by omega) ?_
    · rw [List.append_assoc, List.getElem?_append_right (by simp)]
      simp
    · intro j d hj hlt hd
      rw [List.append_assoc, List.append_assoc, List.getElem?_append_right hj,
        List.getElem?_append_left (by omega)] at hd
      have := (isSpaceFast_iff d).2 (hw d (List.mem_of_getElem? hd))
      simp [this]

/-- The end of a field. -/
theorem findFrom_end {pre t r : List Char} {c : Char} (ht0 : t ≠ []) (ht : ∀ c ∈ t, ¬ NumSpace c)
    (hc : NumSpace c) :
    findFrom isSpaceFast (pre ++ t ++ c :: r) (pre.length + 1) = some (pre.length + t.length) := by
  have h0 : 0 < t.length := List.length_pos_iff.2 ht0
  refine findFrom_eq (c := c) ?_ ((isSpaceFast_iff c).2 hc) (by omega) ?_
  · rw [List.getElem?_append_right (by simp)]
    simp
  · intro j d hj hlt hd
    rw [List.append_assoc, List.getElem?_append_right (by omega),
      List.getElem?_append_left (by omega)] at hd
    have := ht d (List.mem_of_getElem? hd)
    rw [← not_isSpaceFast_iff] at this
    simpa using this

theorem cString_field {pre t r : List Char} (ht : ∀ c ∈ t, c ≠ '\x00')
    (hr : r = [] ∨ ∃ r', r = '\x00' :: r') : cString (pre ++ t ++ r) pre.length = t := by
  unfold cString
  rw [List.append_assoc, List.drop_left, List.takeWhile_append_of_pos (by simpa using ht)]
  rcases hr with rfl | ⟨r', rfl⟩ <;> simp

theorem parseFastLoop_fields {α : Type} (parse : List Char → α) {r : List Char} {l : List (List Char)}
    (h : Fields r l) (n : ℕ) (hn : n ≤ l.length + 1) (pre t : List Char) (ht0 : t ≠ [])
    (ht : ∀ c ∈ t, ¬ NumSpace c ∧ c ≠ '\x00') (hr : ∀ c, r.head? = some c → NumSpace c) :
    parseFastLoop parse n (pre ++ t ++ r) (some pre.length)
      (findFrom isSpaceFast (pre ++ t ++ r) (pre.length + 1))
      = (((t :: l).take n).map parse, true) := by
  induction h generalizing n pre t with
  | @nil w hw =>
    match n, hn with
    | 0, _ => rfl
    | 1, _ =>
      cases w with
      | nil =>
        have hnone : findFrom isSpaceFast (pre ++ t ++ []) (pre.length + 1) = none := by
          by_contra hc
          obtain ⟨i, hi⟩ := Option.ne_none_iff_exists'.1 hc
          obtain ⟨hle, c, hci, hcs⟩ := findFrom_some hi
          rw [List.append_nil, List.getElem?_append_right (by omega)] at hci
          exact (ht c (List.mem_of_getElem? hci)).1 ((isSpaceFast_iff c).1 hcs)
        rw [hnone]
        simp only [parseFastLoop, putNul, List.take_succ_cons, List.take_zero, List.map_cons, List.map_nil]
        rw [cString_field (fun c hc => (ht c hc).2) (.inl rfl)]
      | cons c w =>
        rw [findFrom_end ht0 (fun c hc => (ht c hc).1) (hw c (by simp))]
        simp only [parseFastLoop, putNul, List.take_succ_cons, List.take_zero, List.map_cons, List.map_nil]
        have hset : (pre ++ t ++ c :: w).set (pre.length + t.length) '\x00'
            = pre ++ t ++ '\x00' :: w := by
          rw [List.set_append_right _ _ (by simp)]
          simp
        rw [hset, cString_field (fun c hc => (ht c hc).2) (.inr ⟨w, rfl⟩)]
  | @cons w t' r' l hw ht0' ht' hr' _ ih =>
    match n, hn with
    | 0, _ => rfl
    | n + 1, hn =>
      match w with
      | [] =>
        -- two fields without white space between
        exfalso
        match t', ht0' with
        | a :: t', _ => exact (ht' a (by simp)).1 (hr a rfl)
      | c :: w =>
        have e : pre ++ t ++ (c :: w ++ t' ++ r') = pre ++ t ++ c :: (w ++ t' ++ r') := by simp
        rw [e, findFrom_end ht0 (fun c hc => (ht c hc).1) (hw c (by simp))]
        have hset : (pre ++ t ++ c :: (w ++ t' ++ r')).set (pre.length + t.length) '\x00'
            = pre ++ t ++ '\x00' :: (w ++ t' ++ r') := by
          rw [List.set_append_right _ _ (by simp)]
          simp
        have hre : pre ++ t ++ '\x00' :: (w ++ t' ++ r') = (pre ++ t ++ ['\x00']) ++ w ++ t' ++ r' := by
          simp
        have hlen : (pre ++ t ++ ['\x00']).length = pre.length + t.length + 1 := by simp; omega
        have hf := findFrom_field (pre := pre ++ t ++ ['\x00']) (w := w) (t := t') (r := r')
          (fun c hc => hw c (by simp [hc])) ht0' (fun c hc => (ht' c hc).1)
        have hl2 : (pre ++ t ++ ['\x00'] ++ w).length = (pre ++ t ++ ['\x00']).length + w.length := by
          simp only [List.length_append]
        have := ih n (by simpa using hn) (pre ++ t ++ ['\x00'] ++ w) t' ht0' ht' hr'
        rw [hl2] at this
        simp only [parseFastLoop, putNul, List.take_succ_cons, List.map_cons, hset]
        rw [cString_field (fun c hc => (ht c hc).2) (.inr ⟨_, rfl⟩), hre,
          show nextPos (some (pre.length + t.length)) = (pre ++ t ++ ['\x00']).length by
            rw [hlen]; rfl, hf,
          show nextPos (some ((pre ++ t ++ ['\x00']).length + w.length))
            = (pre ++ t ++ ['\x00']).length + w.length + 1 from rfl, this]

/-- If the last character is not white space the loop never runs out of fields. -/
theorem parseFastLoop_true {α : Type} (parse : List Char → α) (n : ℕ) (s : List Char) (c : Char)
    (hc : s.getLast? = some c) (hcs : isSpaceFast c = false) (pos : ℕ) (next : Option ℕ)
    (hnext : ∀ q, next = some q → ∃ d, s[q]? = some d ∧ isSpaceFast d = true) :
    (parseFastLoop parse n s (some pos) next).2 = true ∧
      (parseFastLoop parse n s (some pos) next).1.length = n := by
  induction n generalizing s pos next with
  | zero => exact ⟨rfl, rfl⟩
  | succ n ih =>
    have hlast : s[s.length - 1]? = some c := by rw [← List.getLast?_eq_getElem?]; exact hc
    have hlen : s.length - 1 < s.length := (List.getElem?_eq_some_iff.1 hlast).1
    -- the string after the NUL has been put in, and where the search starts
    obtain ⟨s', hs', hc', hk⟩ : ∃ s' : List Char, putNul s next = s' ∧ s'[s.length - 1]? = some c ∧
          (s'.length = s.length ∧ nextPos next ≤ s.length - 1) := by
      cases next with
      | none => exact ⟨s, rfl, hlast, rfl, by simp [nextPos]⟩
      | some q =>
        obtain ⟨d, hd, hds⟩ := hnext q rfl
        have hq : q < s.length := (List.getElem?_eq_some_iff.1 hd).1
        have hne : q ≠ s.length - 1 := by
          intro h
          rw [h, hlast] at hd
          have : c = d := by simpa using hd
          rw [this, hds] at hcs
          exact absurd hcs (by simp)
        refine ⟨_, rfl, ?_, by simp [putNul], ?_⟩
        · rw [putNul, List.getElem?_set_ne hne]
          exact hlast
        · simp only [nextPos]
          omega
    have hc'' : s'.getLast? = some c := by rw [List.getLast?_eq_getElem?, hk.1]; exact hc'
    obtain ⟨p, hp⟩ : ∃ p, findFrom (fun c => !isSpaceFast c) s' (nextPos next) = some p := by
      by_contra h
      push Not at h
      have hnone : findFrom (fun c => !isSpaceFast c) s' (nextPos next) = none :=
        Option.eq_none_iff_forall_ne_some.2 h
      have := findFrom_none hnone (s.length - 1) c hk.2 hc'
      simp [hcs] at this
    have := ih s' hc'' p (findFrom isSpaceFast s' (nextPos (some p))) (fun q hq =>
      (findFrom_some hq).2)
    simp only [parseFastLoop, hs', hp]
    exact ⟨this.1, by simp [this.2]⟩

end Verif
