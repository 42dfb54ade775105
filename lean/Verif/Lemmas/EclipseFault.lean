import Verif.Model.EclipseFault
import Verif.Lemmas.Loop
import Verif.Lemmas.TextIO
import Verif.Lemmas.Strings
import Verif.Props.Well
import Verif.Props.TextIO

/-!
# Lines of files of faults
-/

namespace Verif
open Spec

namespace LogMap
variable {V : Type}

/-- A name after all the others. -/
theorem find_last {pre : LogMap V} {n : LogName} (h : ∀ p ∈ pre, p.1 < n) : LogMap.find pre n = none := by
  induction pre with
  | nil => rfl
  | cons p m ih =>
    rw [find_cons, if_neg (fun e => lt_irrefl _ (e ▸ h p (by simp))),
      ih fun q hq => h q (by simp [hq])]

theorem find_last' {pre : LogMap V} {n : LogName} (h : ∀ p ∈ pre, p.1 < n) (u : V) :
    LogMap.find (pre ++ [(n, u)]) n = some u := by
  induction pre with
  | nil => rw [List.nil_append, find_cons, if_pos rfl]
  | cons p m ih =>
    rw [List.cons_append, find_cons, if_neg (fun e => lt_irrefl _ (e ▸ h p (by simp))),
      ih fun q hq => h q (by simp [hq])]

theorem set_last {pre : LogMap V} {n : LogName} (h : ∀ p ∈ pre, p.1 < n) (v : V) :
    LogMap.set pre n v = pre ++ [(n, v)] := by
  induction pre with
  | nil => rfl
  | cons p m ih =>
    have hp := h p (by simp)
    rw [set, if_neg (fun e => lt_irrefl _ (e ▸ hp)), if_neg (lt_asymm hp),
      ih fun q hq => h q (by simp [hq])]
    rfl

theorem set_last' {pre : LogMap V} {n : LogName} (h : ∀ p ∈ pre, p.1 < n) (u v : V) :
    LogMap.set (pre ++ [(n, u)]) n v = pre ++ [(n, v)] := by
  induction pre with
  | nil => rw [List.nil_append, set, if_pos rfl]; rfl
  | cons p m ih =>
    have hp := h p (by simp)
    rw [List.cons_append, set, if_neg (fun e => lt_irrefl _ (e ▸ hp)), if_neg (lt_asymm hp),
      ih fun q hq => h q (by simp [hq])]
    rfl

end LogMap

theorem natDigits_length {p n : ℕ} (hp : 0 < p) (h : n < 10 ^ p) : (natDigits n).length ≤ p := by
  induction p generalizing n with
  | zero => omega
  | succ p ih =>
    rw [natDigits]
    split_ifs with h1
    · simp
    · rw [List.length_append, List.length_singleton]
      have hp' : 0 < p := by
        rcases Nat.eq_zero_or_pos p with rfl | h2
        · norm_num at h; omega
        · exact h2
      have := ih (n := n / 10) hp' (by rw [Nat.div_lt_iff_lt_mul (by norm_num), ← pow_succ]; exact h)
      omega

namespace EclipseFault

/-- A number that is in the range of the format: with the following one it has at most seven digits. -/
def Fits (v : ℤ) : Prop := 0 ≤ v ∧ v + 1 < 10 ^ 7

theorem showInt_word (v : ℤ) : Word (showInt v) := by
  refine ⟨(showInt_chars v).1, fun c hc hs => ?_⟩
  have := (showInt_chars v).2 c hc
  rw [← isSpaceC_iff] at hs
  rw [hs] at this
  cases this

theorem showInt_short {v : ℤ} (h : Fits v) : (showInt (v + 1)).length ≤ 7 := by
  obtain ⟨h0, h1⟩ := h
  unfold showInt
  rw [if_neg (by omega)]
  exact natDigits_length (by norm_num) (by zify; rw [abs_of_nonneg (by omega)]; exact h1)

theorem space_word {c : Char} {t : List Char} (hc : Space c) (r : List Char) : Sep (c :: t ++ r) := by
  intro d hd
  rw [List.cons_append, List.head?_cons, Option.some.injEq] at hd
  exact hd ▸ hc

theorem blank_replicate (n : ℕ) : Blank (List.replicate n ' ') := by
  intro c hc
  rw [List.mem_replicate] at hc
  rw [hc.2]
  simp [Space]

/-- A word that is shorter than its field is a word of the line. -/
theorem words_setw {w : ℕ} {t r : List Char} {l : List (List Char)} (ht : Word t) (hr : Sep r)
    (h : Words r l) : Words (setw w t ++ r) (t :: l) := by
  unfold setw
  exact Words.cons (blank_replicate _) ht hr h

theorem sep_setw {w : ℕ} {t : List Char} (ht : t.length < w) (r : List Char) : Sep (setw w t ++ r) := by
  unfold setw
  obtain ⟨n, hn⟩ : ∃ n, w - t.length = n + 1 := ⟨w - t.length - 1, by omega⟩
  rw [hn, List.replicate_succ]
  intro d hd
  rw [List.cons_append, List.cons_append, List.head?_cons, Option.some.injEq] at hd
  rw [← hd]
  simp [Space]

/-- The line of a segment after its name, without the end of the line. -/
def tail (s : Segment) : List Char :=
  setw 18 (showInt (s.iFrom + 1)) ++ (setw 8 (showInt (s.iTo + 1))
    ++ (setw 10 (showInt (s.jFrom + 1)) ++ (setw 8 (showInt (s.jTo + 1))
    ++ (setw 10 (showInt (s.kFrom + 1)) ++ (setw 8 (showInt (s.kTo + 1))
    ++ (setw 8 (showFace s.face) ++ (setw 4 ['/'] ++ [])))))))

/-- The words of it. -/
def tailTokens (s : Segment) : List (List Char) :=
  [showInt (s.iFrom + 1), showInt (s.iTo + 1), showInt (s.jFrom + 1), showInt (s.jTo + 1),
    showInt (s.kFrom + 1), showInt (s.kTo + 1), showFace s.face, ['/']]

/-- The numbers of a segment are in the range of the format. -/
def FitsAll (s : Segment) : Prop :=
  Fits s.iFrom ∧ Fits s.iTo ∧ Fits s.jFrom ∧ Fits s.jTo ∧ Fits s.kFrom ∧ Fits s.kTo

theorem showFace_word (f : Face) : Word (showFace f) ∧ (showFace f).length < 8 := by
  cases f <;> simp [showFace, Word, Space]

theorem words_tail {s : Segment} (h : FitsAll s) : Words (tail s) (tailTokens s) ∧ Sep (tail s) := by
  obtain ⟨h1, h2, h3, h4, h5, h6⟩ := h
  have k2 := showInt_short h2
  have k3 := showInt_short h3
  have k4 := showInt_short h4
  have k5 := showInt_short h5
  have k6 := showInt_short h6
  have kf := showFace_word s.face
  refine ⟨?_, sep_setw (by have := showInt_short h1; omega) _⟩
  unfold tail tailTokens
  refine words_setw (showInt_word _) (sep_setw (by omega) _) ?_
  refine words_setw (showInt_word _) (sep_setw (by omega) _) ?_
  refine words_setw (showInt_word _) (sep_setw (by omega) _) ?_
  refine words_setw (showInt_word _) (sep_setw (by omega) _) ?_
  refine words_setw (showInt_word _) (sep_setw (by omega) _) ?_
  refine words_setw (showInt_word _) (sep_setw (by omega) _) ?_
  refine words_setw kf.1 (sep_setw (by simp) _) ?_
  refine words_setw (by simp [Word, Space]) (by intro c hc; cases hc) (Words.nil (by simp [Blank]))

theorem words_line {t : List Char} (ht : Word t) {s : Segment} (h : FitsAll s) :
    Words (t ++ tail s) (t :: tailTokens s) := by
  have := Words.cons (w := []) (by simp [Blank]) ht (words_tail h).2 (words_tail h).1
  rwa [List.nil_append] at this

theorem mem_setw {w : ℕ} {t : List Char} {c : Char} (h : c ∈ setw w t) : c = ' ' ∨ c ∈ t := by
  unfold setw at h
  rw [List.mem_append, List.mem_replicate] at h
  tauto

theorem word_no_line {t : List Char} (ht : Word t) : '\n' ∉ t := fun h => ht.2 _ h (by simp [Space])

theorem tail_no_line (s : Segment) : '\n' ∉ tail s := by
  have hw : ∀ (w : ℕ) (t : List Char), Word t → '\n' ∉ setw w t := by
    intro w t ht h
    rcases mem_setw h with h | h
    · revert h; decide
    · exact word_no_line ht h
  unfold tail
  simp only [List.mem_append, not_or]
  exact ⟨hw _ _ (showInt_word _), hw _ _ (showInt_word _), hw _ _ (showInt_word _),
    hw _ _ (showInt_word _), hw _ _ (showInt_word _), hw _ _ (showInt_word _),
    hw _ _ (showFace_word _).1, hw _ _ (by simp [Word, Space]), by simp⟩

theorem showSegment_eq (name : List Char) (s : Segment) (r : List Char) :
    showSegment name s ++ r = ('\'' :: name ++ ['\'']) ++ tail s ++ '\n' :: r := by
  unfold showSegment tail
  have : setw 5 ['/', '\n'] = setw 4 ['/'] ++ ['\n'] := rfl
  rw [this]
  simp [List.append_assoc]

theorem getline_line {line : List Char} (h : '\n' ∉ line) (t : List Char) :
    IStream.getline ⟨line ++ '\n' :: t, false, false⟩ = (line, ⟨t, false, false⟩) := by
  unfold IStream.getline
  rw [if_pos (show IStream.good ⟨line ++ '\n' :: t, false, false⟩ = true from rfl)]
  dsimp only
  rw [(takeWhile_line h t).1, (takeWhile_line h t).2]

theorem parseCell_ok {tokens : List (List Char)} {n : ℕ} {v : ℤ} (hv : Fits v)
    (h : tokens[n]? = some (showInt (v + 1))) : parseCell tokens n = .ok v := by
  obtain ⟨h0, h1⟩ := hv
  unfold parseCell rd
  rw [h]
  have : parseType scanInt (showInt (v + 1)) = .ok (v + 1) := by
    refine parseType_ok (showInt_chars _).1 (showInt_chars _).2 ?_
    have := scanInt_showInt (i := v + 1) (by constructor <;> omega) (rest := []) (by simp)
    rwa [List.append_nil] at this
  simp only [Res.monad_bind_eq, Res.bind_ok]
  rw [this, Res.bind_ok, if_neg (by omega)]
  congr 1
  omega

theorem readSegments_ok (f : EclipseFault) (t : List Char) {s : Segment} (h : FitsAll s) :
    readSegments f (t :: tailTokens s) = .ok { f with segments := f.segments ++ [s] } := by
  obtain ⟨h1, h2, h3, h4, h5, h6⟩ := h
  unfold readSegments
  rw [parseCell_ok h1 rfl, parseCell_ok h2 rfl, parseCell_ok h3 rfl, parseCell_ok h4 rfl,
    parseCell_ok h5 rfl, parseCell_ok h6 rfl]
  have h7 : rd (t :: tailTokens s) 7 = .ok (showFace s.face) := rfl
  simp only [Res.monad_bind_eq, Res.bind_ok]
  rw [h7, Res.bind_ok]
  have h8 : (unquote (showFace s.face)).bind parseFace = .ok s.face := by cases s.face <;> rfl
  cases hu : unquote (showFace s.face) with
  | ok u =>
    rw [hu, Res.bind_ok] at h8
    rw [Res.bind_ok, h8]
    rfl
  | _ => rw [hu] at h8; cases h8

theorem readTokens_line (m : LogMap EclipseFault) {t : List Char} (h1 : t ≠ ['-', '-']) (h2 : t ≠ ['/'])
    {s : Segment} (h : FitsAll s) : readTokens m (t :: tailTokens s) =
      .ok (some (m.set ((t.dropLast).drop 1)
        ⟨(t.dropLast).drop 1, (lookup m ((t.dropLast).drop 1)).segments ++ [s]⟩)) := by
  unfold readTokens
  dsimp only
  rw [if_neg h1, if_neg h2, if_pos (show (t :: tailTokens s).length = 9 from rfl),
    readSegments_ok _ _ h]
  rfl

/-- The loop reads a line. -/
theorem loop_line {line : List Char} (hl : '\n' ∉ line) {l : List (List Char)} (hw : Words line l)
    (t : List Char) (m : LogMap EclipseFault) :
    untilLoop readStep (⟨line ++ '\n' :: t, false, false⟩, m) =
      (readTokens m l).bind fun r =>
        match r with
        | none => .ok ((), ⟨t, false, false⟩, m)
        | some m' => untilLoop readStep (⟨t, false, false⟩, m') := by
  rw [untilLoop_unfold]
  have : readStep (⟨line ++ '\n' :: t, false, false⟩, m) = (readTokens m l).bind fun r =>
      match r with
      | none => .ok (some (), ⟨t, false, false⟩, m)
      | some m' => .ok (none, ⟨t, false, false⟩, m') := by
    unfold readStep
    rw [getline_line hl]
    dsimp only
    rw [getTokens_words hw]
    rfl
  rw [this]
  cases hr : readTokens m l with
  | ok r => cases r <;> rfl
  | _ => rfl

/-- Empty lines are passed over. -/
theorem loop_blank {line : List Char} (hl : '\n' ∉ line) (hb : Blank line) (t : List Char)
    (m : LogMap EclipseFault) :
    untilLoop readStep (⟨line ++ '\n' :: t, false, false⟩, m) =
      untilLoop readStep (⟨t, false, false⟩, m) := by
  rw [loop_line hl (Words.nil hb)]
  rfl

/-- The line of a segment. -/
theorem loop_segment (m : LogMap EclipseFault) {name : List Char} (hn : ∀ c ∈ name, ¬ Space c)
    {s : Segment} (h : FitsAll s) (r : List Char) :
    untilLoop readStep (⟨showSegment name s ++ r, false, false⟩, m) =
      untilLoop readStep (⟨r, false, false⟩,
        m.set name ⟨name, (lookup m name).segments ++ [s]⟩) := by
  have hq : Word ('\'' :: name ++ ['\'']) := by
    refine ⟨by simp, fun c hc => ?_⟩
    rw [List.cons_append, List.mem_cons, List.mem_append, List.mem_singleton] at hc
    rcases hc with rfl | hc | rfl
    · simp [Space]
    · exact hn c hc
    · simp [Space]
  have hname : (('\'' :: name ++ ['\'']).dropLast).drop 1 = name := by
    rw [List.dropLast_concat]
    rfl
  rw [showSegment_eq, loop_line (by
      rw [List.mem_append, not_or]; exact ⟨word_no_line hq, tail_no_line s⟩) (words_line hq h),
    readTokens_line m (by simp) (by simp) h, hname]
  rfl

/-- The other segments of a fault after the first ones. -/
theorem loop_more {pre : LogMap EclipseFault} {name : List Char} (hp : ∀ p ∈ pre, p.1 < name)
    (hn : ∀ c ∈ name, ¬ Space c) (r : List Char) (ss : List Segment) : ∀ done,
    (∀ s ∈ ss, FitsAll s) →
    untilLoop readStep (⟨ss.flatMap (showSegment name) ++ r, false, false⟩, pre ++ [(name, ⟨name, done⟩)]) =
      untilLoop readStep (⟨r, false, false⟩, pre ++ [(name, ⟨name, done ++ ss⟩)]) := by
  induction ss with
  | nil => intro done _; rw [List.append_nil]; rfl
  | cons s ss ih =>
    intro done h
    rw [List.flatMap_cons, List.append_assoc, loop_segment _ hn (h s (by simp)), lookup,
      LogMap.find_last' hp, LogMap.set_last' hp, Option.getD_some, ih _ fun x hx => h x (by simp [hx])]
    simp

/-- The lines of a fault with a name after those before. -/
theorem loop_fault {pre : LogMap EclipseFault} {name : List Char} (hp : ∀ p ∈ pre, p.1 < name)
    (hn : ∀ c ∈ name, ¬ Space c) (r : List Char) {f : EclipseFault} (hf : f.name = name)
    (h : ∀ s ∈ f.segments, FitsAll s) :
    untilLoop readStep (⟨f.write name ++ r, false, false⟩, pre) =
      untilLoop readStep (⟨r, false, false⟩,
        pre ++ [(name, f)].filter fun p => p.2.segments ≠ []) := by
  obtain ⟨fn, ss⟩ := f
  obtain rfl : fn = name := hf
  unfold write
  dsimp only at h ⊢
  cases ss with
  | nil => simp
  | cons s ss =>
    rw [List.flatMap_cons, List.append_assoc, loop_segment _ hn (h s (by simp)), lookup,
      LogMap.find_last hp, LogMap.set_last hp, Option.getD_none, List.nil_append,
      loop_more hp hn _ _ _ fun x hx => h x (by simp [hx])]
    simp

/-- The lines of all faults. -/
theorem loop_faults (r : List Char) (m : LogMap EclipseFault) : ∀ pre : LogMap EclipseFault,
    m.Sorted → (∀ p ∈ pre, ∀ q ∈ m, p.1 < q.1) →
    (∀ p ∈ m, (∀ c ∈ p.1, ¬ Space c) ∧ p.2.name = p.1 ∧ ∀ s ∈ p.2.segments, FitsAll s) →
    untilLoop readStep (⟨m.flatMap (fun p => p.2.write p.1) ++ r, false, false⟩, pre) =
      untilLoop readStep (⟨r, false, false⟩, pre ++ m.filter fun p => p.2.segments ≠ []) := by
  induction m with
  | nil => intro pre _ _ _; simp
  | cons q m ih =>
    intro pre hs hp h
    obtain ⟨hq, hs'⟩ := List.pairwise_cons.1 hs
    obtain ⟨a, b, c⟩ := h q (by simp)
    rw [List.flatMap_cons, List.append_assoc, loop_fault (fun p hp' => hp p hp' q (by simp)) a _ b c,
      ih _ hs' _ fun x hx => h x (by simp [hx])]
    · congr 2
      rw [List.append_assoc, ← List.filter_append]
      rfl
    · intro p hp' x hx
      rw [List.mem_append, List.mem_filter, List.mem_singleton] at hp'
      rcases hp' with hp' | ⟨rfl, -⟩
      · exact hp p hp' x (by simp [hx])
      · exact hq x hx

/-- At the end of the file the loop goes on for ever. -/
theorem loop_end (m : LogMap EclipseFault) : untilLoop readStep (⟨[], false, false⟩, m) = .diverges := by
  have h2 : ∀ n, untilFuel readStep n (⟨[], true, true⟩, m) = .diverges := by
    intro n
    induction n with
    | zero => rfl
    | succ n ih =>
      rw [untilFuel]
      have : readStep (⟨[], true, true⟩, m) = .ok (none, ⟨[], true, true⟩, m) := by
        unfold readStep
        rw [show IStream.getline ⟨[], true, true⟩ = ([], ⟨[], true, true⟩) from rfl]
        dsimp only
        rw [getTokens_words (Words.nil (by simp [Blank]))]
        rfl
      rw [this, Res.bind_ok]
      exact ih
  rw [untilLoop_unfold]
  have : readStep (⟨[], false, false⟩, m) = .ok (none, ⟨[], true, true⟩, m) := by
    unfold readStep
    rw [show IStream.getline ⟨[], false, false⟩ = ([], ⟨[], true, true⟩) from rfl]
    dsimp only
    rw [getTokens_words (Words.nil (by simp [Blank]))]
    rfl
  rw [this, Res.bind_ok]
  exact untilLoop_diverges h2

end EclipseFault
end Verif
