import Verif.Lemmas.EclipseFault

/-!
# Files of faults (C139)
-/

namespace Verif
open Spec EclipseFault

/-- What files can hold of a fault: a name without white space, which is also the one in the map, and
cells with numbers of at most seven digits. -/
def FaultFits (p : LogName × EclipseFault) : Prop :=
  (∀ c ∈ p.1, ¬ Space c) ∧ p.2.name = p.1 ∧ ∀ s ∈ p.2.segments, FitsAll s

/-- **C139, writing and reading.** Reading what was written of some faults gives back all of those
that have segments, each with its segments in order, and leaves the stream at the empty line after
them. -/
theorem faults_round_trip {m : LogMap EclipseFault} (hm : m.Sorted) (hne : m ≠ [])
    (h : ∀ p ∈ m, FaultFits p) (rest : List Char) :
    readFaults (IStream.openOn (writeFaults m ++ rest)) [] =
      .ok (IStream.openOn ('\n' :: rest), m.filter fun p => p.2.segments ≠ []) := by
  have hd : ∃ hdr : List Char, '\n' ∉ hdr ∧ writeFaults m ++ rest = [] ++ '\n' ::
      ((['-', '-'] ++ ' ' :: hdr) ++ '\n' :: ([] ++ '\n' ::
        (m.flatMap (fun p => p.2.write p.1) ++ ([] ++ '\n' :: ([' ', ' ', '/'] ++ '\n' ::
          ('\n' :: rest)))))) := by
    refine ⟨['N', 'A', 'M', 'E'] ++ setw 15 ['I', 'X', '1'] ++ setw 8 ['I', 'X', '2']
      ++ setw 10 ['I', 'Y', '1'] ++ setw 8 ['I', 'Y', '2'] ++ setw 10 ['I', 'Z', '1']
      ++ setw 8 ['I', 'Z', '2'] ++ [' ', ' ', ' ', ' ', 'F', 'A', 'C', 'E'], by decide, ?_⟩
    unfold writeFaults
    rw [if_neg hne]
    have : setw 10 ['F', 'A', 'C', 'E', '\n', '\n'] =
      [' ', ' ', ' ', ' ', 'F', 'A', 'C', 'E'] ++ ['\n', '\n'] := rfl
    rw [this]
    simp [List.append_assoc]
  obtain ⟨hdr, hno, e⟩ := hd
  obtain ⟨l, hl⟩ := words_exist (' ' :: hdr)
  have hw : Words (['-', '-'] ++ ' ' :: hdr) (['-', '-'] :: l) := by
    have := Words.cons (w := []) (t := ['-', '-']) (by simp [Blank]) (by simp [Word, Space])
      (by intro c hc; rw [List.head?_cons, Option.some.injEq] at hc; rw [← hc]; simp [Space]) hl
    rwa [List.nil_append] at this
  have hend : Words [' ', ' ', '/'] [['/']] :=
    Words.cons (w := [' ', ' ']) (t := ['/']) (r := []) (by simp [Blank, Space])
      (by simp [Word, Space]) (by intro c hc; cases hc) (Words.nil (by simp [Blank]))
  have hb : Blank [] := by simp [Blank]
  unfold readFaults IStream.openOn
  rw [e, loop_blank (by simp) hb, loop_line (by simpa using hno) hw,
    show readTokens [] (['-', '-'] :: l) = .ok (some []) from rfl, Res.bind_ok]
  dsimp only
  rw [loop_blank (by simp) hb, loop_faults _ m [] hm (by simp) h, loop_blank (by simp) hb,
    loop_line (by simp) hend, List.nil_append]
  rfl

/-- **C139, faults without segments.** They are written as nothing, so they are not there after
reading. -/
theorem faults_lost_violation :
    ∃ m : LogMap EclipseFault, m.Sorted ∧ (∀ p ∈ m, FaultFits p) ∧ m.length = 2 ∧
      ∃ s m', readFaults (IStream.openOn (writeFaults m)) [] = .ok (s, m') ∧ m'.length = 1 := by
  have hf : ∀ p ∈ ([(['A'], ⟨['A'], []⟩), (['B'], ⟨['B'], [⟨2, 2, 0, 4, 0, 1, .PosX⟩]⟩)] :
      LogMap EclipseFault), FaultFits p := by
    intro p hp
    rw [List.mem_cons, List.mem_singleton] at hp
    rcases hp with rfl | rfl
    · exact ⟨by simp [Space], rfl, by simp⟩
    · refine ⟨by simp [Space], rfl, ?_⟩
      intro s hs
      rw [List.mem_singleton] at hs
      subst hs
      simp [FitsAll, Fits]
  have hs : LogMap.Sorted ([(['A'], ⟨['A'], []⟩), (['B'], ⟨['B'], [⟨2, 2, 0, 4, 0, 1, .PosX⟩]⟩)] :
      LogMap EclipseFault) := by
    refine List.pairwise_cons.2 ⟨?_, List.pairwise_singleton _ _⟩
    intro q hq
    rw [List.mem_singleton] at hq
    subst hq
    decide
  have := faults_round_trip hs (by simp) hf []
  rw [List.append_nil] at this
  exact ⟨_, hs, hf, rfl, _, _, this, by simp⟩

/-- **C139, the end of the file.** If the file ends before the line with the slash, the reader never
returns: at the end of the file it gets empty lines for ever. -/
theorem faults_eof_violation {m : LogMap EclipseFault} (hm : m.Sorted) (h : ∀ p ∈ m, FaultFits p) :
    readFaults (IStream.openOn (m.flatMap fun p => p.2.write p.1)) [] = .diverges := by
  have := loop_faults [] m [] hm (by simp) h
  rw [List.append_nil] at this
  unfold readFaults IStream.openOn
  rw [this, loop_end]
  rfl

/-- **C139, names without quotes.** A name that is a word without quotes, which Eclipse files may
have, loses its first and its last character. -/
theorem faults_unquoted_violation {t : List Char} (ht : Word t) (h1 : t ≠ ['-', '-']) (h2 : t ≠ ['/'])
    {s : Segment} (hs : FitsAll s) :
    readFaults (IStream.openOn (t ++ tail s ++ ['\n', '/', '\n'])) [] =
      .ok (IStream.openOn [], [((t.dropLast).drop 1, ⟨(t.dropLast).drop 1, [s]⟩)]) := by
  have hend : Words ['/'] [['/']] :=
    Words.cons (w := []) (t := ['/']) (r := []) (by simp [Blank])
      (by simp [Word, Space]) (by intro c hc; cases hc) (Words.nil (by simp [Blank]))
  unfold readFaults IStream.openOn
  rw [show t ++ tail s ++ ['\n', '/', '\n'] = (t ++ tail s) ++ '\n' :: (['/'] ++ '\n' :: []) from rfl,
    loop_line (by rw [List.mem_append, not_or]; exact ⟨word_no_line ht, tail_no_line s⟩)
      (words_line ht hs), readTokens_line [] h1 h2 hs, Res.bind_ok]
  dsimp only
  rw [loop_line (by simp) hend]
  rfl

/-- **C139, names with white space.** A fault whose name is two words is written, but what is written
is refused. -/
theorem faults_blank_violation {a b : List Char} (ha : ∀ c ∈ a, ¬ Space c) (hb : ∀ c ∈ b, ¬ Space c)
    {s : Segment} (hs : FitsAll s) (rest : List Char) :
    readFaults (IStream.openOn (write ⟨a ++ ' ' :: b, [s]⟩ (a ++ ' ' :: b) ++ rest)) [] =
      .throws "Not a segment" := by
  have w1 : Word ('\'' :: a) := by
    refine ⟨by simp, fun c hc => ?_⟩
    rcases List.mem_cons.1 hc with rfl | hc
    · simp [Space]
    · exact ha c hc
  have w2 : Word (b ++ ['\'']) := by
    refine ⟨by simp, fun c hc => ?_⟩
    rcases List.mem_append.1 hc with hc | hc
    · exact hb c hc
    · rw [List.mem_singleton] at hc; rw [hc]; simp [Space]
  have hw : Words ('\'' :: a ++ ' ' :: (b ++ ['\''] ++ tail s))
      (('\'' :: a) :: (b ++ ['\'']) :: tailTokens s) := by
    have h2 := Words.cons (w := [' ']) (by simp [Blank, Space]) w2 (words_tail hs).2 (words_tail hs).1
    have h1 := Words.cons (w := []) (by simp [Blank]) w1 (by
      intro c hc
      rw [List.append_assoc, List.cons_append, List.head?_cons, Option.some.injEq] at hc
      rw [← hc]; simp [Space]) h2
    simpa using h1
  unfold readFaults IStream.openOn write
  dsimp only
  rw [List.flatMap_cons, List.flatMap_nil, List.append_nil, showSegment_eq,
    show '\'' :: (a ++ ' ' :: b) ++ ['\''] ++ tail s ++ '\n' :: rest =
      ('\'' :: a ++ ' ' :: (b ++ ['\''] ++ tail s)) ++ '\n' :: rest by simp,
    loop_line _ hw]
  · unfold readTokens
    dsimp only
    rw [if_neg (by simp), if_neg (by simp), if_neg (by simp [tailTokens])]
    rfl
  · simp only [List.mem_append, List.mem_cons, not_or]
    exact ⟨⟨by decide, fun h => ha _ h (by simp [Space])⟩, by decide,
      ⟨fun h => hb _ h (by simp [Space]), by decide, by simp⟩, tail_no_line s⟩

/-- **C139, comments.** A comment must begin with two dashes and a blank: text right after the dashes
is refused, though it is a comment in Eclipse files. -/
theorem faults_comment_violation {w : List Char} (hw : Word w) (rest : List Char) :
    readFaults (IStream.openOn ('-' :: '-' :: w ++ '\n' :: rest)) [] = .throws "Not a segment" := by
  have hw' : Word ('-' :: '-' :: w) := by
    refine ⟨by simp, fun c hc => ?_⟩
    rcases List.mem_cons.1 hc with rfl | hc
    · simp [Space]
    · rcases List.mem_cons.1 hc with rfl | hc
      · simp [Space]
      · exact hw.2 c hc
  have hws : Words ('-' :: '-' :: w) ['-' :: '-' :: w] := by
    have := Words.cons (w := []) (by simp [Blank]) hw' (by intro c hc; cases hc)
      (Words.nil (w := []) (by simp [Blank]))
    simpa using this
  unfold readFaults IStream.openOn
  rw [loop_line (word_no_line hw') hws]
  unfold readTokens
  dsimp only
  rw [if_neg (by simpa using hw.1), if_neg (by simp), if_neg (by simp)]
  rfl

/-- The hypotheses are met: a word, a segment. -/
example : Word ['F', 'L', 'T', '1'] ∧ FitsAll ⟨2, 2, 0, 4, 0, 1, .PosX⟩ ∧
    ((['F', 'L', 'T', '1'] : List Char).dropLast).drop 1 = ['L', 'T'] :=
  ⟨by simp [Word, Space], by simp [FitsAll, Fits], rfl⟩

open EclipseFault in
/-- **C139 (names of faces).** The face of a segment may be given by either letter of its direction, with or without quotes. -/
theorem faults_face_names (f : EclipseFault) {L : List (List Char)} (hL : L.length = 7) {a b : Char} {pos neg : Face}
    (h : (a, b, pos, neg) ∈ [('X', 'I', Face.PosX, Face.NegX), ('Y', 'J', Face.PosY, Face.NegY), ('Z', 'K', Face.PosZ, Face.NegZ)])
    {c : Char} (hc : c = a ∨ c = b) :
    (∀ t ∈ [[c], ['\'', c, '\'']], readSegments f (L ++ [t]) = readSegments f (L ++ [showFace pos])) ∧
    ∀ t ∈ [[c, '-'], ['\'', c, '-', '\'']], readSegments f (L ++ [t]) = readSegments f (L ++ [showFace neg]) := by
  have key : ∀ t t' : List Char, unquote t >>= parseFace = unquote t' >>= parseFace →
      readSegments f (L ++ [t]) = readSegments f (L ++ [t']) := by
    intro t t' e
    have r : ∀ (u : List Char) (n : ℕ), n < 7 → rd (L ++ [u]) n = rd L n := by
      intro u n hn
      unfold rd
      rw [List.getElem?_append_left (by omega)]
    have r7 : ∀ u : List Char, rd (L ++ [u]) 7 = .ok u := by
      intro u
      unfold rd
      rw [List.getElem?_append_right (by omega), hL]
      rfl
    have e' : ∀ k : Face → Res EclipseFault, ((unquote t).bind fun u => (parseFace u).bind k) =
        (unquote t').bind fun u => (parseFace u).bind k := by
      intro k
      have := congrArg (fun r => Res.bind r k) e
      simp only [Res.monad_bind_eq] at this
      cases h1 : unquote t <;> cases h2 : unquote t' <;> simp only [h1, h2] at this ⊢ <;> exact this
    unfold readSegments parseCell
    simp only [Res.monad_bind_eq, r, r7, Res.bind_ok, e', show 1 < 7 by decide, show 2 < 7 by decide, show 3 < 7 by decide,
      show 4 < 7 by decide, show 5 < 7 by decide, show 6 < 7 by decide]
  simp only [List.mem_cons, Prod.mk.injEq, List.not_mem_nil, or_false] at h
  constructor <;> intro t ht <;> simp only [List.mem_cons, List.not_mem_nil, or_false] at ht <;>
    rcases h with ⟨rfl, rfl, rfl, rfl⟩ | ⟨rfl, rfl, rfl, rfl⟩ | ⟨rfl, rfl, rfl, rfl⟩ <;> rcases hc with rfl | rfl <;>
    rcases ht with rfl | rfl <;> exact key _ _ (by rfl)

end Verif
