import Verif.Model.Loop

/-!
# String functions

Models src/nrlib/iotools/stringtools.cpp lines 102-189 and stringtools.hpp lines 190-215, in the "C"
locale. A string is a list of characters that stand for bytes. A position is an `Option ℕ`, with `none`
for `npos`. Strings are shorter than `npos`. `NRLib::Uppercase` is `uppercase` in Model/Variogram.
-/

namespace Verif

/-- White space of the "C" locale. -/
def isSpaceC (c : Char) : Bool :=
  c = ' ' || c = '\t' || c = '\n' || c = '\r' || c = '\x0c' || c = '\x0b'

/-- `iss >> tmp` for a string `tmp`: skip white space, take characters up to the next white space. It
fails, and leaves `tmp` as it was, if nothing but white space is left. Returns the word and the rest of
the stream. -/
def extractWord (iss : List Char) : Option (List Char × List Char) :=
  let s := iss.dropWhile isSpaceC
  if s = [] then none
  else some (s.takeWhile (fun c => !isSpaceC c), s.dropWhile (fun c => !isSpaceC c))

/-- One round of the loop of `GetTokens`, stringtools.cpp lines 108-110. The state is the stream and the
words found. -/
def getTokensStep (st : List Char × List (List Char)) :
    Res (Option (List (List Char)) × List Char × List (List Char)) :=
  match extractWord st.1 with
  | none => .ok (some st.2, st)
  | some (tmp, iss) => .ok (none, iss, st.2 ++ [tmp])

/-- `GetTokens`, stringtools.cpp lines 102-112. -/
noncomputable def getTokens (s : List Char) : Res (List (List Char)) :=
  (untilLoop getTokensStep (s, [])).bind fun r => .ok r.1

/-- `p + 1` for a position: `npos + 1` wraps to 0. -/
def nextPos : Option ℕ → ℕ
  | none => 0
  | some p => p + 1

/-- `find_first_of` and `find_first_not_of` from a position: the first character at or after `pos` with
a property. -/
def findFrom (p : Char → Bool) (s : List Char) (pos : ℕ) : Option ℕ :=
  ((s.drop pos).findIdx? p).map (· + pos)

/-- The quotation mark. -/
def isQuote (c : Char) : Bool := c = '"'

/-- One round of `while (tmp.substr(tmp.size() - 1, 1) != "\"") iss >> tmp;`, stringtools.cpp lines
135-136. The state is the stream and `tmp`, which is never empty. -/
def skipStep (st : List Char × List Char) : Res (Option Unit × List Char × List Char) :=
  if st.2.getLast? = some '"' then .ok (some (), st)
  else match extractWord st.1 with
    | none => .ok (none, st)
    | some (tmp, iss) => .ok (none, iss, tmp)

/-- The loop of stringtools.cpp lines 135-136. When the stream is at its end the extraction fails, `tmp`
stays, and the loop goes on for ever. Returns the stream. -/
noncomputable def skipToQuote (iss tmp : List Char) : Res (List Char) :=
  (untilLoop skipStep (iss, tmp)).bind fun r => .ok r.2.1

/-- `s.substr(first + 1, second - first - 1)`, stringtools.cpp line 131, in `size_t` arithmetic: a
position `npos` as `first` acts as -1, as `second` as the end of the string. -/
def between (s : List Char) (first second : Option ℕ) : List Char :=
  match second with
  | none => s.drop (nextPos first)
  | some q => (s.drop (nextPos first)).take (q - nextPos first)

/-- `if (char_tmp == tmp) iss >> tmp;`, stringtools.cpp lines 133-134. Returns the stream and `tmp`. -/
def skipLoneQuote (iss tmp : List Char) : List Char × List Char :=
  if tmp.take 1 = tmp then
    match extractWord iss with
    | none => (iss, tmp)
    | some (tmp, iss) => (iss, tmp)
  else (iss, tmp)

/-- One round of the loop of `GetQuotedTokens`, stringtools.cpp lines 122-138. The state is the stream,
`quotation_last_position` and the words found. -/
noncomputable def quotedStep (s : List Char) (st : List Char × Option ℕ × List (List Char)) :
    Res (Option (List (List Char)) × List Char × Option ℕ × List (List Char)) :=
  match extractWord st.1 with
  | none => .ok (some st.2.2, st)
  | some (tmp, iss) =>
    if tmp.take 1 ≠ ['"'] then .ok (none, iss, st.2.1, st.2.2 ++ [tmp])
    else
      let first := findFrom isQuote s (nextPos st.2.1)
      let second := findFrom isQuote s (nextPos first)
      let quotation := between s first second
      let l := skipLoneQuote iss tmp
      (skipToQuote l.1 l.2).bind fun iss => .ok (none, iss, second, st.2.2 ++ [quotation])

/-- `GetQuotedTokens`, stringtools.cpp lines 114-140. -/
noncomputable def getQuotedTokens (s : List Char) : Res (List (List Char)) :=
  (untilLoop (quotedStep s) (s, some 0, [])).bind fun r => .ok r.1

/-- `text.find(out)`: the first position at which `out` occurs. -/
def findSub (out : List Char) : List Char → Option ℕ
  | [] => if out = [] then some 0 else none
  | c :: text => if out.isPrefixOf (c :: text) then some 0 else (findSub out text).map (· + 1)

/-- One round of the loop of `Substitute`, stringtools.cpp lines 149-152: `len` characters are taken out,
which is the length of what comes in. -/
def substituteStep (out inn text : List Char) : Res (Option Unit × List Char) :=
  match findSub out text with
  | none => .ok (some (), text)
  | some pos => .ok (none, text.take pos ++ inn ++ text.drop (pos + inn.length))

/-- `Substitute`, stringtools.cpp lines 142-153. -/
noncomputable def substitute (text out inn : List Char) : Res (List Char) :=
  (untilLoop (substituteStep out inn) text).bind fun r => .ok r.2

/-- `s.erase(pos)`: throws beyond the end. -/
def eraseFrom (s : List Char) (pos : ℕ) : Res (List Char) :=
  if s.length < pos then .throws "out_of_range" else .ok (s.take pos)

/-- `find_last_not_of(" ")`. -/
def findLastNotSpace (s : List Char) : Option ℕ :=
  (s.reverse.findIdx? (fun c => c ≠ ' ')).map fun i => s.length - 1 - i

/-- `Chomp`, stringtools.cpp lines 176-189. `erase(0, npos)` erases all. -/
def chomp (s : List Char) : Res (List Char) := do
  let first := findFrom (fun c => c ≠ ' ') s 0
  let last := findLastNotSpace s
  let out ← eraseFrom s (nextPos last)
  .ok (match first with
    | none => []
    | some n => out.drop n)

/-- White space of `ParseAsciiArrayFast`, stringtools.hpp line 194: no vertical tabulator. -/
def isSpaceFast (c : Char) : Bool :=
  c = ' ' || c = '\n' || c = '\r' || c = '\x0c' || c = '\t'

/-- The C string that begins at `pos`: up to the next NUL or the end. -/
def cString (s : List Char) (pos : ℕ) : List Char := (s.drop pos).takeWhile (· ≠ '\x00')

/-- `if (next_pos != s.npos) s[next_pos] = '\0';`, stringtools.hpp lines 200-202. -/
def putNul (s : List Char) : Option ℕ → List Char
  | none => s
  | some q => s.set q '\x00'

/-- The loop of `ParseAsciiArrayFast`, stringtools.hpp lines 199-208, with `n - i` as its first
argument. Returns the numbers, and whether all were found. `parse` stands for `atoi` or `atof`. -/
def parseFastLoop {α : Type} (parse : List Char → α) :
    ℕ → List Char → Option ℕ → Option ℕ → List α × Bool
  | 0, _, _, _ => ([], true)
  | _ + 1, _, none, _ => ([], false)
  | n + 1, s, some pos, next =>
    let s := putNul s next
    let x := parse (cString s pos)
    let pos := findFrom (fun c => !isSpaceFast c) s (nextPos next)
    let next := findFrom isSpaceFast s (nextPos pos)
    let r := parseFastLoop parse n s pos next
    (x :: r.1, r.2)

/-- `ParseAsciiArrayFast`, stringtools.hpp lines 190-215. -/
def parseAsciiArrayFast {α : Type} (parse : List Char → α) (s : List Char) (n : ℕ) : Res (List α) :=
  let pos := findFrom (fun c => !isSpaceFast c) s 0
  let next := findFrom isSpaceFast s (nextPos pos)
  let r := parseFastLoop parse n s pos next
  if r.2 then .ok r.1 else .throws "Not enough elements parsed from string."

end Verif
