import Verif.Model.Strings
import Verif.Model.Ieee

/-!
# Text files

Models src/nrlib/iotools/fileio.cpp lines 207-326 and 419-445, fileio.hpp lines 458-530, stringtools.hpp
lines 152-164, and the parts of the C++ input and output of numbers that they use, in the "C" locale. A
stream is the list of the characters not yet read, with its two error flags; it has no other failures.
Line numbers, which are used in messages only, are left out. Doubles are real numbers: a number is read
without rounding, and reading does not overflow.
-/

namespace Verif

/-- An input stream. -/
structure IStream where
  rest : List Char
  eof : Bool
  fail : Bool
deriving DecidableEq

namespace IStream

/-- A stream just opened. -/
def openOn (file : List Char) : IStream := ⟨file, false, false⟩

/-- `stream.good()`. -/
def good (s : IStream) : Bool := !s.eof && !s.fail

/-- `stream.get(c)`: the character, if the call succeeds. -/
def get (s : IStream) : Option Char × IStream :=
  if s.good then
    match s.rest with
    | [] => (none, ⟨[], true, true⟩)
    | c :: t => (some c, { s with rest := t })
  else (none, { s with fail := true })

/-- `std::getline(stream, line)`: the line is emptied if the stream is not good. -/
def getline (s : IStream) : List Char × IStream :=
  if s.good then
    let line := s.rest.takeWhile (· ≠ '\n')
    match s.rest.dropWhile (· ≠ '\n') with
    | _ :: t => (line, { s with rest := t })
    | [] => (line, ⟨[], true, line.isEmpty⟩)
  else ([], { s with fail := true })

/-- `stream >> word` for a string; `none` if it fails. -/
def word (s : IStream) : Option (List Char) × IStream :=
  if s.good then
    match extractWord s.rest with
    | none => (none, ⟨[], true, true⟩)
    | some (w, t) => (some w, ⟨t, t.isEmpty, false⟩)
  else (none, { s with fail := true })

end IStream

/-- The digits of a number of the base 10. -/
def isDigitC (c : Char) : Bool := '0' ≤ c && c ≤ '9'

/-- The number that digits stand for. -/
def digitsValue (ds : List Char) : ℕ := ds.foldl (fun a c => 10 * a + (c.toNat - 48)) 0

/-- An optional sign: whether it is negative, and what follows. -/
def scanSign : List Char → Bool × List Char
  | '-' :: t => (true, t)
  | '+' :: t => (false, t)
  | l => (false, l)

/-- The exponent part of a number, if any: the power of 10, and what follows. `none` if the letter is not
followed by digits. -/
def scanExponent (l : List Char) : Option ℤ × List Char :=
  if l.head? = some 'e' ∨ l.head? = some 'E' then
    let r := scanSign l.tail
    let ds := r.2.takeWhile isDigitC
    let rest := r.2.dropWhile isDigitC
    if ds = [] then (none, rest)
    else (some (if r.1 then -(digitsValue ds : ℤ) else digitsValue ds), rest)
  else (some 0, l)

/-- The characters that the extraction of a double reads, after white space, and its value; `none` if they
are no number. -/
noncomputable def scanDouble (l : List Char) : Option ℝ × List Char :=
  let r := scanSign l
  let ip := r.2.takeWhile isDigitC
  let l2 := r.2.dropWhile isDigitC
  let fp := if l2.head? = some '.' then l2.tail.takeWhile isDigitC else []
  let l3 := if l2.head? = some '.' then l2.tail.dropWhile isDigitC else l2
  if ip = [] ∧ fp = [] then (none, l3)
  else
    let e := scanExponent l3
    match e.1 with
    | none => (none, e.2)
    | some k =>
      let v : ℝ := digitsValue (ip ++ fp) * (10 : ℝ) ^ (k - fp.length)
      (some (if r.1 then -v else v), e.2)

/-- The same for an `int`; a number outside the range of `int` fails. -/
def scanInt (l : List Char) : Option ℤ × List Char :=
  let r := scanSign l
  let ds := r.2.takeWhile isDigitC
  let rest := r.2.dropWhile isDigitC
  if ds = [] then (none, rest)
  else
    let v : ℤ := if r.1 then -(digitsValue ds : ℤ) else digitsValue ds
    if -2 ^ 31 ≤ v ∧ v < 2 ^ 31 then (some v, rest) else (none, rest)

/-- `stream >> x` for a number: white space is skipped, then `scan` reads. `none` if it fails. -/
def IStream.extract {T : Type} (scan : List Char → Option T × List Char) (s : IStream) :
    Option T × IStream :=
  if s.good then
    match s.rest.dropWhile isSpaceC with
    | [] => (none, ⟨[], true, true⟩)
    | l =>
      let r := scan l
      match r.1 with
      | none => (none, ⟨r.2, r.2.isEmpty, true⟩)
      | some v => (some v, ⟨r.2, r.2.isEmpty, false⟩)
  else (none, { s with fail := true })

/-- `ParseType`, stringtools.hpp lines 152-164. -/
def parseType {T : Type} (scan : List Char → Option T × List Char) (s : List Char) : Res T :=
  match (IStream.openOn s).extract scan with
  | (none, _) => .throws "Failed to convert"
  | (some x, i) => if i.get.1 ≠ none then .throws "Could not convert whole" else .ok x

/-- `ReadNextToken`, fileio.cpp lines 207-231, with an empty string. The two loops over characters are
`dropWhile` and `takeWhile`; the character put back is the white space after the token. -/
def readNextToken (s : IStream) : List Char × IStream :=
  if s.good then
    match s.rest.dropWhile isSpaceC with
    | [] => ([], ⟨[], true, true⟩)
    | c :: t =>
      match t.dropWhile (fun c => !isSpaceC c) with
      | [] => (c :: t.takeWhile (fun c => !isSpaceC c), ⟨[], true, true⟩)
      | l => (c :: t.takeWhile (fun c => !isSpaceC c), { s with rest := l })
  else ([], { s with fail := true })

/-- `ReadNext<std::string>`, fileio.hpp lines 460-468. -/
def readNextString (s : IStream) : Res (List Char × IStream) :=
  let r := readNextToken s
  if r.1 = [] then .throws "EndOfFile" else .ok r

/-- `ReadNext<T>`, fileio.hpp lines 471-479. -/
def readNext {T : Type} (scan : List Char → Option T × List Char) (s : IStream) : Res (T × IStream) :=
  let r := readNextToken s
  if r.1 = [] then .throws "EndOfFile"
  else do
    let x ← parseType scan r.1
    .ok (x, r.2)

/-- `DiscardRestOfLine`, fileio.cpp lines 233-248. -/
def discardRestOfLine (s : IStream) (throwIfNonWhitespace : Bool) : Res IStream :=
  let r := s.getline
  if throwIfNonWhitespace && !r.1.all isSpaceC then .throws "Non-whitespace characters encountered."
  else .ok r.2

/-- The first loop of `ReadNextQuoted`, fileio.cpp lines 424-433, on a good stream: what follows the opening
quotation mark; `none` if there is none. At the end of the stream `get` leaves the character as it was,
and `eof` ends the loop. -/
def quotedOpen (quote : Char) : List Char → Option (List Char)
  | [] => none
  | c :: t => if c = quote then some t else quotedOpen quote t

/-- The second loop of `ReadNextQuoted`, fileio.cpp lines 435-444: the character is appended before the next
one is looked at. The state is `c`, `s` and the stream. -/
def quotedClose (quote : Char) (c : Char) (s : List Char) : List Char → List Char × IStream
  | [] => (s ++ [c], ⟨[], true, true⟩)
  | d :: t => if d = quote then (s ++ [c], ⟨t, false, false⟩) else quotedClose quote d (s ++ [c]) t

/-- `ReadNextQuoted`, fileio.cpp lines 419-448. If the stream has failed without being at its end, the first
loop never ends. -/
def readNextQuoted (quote : Char) (s : IStream) : Res (List Char × IStream) :=
  if s.eof then .throws "EndOfFile"
  else if s.fail then .diverges
  else
    match quotedOpen quote s.rest with
    | none => .throws "EndOfFile"
    | some [] => .throws "EndOfFile"
    | some (c :: t) => .ok (quotedClose quote c [] t)

/-- The loop of `SkipComments`, fileio.cpp lines 294-310, on a good stream. With `inLine`, the rest of a comment
is read, and `got` says whether it had a character so far. Without, white space is skipped, and `got` says
whether `c` has a value: a round in which no character can be read compares one without. After white
space at the end of the stream, `unget` clears the end-of-file flag and fails. -/
def skipCommentsLoop (sym : Char) : (inLine got : Bool) → List Char → Res IStream
  | true, got, [] => .ok ⟨[], true, !got⟩
  | true, _, c :: t =>
    if c = '\n' then skipCommentsLoop sym false false t else skipCommentsLoop sym true true t
  | false, got, [] => if got = true then .ok ⟨[], false, true⟩ else .ub "read of an uninitialised character"
  | false, _, c :: t =>
    if isSpaceC c = true then skipCommentsLoop sym false true t
    else if c = sym then skipCommentsLoop sym true false t
    else .ok ⟨c :: t, false, false⟩

/-- `SkipComments`, fileio.cpp lines 285-311, for a comment symbol that is no white space. -/
def skipComments (sym : Char) (s : IStream) : Res IStream :=
  if s.good then skipCommentsLoop sym false false s.rest else .ok s

/-- `CheckEndOfFile`, fileio.cpp lines 314-326. If the stream has failed before without being at its end,
a character without a value is put back. -/
def checkEndOfFile (s : IStream) : Res (Bool × IStream) :=
  if s.eof then .ok (true, { s with fail := true })
  else if s.fail then .ub "read of an uninitialised character"
  else
    match s.rest.dropWhile isSpaceC with
    | [] => .ok (true, ⟨[], true, true⟩)
    | l => .ok (false, { s with rest := l })

/-- `ReadAsciiArray`, fileio.hpp lines 500-510: the numbers read. -/
def readAsciiArray {T : Type} (scan : List Char → Option T × List Char) (s : IStream) (n : ℕ) :
    Res (List T × IStream) :=
  forRange 0 n (fun _ (st : List T × IStream) => do
    let r ← readNext scan st.2
    .ok (st.1 ++ [r.1], r.2)) ([], s)

/-- One round of the loop of `ReadAsciiArrayFast`, fileio.hpp lines 517-529. The state is the numbers read
and the stream. -/
def readFastStep {T : Type} (scan : List Char → Option T × List Char) (st : List T × IStream) :
    Res (List T × IStream) :=
  let r := st.2.extract scan
  if r.2.eof then .throws "EndOfFile"
  else
    match r.1 with
    | none => .throws "Failure during reading element"
    | some x => .ok (st.1 ++ [x], r.2)

/-- `ReadAsciiArrayFast`, fileio.hpp lines 513-531: the numbers read. -/
def readAsciiArrayFast {T : Type} (scan : List Char → Option T × List Char) (s : IStream) (n : ℕ) :
    Res (List T × IStream) :=
  forRange 0 n (fun _ st => readFastStep scan st) ([], s)

/-! ## Output of numbers -/

/-- A digit. -/
def digitC (d : ℕ) : Char := Char.ofNat (48 + d % 10)

/-- The digits of a natural number, without leading zeros. -/
def natDigits (n : ℕ) : List Char :=
  if n < 10 then [digitC n] else natDigits (n / 10) ++ [digitC n]
decreasing_by omega

/-- The last `p` digits of a natural number. -/
def padDigits : ℕ → ℕ → List Char
  | 0, _ => []
  | p + 1, m => padDigits p (m / 10) ++ [digitC m]

/-- `stream << i` for an integer. -/
def showInt (i : ℤ) : List Char :=
  if i < 0 then '-' :: natDigits i.natAbs else natDigits i.natAbs

/-- `stream << std::fixed << std::setprecision(p) << v`: the number rounded to `p` decimals, halves to even.
There is no negative zero. -/
noncomputable def showFixed (p : ℕ) (v : ℝ) : List Char :=
  let m := (Ieee.rne (|v| * 10 ^ p)).toNat
  (if v < 0 then ['-'] else []) ++ natDigits (m / 10 ^ p)
    ++ (if p = 0 then [] else '.' :: padDigits p m)

/-- The loop of `WriteAsciiArray`, fileio.hpp lines 490-496, from `count` on; `shw` writes a number. -/
def writeAsciiLoop {T : Type} (shw : T → List Char) (perLine : ℕ) : ℕ → List T → List Char
  | _, [] => []
  | count, v :: vs => shw v ++ [' '] ++ (if count % perLine = 0 then ['\n'] else [])
      ++ writeAsciiLoop shw perLine (count + 1) vs

/-- `WriteAsciiArray`, fileio.hpp lines 484-497: what is written. The remainder by 0 is undefined. The array
has fewer than 2^31 elements, and the number of elements per line is not negative. -/
def writeAsciiArray {T : Type} (shw : T → List Char) (perLine : ℕ) (vs : List T) : Res (List Char) :=
  if perLine = 0 ∧ vs ≠ [] then .ub "division by zero" else .ok (writeAsciiLoop shw perLine 1 vs)

end Verif
