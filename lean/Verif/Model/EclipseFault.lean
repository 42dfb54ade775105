import Verif.Model.Well
import Verif.Model.TextIO
import Verif.Model.Loop
import Verif.Model.Surface

/-!
# Faults in Eclipse grids

Models src/nrlib/eclipsegrid/eclipsefault.{hpp,cpp}, eclipsefaceindexer.{hpp,cpp}, the faces of
eclipsetools.hpp, and `ReadFaults` and `WriteFaults` of eclipsegrid.cpp. An `assert` is no instruction.
Strings are lists of characters. The sums in the functions about segments stay in the range of `int`.
-/

namespace Verif

/-- `Face`, eclipsetools.hpp lines 33-36. -/
inductive Face where
  | PosX | NegX | PosY | NegY | PosZ | NegZ
deriving DecidableEq

/-- `Direction`, eclipsetools.hpp lines 38-42. -/
inductive Direction where
  | X | Y | Z
deriving DecidableEq

/-- `GetDirection`, eclipsetools.hpp lines 55-70. -/
def Face.direction : Face → Direction
  | .PosX => .X | .NegX => .X
  | .PosY => .Y | .NegY => .Y
  | .PosZ => .Z | .NegZ => .Z

/-- `GetOppositeFace`, eclipsetools.hpp lines 73-96. -/
def Face.opposite : Face → Face
  | .PosX => .NegX | .PosY => .NegY | .PosZ => .NegZ
  | .NegX => .PosX | .NegY => .PosY | .NegZ => .PosZ

/-- `CellFace`, eclipsetools.hpp lines 44-47. -/
structure CellFace where
  i : ℤ
  j : ℤ
  k : ℤ
  face : Face
deriving DecidableEq

/-- `EclipseFault::Segment`, eclipsefault.hpp lines 35-43. -/
structure Segment where
  iFrom : ℤ
  iTo : ℤ
  jFrom : ℤ
  jTo : ℤ
  kFrom : ℤ
  kTo : ℤ
  face : Face
deriving DecidableEq

/-- `EclipseFault`, eclipsefault.hpp lines 30-79. -/
structure EclipseFault where
  name : List Char
  segments : List Segment
deriving DecidableEq

/-- `FaceIndexer`, eclipsefaceindexer.hpp lines 31-44: the segments from the iterator to the end, and
the cell. -/
structure FaceIndexer where
  segs : List Segment
  i : ℤ
  j : ℤ
  k : ℤ

namespace FaceIndexer

/-- At the first cell of a segment. -/
def start (s : Segment) (ss : List Segment) : FaceIndexer := ⟨s :: ss, s.iFrom, s.jFrom, s.kFrom⟩

/-- The constructor, eclipsefaceindexer.cpp lines 30-37. -/
def create (f : EclipseFault) : Res FaceIndexer :=
  match f.segments with
  | [] => .ub "iterator at the end"
  | s :: ss => .ok (start s ss)

/-- `GetFace`, eclipsefaceindexer.cpp lines 39-48. -/
def getFace (it : FaceIndexer) : Res CellFace :=
  match it.segs with
  | [] => .ub "iterator at the end"
  | s :: _ => .ok ⟨it.i, it.j, it.k, s.face⟩

/-- `operator++`, eclipsefaceindexer.cpp lines 50-76. -/
def next (it : FaceIndexer) : Res FaceIndexer :=
  match it.segs with
  | [] => .ok it
  | s :: ss =>
    if it.i = s.iTo then
      if it.j = s.jTo then
        if it.k = s.kTo then
          match ss with
          | [] => .ok { it with segs := [] }
          | s' :: ss' => .ok (start s' ss')
        else do
          let k ← succInt32 it.k
          .ok ⟨it.segs, s.iFrom, s.jFrom, k⟩
      else do
        let j ← succInt32 it.j
        .ok ⟨it.segs, s.iFrom, j, it.k⟩
    else do
      let i ← succInt32 it.i
      .ok ⟨it.segs, i, it.j, it.k⟩

/-- `IsFinished`, eclipsefaceindexer.cpp lines 78-84. -/
def isFinished (it : FaceIndexer) : Bool := it.segs.isEmpty

/-- A round of `for (; !it.IsFinished(); ++it)`, which keeps the faces. -/
def visitStep (st : FaceIndexer × List CellFace) :
    Res (Option (List CellFace) × FaceIndexer × List CellFace) :=
  if st.1.isFinished then .ok (some st.2, st)
  else do
    let f ← st.1.getFace
    let it ← st.1.next
    .ok (none, it, st.2 ++ [f])

/-- The faces a client sees that goes through a fault. -/
noncomputable def visit (f : EclipseFault) : Res (List CellFace) := do
  let it ← create f
  let r ← untilLoop visitStep (it, [])
  .ok r.1

end FaceIndexer

namespace Segment

/-- `GetSegmentLowerCoord`, eclipsefault.cpp lines 122-143. -/
def lower (s : Segment) : ℤ × ℤ :=
  match s.face with
  | .PosX => (s.iFrom + 1, s.jFrom)
  | .PosY => (s.iFrom, s.jFrom + 1)
  | _ => (s.iFrom, s.jFrom)

/-- `GetSegmentUpperCoord`, eclipsefault.cpp lines 146-167. -/
def upper (s : Segment) : ℤ × ℤ :=
  match s.face with
  | .NegX => (s.iTo, s.jTo + 1)
  | .NegY => (s.iTo + 1, s.jTo)
  | _ => (s.iTo + 1, s.jTo + 1)

/-- `IncreaseSegmentLength`, eclipsefault.cpp lines 170-186. -/
def increase (s : Segment) (n : ℤ) : Segment :=
  match s.face.direction with
  | .X => { s with jFrom := s.jFrom - n, jTo := s.jTo + n }
  | .Y => { s with iFrom := s.iFrom - n, iTo := s.iTo + n }
  | .Z => s

/-- The coordinates that `SegmentsCross` sets, eclipsefault.cpp lines 221-227 and 235-241. -/
def crossAt (s t : Segment) : ℤ × ℤ :=
  if s.face = .PosX ∨ s.face = .NegX then (s.lower.1, t.lower.2) else (t.lower.1, s.lower.2)

/-- `SegmentsCross`, eclipsefault.cpp lines 189-248; `none` is `false`. -/
def cross (s t : Segment) : Option (ℤ × ℤ) :=
  if s.face.direction = t.face.direction then none
  else if s.lower.1 ≤ t.lower.1 ∧ s.upper.1 ≥ t.upper.1 then
    if t.lower.2 ≤ s.lower.2 ∧ t.upper.2 ≥ s.upper.2 then some (crossAt s t) else none
  else if s.lower.2 ≤ t.lower.2 ∧ s.upper.2 ≥ t.upper.2 then
    if t.lower.1 ≤ s.lower.1 ∧ t.upper.1 ≥ s.upper.1 then some (crossAt s t) else none
  else none

end Segment

namespace EclipseFault

/-- `IsStairStepped`, eclipsefault.cpp lines 42-48. -/
def isStairStepped (f : EclipseFault) : Bool :=
  f.segments.any fun s => s.face = .PosZ || s.face = .NegZ

/-- `ParseType<int>(token) - 1`, eclipsefault.cpp lines 54-59. -/
def parseCell (tokens : List (List Char)) (n : ℕ) : Res ℤ := do
  let t ← rd tokens n
  let v ← parseType scanInt t
  if v = -2 ^ 31 then .ub "signed overflow" else .ok (v - 1)

/-- The quotes off the face, eclipsefault.cpp lines 61-66. The character before the end of an empty
string is not in it. -/
def unquote (s : List Char) : Res (List Char) :=
  if s = [] then .ub "read out of range"
  else
    let s := if s.getLast? = some '\'' then s.dropLast else s
    .ok (if s.head? = some '\'' then s.drop 1 else s)

/-- The face, eclipsefault.cpp lines 68-87. -/
def parseFace (s : List Char) : Res Face :=
  if s = ['X'] ∨ s = ['I'] then .ok .PosX
  else if s = ['Y'] ∨ s = ['J'] then .ok .PosY
  else if s = ['Z'] ∨ s = ['K'] then .ok .PosZ
  else if s = ['X', '-'] ∨ s = ['I', '-'] then .ok .NegX
  else if s = ['Y', '-'] ∨ s = ['J', '-'] then .ok .NegY
  else if s = ['Z', '-'] ∨ s = ['K', '-'] then .ok .NegZ
  else .throws "face description not understood"

/-- `ReadSegments`, eclipsefault.cpp lines 51-89. -/
def readSegments (f : EclipseFault) (tokens : List (List Char)) : Res EclipseFault := do
  let iFrom ← parseCell tokens 1
  let iTo ← parseCell tokens 2
  let jFrom ← parseCell tokens 3
  let jTo ← parseCell tokens 4
  let kFrom ← parseCell tokens 5
  let kTo ← parseCell tokens 6
  let t ← rd tokens 7
  let t ← unquote t
  let face ← parseFace t
  .ok { f with segments := f.segments ++ [⟨iFrom, iTo, jFrom, jTo, kFrom, kTo, face⟩] }

/-- `stream << std::setw(w) << s`. -/
def setw (w : ℕ) (s : List Char) : List Char := List.replicate (w - s.length) ' ' ++ s

/-- The name of a face in a file, eclipsefault.cpp lines 101-118. -/
def showFace : Face → List Char
  | .PosX => ['\'', 'X', '\''] | .NegX => ['\'', 'X', '-', '\'']
  | .PosY => ['\'', 'Y', '\''] | .NegY => ['\'', 'Y', '-', '\'']
  | .PosZ => ['\'', 'Z', '\''] | .NegZ => ['\'', 'Z', '-', '\'']

/-- The line of a segment, eclipsefault.cpp lines 97-118. -/
def showSegment (name : List Char) (s : Segment) : List Char :=
  '\'' :: name ++ ['\'']
    ++ setw 18 (showInt (s.iFrom + 1)) ++ setw 8 (showInt (s.iTo + 1))
    ++ setw 10 (showInt (s.jFrom + 1)) ++ setw 8 (showInt (s.jTo + 1))
    ++ setw 10 (showInt (s.kFrom + 1)) ++ setw 8 (showInt (s.kTo + 1))
    ++ setw 8 (showFace s.face) ++ setw 5 ['/', '\n']

/-- `WriteFault`, eclipsefault.cpp lines 92-120. -/
def write (f : EclipseFault) (name : List Char) : List Char := f.segments.flatMap (showSegment name)

/-- `WriteFaults`, eclipsegrid.cpp lines 564-580, without the keyword. -/
def writeFaults (m : LogMap EclipseFault) : List Char :=
  if m = [] then []
  else ['\n'] ++ ['-', '-', ' ', 'N', 'A', 'M', 'E']
    ++ setw 15 ['I', 'X', '1'] ++ setw 8 ['I', 'X', '2'] ++ setw 10 ['I', 'Y', '1'] ++ setw 8 ['I', 'Y', '2']
    ++ setw 10 ['I', 'Z', '1'] ++ setw 8 ['I', 'Z', '2'] ++ setw 10 ['F', 'A', 'C', 'E', '\n', '\n']
    ++ m.flatMap (fun p => p.2.write p.1)
    ++ ['\n', ' ', ' ', '/', '\n', '\n']

/-- `faults_[name]`, which makes an empty fault if there is none. -/
def lookup (m : LogMap EclipseFault) (name : List Char) : EclipseFault :=
  (m.find name).getD ⟨[], []⟩

/-- A line with the given words, eclipsegrid.cpp lines 157-175; `none` is the end of the loop. -/
def readTokens (m : LogMap EclipseFault) (tokens : List (List Char)) : Res (Option (LogMap EclipseFault)) :=
  match tokens with
  | [] => .ok (some m)
  | t :: ts =>
    if t = ['-', '-'] then .ok (some m)
    else if t = ['/'] then .ok none
    else if (t :: ts).length = 9 then do
      let name := (t.dropLast).drop 1
      let f ← readSegments { lookup m name with name := name } (name :: ts)
      .ok (some (m.set name f))
    else .throws "Not a segment"

/-- A round of the loop of `ReadFaults`, eclipsegrid.cpp lines 154-176. -/
noncomputable def readStep (st : IStream × LogMap EclipseFault) :
    Res (Option Unit × IStream × LogMap EclipseFault) := do
  let (line, s) := st.1.getline
  let tokens ← getTokens line
  let r ← readTokens st.2 tokens
  match r with
  | none => .ok (some (), s, st.2)
  | some m => .ok (none, s, m)

/-- `ReadFaults`, eclipsegrid.cpp lines 148-177. -/
noncomputable def readFaults (s : IStream) (m : LogMap EclipseFault) : Res (IStream × LogMap EclipseFault) := do
  let r ← untilLoop readStep (s, m)
  .ok r.2

end EclipseFault
end Verif
