import Verif.Model.Outcome
import Mathlib.Data.Int.Notation
import Mathlib.Data.Nat.Notation

/-!
# The log

Models src/nrlib/iotools/logkit.cpp and logstream.cpp. Levels are natural numbers, the sets of levels in their bits. A stream has the text
written to it; files and the progress on the screen are left out. A stream is known by a number in place of its address.
-/

namespace Verif

namespace LogKit

/-- `LogStream`, logstream.hpp lines 34-60, with what was written. -/
structure Stream where
  id : ℕ
  levels : List ℕ
  full : ℕ
  log : List (List Char)
deriving DecidableEq

/-- The constructor with one level, logstream.cpp lines 31-33. -/
def Stream.single (id level : ℕ) : Stream := ⟨id, [], level, []⟩

/-- The constructor with a level for each phase, logstream.cpp lines 36-44. -/
def Stream.phased (id : ℕ) (levels : List ℕ) (ignoreGeneral : Bool) : Stream :=
  levels.foldl (fun s l => ⟨s.id, s.levels ++ [l], if ignoreGeneral then s.full else s.full ||| l, s.log⟩) ⟨id, [], 0, []⟩

/-- `ShouldLog` without a phase, logstream.hpp line 53. -/
def Stream.should (s : Stream) (level : ℕ) : Bool := s.full &&& level ≠ 0

/-- `ShouldLog` with a phase, logstream.cpp lines 50-61. -/
def Stream.shouldPhase (s : Stream) (level : ℕ) (phase : ℤ) : Res Bool :=
  if phase < s.levels.length then
    if phase < 0 then .ub "read out of range"
    else do
      let l ← rd s.levels phase.toNat
      .ok (if level &&& l > 0 then true else false)
  else if level &&& s.full > 0 then .ok true
  else .ok false

/-- `LogMessage` of a stream without a phase, logstream.cpp lines 90-95 and 129-138. -/
def Stream.put (s : Stream) (level : ℕ) (text : List Char) : Stream :=
  if s.should level then { s with log := s.log ++ [text] } else s

/-- `LogMessage` of a stream with a phase, logstream.cpp lines 98-103 and 141-150. -/
def Stream.putPhase (s : Stream) (level : ℕ) (phase : ℤ) (text : List Char) : Res Stream := do
  let b ← s.shouldPhase level phase
  .ok (if b then { s with log := s.log ++ [text] } else s)

/-- `BufferMessage`, logkit.hpp lines 125-129. -/
structure Msg where
  text : List Char
  phase : ℤ
  level : ℕ

/-- The static members of `LogKit`, logkit.cpp lines 31-37. -/
structure Kit where
  streams : List Stream
  screen : ℤ
  buffer : Option (List Msg)
  counts : List ℕ
  pre : List (List Char)

/-- The first values of the static members, logkit.cpp lines 31-37. -/
def Kit.init : Kit := ⟨[], -1, none, List.replicate 65 0, List.replicate 65 []⟩

/-- The loop of `DumpBuffer`, logkit.cpp lines 241-246. -/
def dump : List Msg → Stream → Res Stream
  | [], s => .ok s
  | m :: l, s =>
    if m.phase < 0 then dump l (s.put m.level m.text)
    else do
      let s' ← s.putPhase m.level m.phase m.text
      dump l s'

/-- `DumpBuffer`, logkit.cpp lines 238-248. -/
def Kit.dump (k : Kit) (s : Stream) : Res Stream :=
  match k.buffer with
  | none => .ok s
  | some l => LogKit.dump l s

/-- `AddLogStream`, logkit.cpp lines 117-121, and the last lines of the functions `SetFileLog`. -/
def Kit.add (k : Kit) (s : Stream) : Res Kit := do
  let s' ← k.dump s
  .ok { k with streams := k.streams ++ [s'] }

/-- The stream of the first `SetFileLog`, logkit.cpp lines 40-55; `SetScreenLog` has the same. -/
def fileStream (id levels : ℕ) (includeNRLib : Bool) : Stream :=
  if includeNRLib then .single id levels else .phased id [0, levels] false

/-- The stream of the third `SetFileLog`, logkit.cpp lines 69-75. -/
def phaseStream (id levels : ℕ) (phase : ℤ) (ignoreGeneral : Bool) : Res Stream :=
  if phase < 0 then .ub "write out of range"
  else do
    let l ← wr (List.replicate 1000 0) phase.toNat levels
    .ok (.phased id l ignoreGeneral)

/-- `SetScreenLog`, logkit.cpp lines 78-114, with the stream made. -/
def Kit.setScreen (k : Kit) (s : Stream) : Res Kit :=
  if k.screen < 0 then .ok { k with screen := k.streams.length, streams := k.streams ++ [s] }
  else do
    let l ← wr k.streams k.screen.toNat s
    .ok { k with streams := l }

/-- `RemoveLogStream`, logkit.cpp lines 124-134. -/
def Kit.remove (k : Kit) (id : ℕ) : Kit :=
  let i := k.streams.findIdx (fun s => s.id == id)
  if i < k.streams.length then
    { k with screen := if (i : ℤ) < k.screen then k.screen - 1 else k.screen, streams := k.streams.eraseIdx i }
  else k

/-- `SendToBuffer`, logkit.cpp lines 226-235. -/
def Kit.send (k : Kit) (m : Msg) : Kit := { k with buffer := k.buffer.map (· ++ [m]) }

/-- The loop over the streams in `LogMessage`, logkit.cpp lines 152-153. -/
def putEach (level : ℕ) (phase : ℤ) (text : List Char) : List Stream → Res (List Stream)
  | [] => .ok []
  | s :: l => do
    let s' ← s.putPhase level phase text
    let l' ← putEach level phase text l
    .ok (s' :: l')

/-- `LogMessage` without a phase, logkit.cpp lines 137-144. -/
def Kit.log (k : Kit) (level : ℕ) (text : List Char) : Res Kit := do
  let n ← rd k.counts level
  let c ← wr k.counts level (n + 1)
  let p ← rd k.pre level
  .ok ({ k with counts := c, streams := k.streams.map (fun s : Stream => s.put level (p ++ text)) }.send ⟨p ++ text, -1, level⟩)

/-- `LogMessage` with a phase, logkit.cpp lines 147-155. -/
def Kit.logPhase (k : Kit) (level : ℕ) (phase : ℤ) (text : List Char) : Res Kit := do
  let n ← rd k.counts level
  let c ← wr k.counts level (n + 1)
  let p ← rd k.pre level
  let l ← putEach level phase (p ++ text) k.streams
  .ok ({ k with counts := c, streams := l }.send ⟨p ++ text, phase, level⟩)

/-- `LogFormatted` with and without a phase, logkit.cpp lines 158-177, of the text after formatting: it is written in an array with a zero
at its end. -/
def Kit.logFormatted (k : Kit) (level : ℕ) (phase : Option ℤ) (text : List Char) : Res Kit :=
  match phase with
  | none => if text.length + 1 ≤ 5000 then k.log level text else .ub "write out of range"
  | some p => if text.length + 1 ≤ 1000 then k.logPhase level p text else .ub "write out of range"

/-- `StartBuffering`, logkit.cpp lines 202-204. -/
def Kit.startBuffering (k : Kit) : Kit := { k with buffer := some [] }

/-- `EndBuffering`, logkit.cpp lines 207-217. -/
def Kit.endBuffering (k : Kit) : Kit := { k with buffer := none }

/-- `EndLog`, logkit.cpp lines 187-199. -/
def Kit.endLog (k : Kit) : Kit := ({ k with streams := [], screen := -1 }).endBuffering

/-- The middle line of `WriteHeader`, logkit.cpp lines 257-271, without the line feed. -/
def centre (text : List Char) : List Char :=
  let stars := List.replicate 5 '*'
  let blank := max 0 ((100 : ℤ) - text.length - 2 * 5)
  let blanks := List.replicate (blank / 2).toNat ' '
  if blank % 2 ≠ 0 then stars ++ blanks ++ text ++ blanks ++ [' '] ++ stars else stars ++ blanks ++ text ++ blanks ++ stars

end LogKit

end Verif
