import Verif.Model.Threads
import Verif.Spec.Dsfmt

/-! # What a call that gets given words does -/

namespace Verif.Spec.Mt

open Threads

/-- The state of a call that was offered the words, one after the other. -/
def fed {σ : Type} (c : Client σ) : σ → List (BitVec 64) → σ
  | s, [] => s
  | s, w :: ws => if c.done s then s else fed c (c.next s w) ws

/-- How many of the words offered the call takes. -/
def taken {σ : Type} (c : Client σ) : σ → List (BitVec 64) → ℕ
  | _, [] => 0
  | s, w :: ws => if c.done s then 0 else taken c (c.next s w) ws + 1

/-- Words `p`, ..., `p+n-1` of a sequence. -/
def section_ (X : ℕ → W128) (p n : ℕ) : List (BitVec 64) := (List.range n).map fun i => word X (p + i)

/-- The call that draws `n` words and keeps them. -/
def collect (n : ℕ) : Client (List (BitVec 64)) where
  next l w := l ++ [w]
  done l := decide (n ≤ l.length)

/-- A call that always needs more words. -/
def endless : Client (List (BitVec 64)) where
  next l w := l ++ [w]
  done _ := false

/-- `n` turns of one thread with a generator of its own. -/
def alone {σ : Type} (b : Dsfmt.Build) (c : Client σ) :
    ℕ → Thread σ × Dsfmt → Res (Thread σ × Dsfmt)
  | 0, x => .ok x
  | n + 1, x => (step b c x.1 x.2).bind (alone b c n)

end Verif.Spec.Mt
