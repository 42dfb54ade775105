import Verif.Model.Dsfmt

/-!
# Threads that draw from one generator

The extension module is declared usable without the interpreter lock (gaussfftinterface.cpp line 167)
and all calls draw from the static generator of `Random` (random.hpp), without a lock. Formally a data
race is undefined behaviour. This file is a more generous model: memory is sequentially consistent,
threads take turns at single accesses of the generator's index and words.

Simplification: the renewal of the state with the reset of the index is a single step (in the code it
is hundreds of accesses, so there are more interleavings than here).
-/

namespace Verif.Threads

open Dsfmt

/-- Where a thread is inside `dsfmt_genrand_close1_open2`, dSFMT.h lines 281-285: before the test of
`idx`, before the read of `idx`, between the read and the write of `idx++`, before the read of the
word. -/
inductive Pc where
  | check
  | load
  | store (i : ℕ)
  | fetch (i : ℕ)

/-- What a call does with the words it draws: `next` takes one more word, `done` says that the call
needs no more. Any of the calls of the package is of this form. -/
structure Client (σ : Type) where
  next : σ → BitVec 64 → σ
  done : σ → Bool

/-- A thread inside a call. -/
structure Thread (σ : Type) where
  pc : Pc
  st : σ

/-- One access by a thread, dSFMT.h lines 281-285. A thread whose call needs no more words does
nothing. -/
def step {σ : Type} (b : Build) (c : Client σ) (t : Thread σ) (d : Dsfmt) : Res (Thread σ × Dsfmt) :=
  match t.pc with
  | .check =>
    if c.done t.st then .ok (t, d)
    else if n64 ≤ d.idx then
      (genRandAll b d).bind fun d => .ok (⟨.load, t.st⟩, { d with idx := 0 })
    else .ok (⟨.load, t.st⟩, d)
  | .load => .ok (⟨.store d.idx, t.st⟩, d)
  | .store i => .ok (⟨.fetch i, t.st⟩, { d with idx := i + 1 })
  | .fetch i => (rd64 d.status i).bind fun w => .ok (⟨.check, c.next t.st w⟩, d)

/-- Threads numbered by natural numbers that share a generator; `sched` says whose turn it is. -/
def run {σ : Type} (b : Build) (c : ℕ → Client σ) :
    List ℕ → (ℕ → Thread σ) → Dsfmt → Res ((ℕ → Thread σ) × Dsfmt)
  | [], ts, d => .ok (ts, d)
  | t :: sched, ts, d =>
    (step b (c t) (ts t) d).bind fun r => run b c sched (Function.update ts t r.1) r.2

/-- Threads that have a generator each (objects of class `RandomGenerator`, randomgenerator.hpp). -/
def runOwn {σ : Type} (b : Build) (c : ℕ → Client σ) :
    List ℕ → (ℕ → Thread σ × Dsfmt) → Res (ℕ → Thread σ × Dsfmt)
  | [], s => .ok s
  | t :: sched, s =>
    (step b (c t) (s t).1 (s t).2).bind fun r => runOwn b c sched (Function.update s t r)

end Verif.Threads
