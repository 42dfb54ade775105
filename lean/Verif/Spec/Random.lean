import Verif.Model.Random

/-!
# Specification of generator use

The calls a user can make on the global generator and on a generator object, and what is replied.
-/

namespace Verif.Spec

/-- A call on a generator. -/
inductive RngCall where
  | unif01
  | unif01Open
  | drawUint32
  | norm01
  | getStartSeed
  | initializeSeed (seed : BitVec 64)
  | initializeTime (time : BitVec 64)

/-- What the caller sees. -/
inductive RngReply where
  | real (x : ℝ)
  | int (n : BitVec 64)
  | error (message : String)
  | done

/-- Turn an exception into a reply: these functions throw before they change anything. -/
def caught {σ : Type} (s : σ) : Res (RngReply × σ) → Res (RngReply × σ)
  | .throws m => .ok (.error m, s)
  | r => r

/-- A call on the global generator. -/
noncomputable def RngCall.onGlobal (b : Dsfmt.Build) (s : Random) : RngCall → Res (RngReply × Random)
  | .unif01 => (Random.unif01 b s).bind fun r => .ok (.real r.1, r.2)
  | .unif01Open => (Random.unif01Open b s).bind fun r => .ok (.real r.1, r.2)
  | .drawUint32 => (Random.drawUint32 b s).bind fun r => .ok (.int r.1, r.2)
  | .norm01 => (Random.norm01 b s).bind fun r => .ok (.real r.1, r.2)
  | .getStartSeed => caught s ((Random.getStartSeed s).bind fun r => .ok (.int r, s))
  | .initializeSeed seed => (Random.initializeSeed seed s).bind fun r => .ok (.done, r)
  | .initializeTime time => (Random.initializeTime b time s).bind fun r => .ok (.done, r)

/-- A call on a generator object. -/
noncomputable def RngCall.onObject (b : Dsfmt.Build) (s : RandomGenerator) :
    RngCall → Res (RngReply × RandomGenerator)
  | .unif01 => (RandomGenerator.unif01 b s).bind fun r => .ok (.real r.1, r.2)
  | .unif01Open => (RandomGenerator.unif01Open b s).bind fun r => .ok (.real r.1, r.2)
  | .drawUint32 => (RandomGenerator.drawUint32 b s).bind fun r => .ok (.int r.1, r.2)
  | .norm01 => (RandomGenerator.norm01 b s).bind fun r => .ok (.real r.1, r.2)
  | .getStartSeed => caught s ((RandomGenerator.getStartSeed s).bind fun r => .ok (.int r, s))
  | .initializeSeed seed => (RandomGenerator.initializeSeed seed s).bind fun r => .ok (.done, r)
  | .initializeTime time => (RandomGenerator.initializeTime b time s).bind fun r => .ok (.done, r)

/-- Calls one after the other, and the replies. -/
def session {σ ι ρ : Type} (step : σ → ι → Res (ρ × σ)) : List ι → σ → Res (List ρ × σ)
  | [], s => .ok ([], s)
  | c :: cs, s => (step s c).bind fun r => (session step cs r.2).bind fun q => .ok (r.1 :: q.1, q.2)

/-- What the caller sees of a session: the replies, or how it failed. -/
def seen {ρ σ : Type} (r : Res (List ρ × σ)) : Res (List ρ) := r.bind fun q => .ok q.1

end Verif.Spec
