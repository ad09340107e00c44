import Verif.Model.GroupTimes
/-
Vocabulary for the claims about when groups come back to members that failed (C97).
-/
namespace Verif.Spec.GroupTimes
open Verif Verif.GroupTimes

namespace Back
open Verif.GroupTimes.Back

/-- The latest failover was at that time. -/
def LastFailover (s : TSys) (t : Int) : Prop := ∃ later before, s.log = later ++ (t, Note.failover) :: before ∧ ∀ x ∈ later, x.2 ≠ Note.failover

/-- The timer has been told of all failovers. -/
def Settled (s : TSys) : Prop := s.sys.buf = 0 ∧ ∀ i r, ¬ Group.Phase.sending i r ∈ s.sys.queries

/-- The machine is not late: while the timer is to be told of a failover, or the timer is due, no time passes. -/
def Prompt (n : Nat) (ok : Res → Bool) (reset : Int) : TSys → List TEv → Prop
  | _, [] => True
  | s, e :: es => (∀ t, e = .tick t → Settled s ∧ (s.sys.timer = .armed → t ≤ s.deadline)) ∧ ∀ s', tstep n ok reset s e = some s' → Prompt n ok reset s' es

end Back

namespace Random
open Verif.GroupTimes.Random

/-- The machine is not late: no time passes while a goroutine that has slept long enough is to go on. -/
def Prompt (ok : Res → Bool) (reset : Int) : TSys → List TEv → Prop
  | _, [] => True
  | s, e :: es => (∀ t, e = .tick t → ∀ x ∈ s.sleeping, t ≤ x.2) ∧ ∀ s', tstep ok reset s e = some s' → Prompt ok reset s' es

end Random

end Verif.Spec.GroupTimes
