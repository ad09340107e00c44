import Verif.Model.ConnectFd
/-
Vocabulary for the claims about connecting within a time limit (C89).
-/
namespace Verif.Spec.ConnectFd
open Verif.ConnectFd

/-- The connection is being made in the background: the error numbers are EINPROGRESS and EINTR of Linux. -/
def UnderWay (c : Calls) : Prop := c.setNonblock = none ∧ (c.connect = some 115 ∨ c.connect = some 4)

/-- The first poll that is not interrupted returns this, after `k` interruptions. -/
def PollSays (c : Calls) (k : Nat) (p : Poll) : Prop := ∃ rest, c.polls = List.replicate k (.err 4) ++ p :: rest

/-- The kernel has connected the descriptor. -/
def Connected (c : Calls) : Prop :=
  (c.setNonblock = none ∧ c.connect = none) ∨ (UnderWay c ∧ (∃ k, PollSays c k .ready) ∧ c.soError = .ok 0)

end Verif.Spec.ConnectFd
