import Verif.Model.NetnsWatch
/-
C59 in words.
-/
namespace Verif.Spec.NetnsWatch
open Verif.NetnsWatch

/-- A state of the program that has started with any file system -/
def Reachable (s : Sys) : Prop := ∃ b g es, run { there := b, gen := g } es = some s

/-- Nothing is under way: no event is waiting, no timer is running, the supervisor waits for events, and its instance, if there is one, serves. -/
def Settled (s : Sys) : Prop := s.sub = .yes ∧ s.queue = [] ∧ s.chan = [] ∧ s.mode = .idle ∧ s.retry = false ∧ ∀ i, s.cur = some i → ∃ g, s.inst i = .serving g

/-- An instance that may have sockets open -/
def Live (s : Sys) (i : Nat) : Prop := s.inst i = .starting ∨ ∃ g, s.inst i = .serving g

/-- Steps of the outside world -/
def Outside : Ev → Prop
  | .create => True
  | .delete => True
  | _ => False

/-- Steps that go well while the outside world leaves the namespace alone: what is started starts, no instance ends by itself, and the (long) retry timer fires
only when no event is waiting. -/
def Smooth (s : Sys) : Ev → Prop
  | .create => False
  | .delete => False
  | .ask => False
  | .register => False
  | .exit _ => False
  | .launch ok => ok = true
  | .timer ok => ok = true ∧ s.queue = [] ∧ s.chan = []
  | .bind _ ok => ok = true
  | _ => True

/-- An execution of such steps -/
inductive SmoothRun : Sys → Nat → Sys → Prop where
  | nil (s : Sys) : SmoothRun s 0 s
  | cons {s s' s'' : Sys} {e : Ev} {n : Nat} : Smooth s e → step s e = some s' → SmoothRun s' n s'' → SmoothRun s (n + 1) s''

/-- The watcher loses an event here: it reads one that is newer than the subscriber's look at the file system before the subscriber is known, or one that is news while the
subscriber's channel is full. -/
def Loses (s : Sys) : Prop := (∃ st, s.sub = .asked st 0) ∨ (s.sub = .yes ∧ 16 ≤ s.chan.length ∧ ∃ e q, s.queue = e :: q ∧ s.last ≠ some e)

def isStop : Ev → Bool
  | .stop _ => true
  | _ => false

end Verif.Spec.NetnsWatch
