import Verif.Model.DoqConn
/-
doqclient.go:144-394 with a clock: how long the calls of a DNS-over-QUIC client take.
-/
namespace Verif.DoqTimed
open Verif Verif.Listeners Verif.DoqConn

/-- The client of Verif/Model/DoqConn.lean with a clock, and what is needed to talk about calls: when each was made, how often the lock was taken in all and up to then, and which calls are over.
doqclient.go:144-260, 275-284. -/
structure TSys where
  sys : Sys
  now : Nat := 0
  /-- since when the call that has the lock is where it is -/
  since : Nat := 0
  arrival : List Nat := []
  won : Nat := 0
  wonBefore : List Nat := []
  over : List Nat := []

/-- The call that has the lock makes a step. doqclient.go:315-357. -/
def inSection : Ev → Bool
  | .lock _ | .haveConn _ | .dialOk _ _ | .dialFail _ | .awaited _ | .openOk _ | .openFail _ | .close _ => true
  | _ => false

/-- A call at this point waits for the network: it dials (doqclient.go:328, 385), or waits for the handshake (doqclient.go:336, 348, 366-374). -/
def waitsForNetwork (s : Sys) (q : Query) : Bool := match q.pc with
  | .locked => s.cur = none
  | .redial => true
  | .await1 | .await2 => ¬ awaitReplaySafe (isReplayableOpcode q.opcode) s.curState
  | _ => false

/-- A call that has its stream, with which it writes and reads. doqclient.go:208-260. -/
def hasStream (q : Query) : Bool := match q.pc with
  | .stream _ | .written _ => true
  | _ => false

/-- Time can pass: nobody is waiting for a lock that is free, the call that has the lock waits for the network, which takes up to `D` for a handshake (`HandshakeIdleTimeout`, doqclient.go:102), and no call
with a stream is past its deadline, `T` after its beginning (doqclient.go:174, 209, 219). -/
def MayPass (D T : Nat) (t : TSys) : Prop :=
  (t.sys.lock = none → ∀ q, q ∈ t.sys.queries → q.pc ≠ .start) ∧
  (∀ (i : Nat) (q : Query), t.sys.lock = some i → t.sys.queries[i]? = some q → waitsForNetwork t.sys q = true ∧ t.now < t.since + D) ∧
  (∀ (i a : Nat) (q : Query), t.sys.queries[i]? = some q → hasStream q = true → i ∉ t.over → t.arrival[i]? = some a → t.now < a + T)

/-- What can happen: a step of Verif/Model/DoqConn.lean, the end of a call that has a stream, one way or the other (doqclient.go:210-260), and the passing of time. Simplified: what the program does itself takes no
time; resolving the name of the server is left out. -/
inductive TStep (D T : Nat) : TSys → TSys → Prop where
  /-- doqclient.go:144 -/
  | call (t : TSys) (op : Nat) (s' : Sys) : step t.sys (.call op) = some s' →
    TStep D T t { t with sys := s', arrival := t.arrival ++ [t.now], wonBefore := t.wonBefore ++ [t.won] }
  /-- doqclient.go:321 -/
  | lock (t : TSys) (i : Nat) (s' : Sys) : step t.sys (.lock i) = some s' → TStep D T t { t with sys := s', since := t.now, won := t.won + 1 }
  | act (t : TSys) (e : Ev) (s' : Sys) : (∀ op, e ≠ .call op) → (∀ i, e ≠ .lock i) → step t.sys e = some s' →
    TStep D T t { t with sys := s', since := if inSection e then t.now else t.since }
  | finish (t : TSys) (i : Nat) (q : Query) : t.sys.queries[i]? = some q → hasStream q = true → TStep D T t { t with over := i :: t.over }
  | pass (t : TSys) : MayPass D T t → TStep D T t { t with now := t.now + 1 }

/-- What can be reached from a new client. doqclient.go:60-142. -/
inductive Reach (D T : Nat) (use0RTT : Bool) : TSys → Prop where
  | new : Reach D T use0RTT { sys := { use0RTT := use0RTT } }
  | step (t t' : TSys) : Reach D T use0RTT t → TStep D T t t' → Reach D T use0RTT t'

end Verif.DoqTimed
