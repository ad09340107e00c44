import Verif.Model.Listeners
/-
doqclient.go:275-394: the QUIC connection shared by the queries of a DNS-over-QUIC client, with any number of queries at the same time.

The steps are those between which other goroutines or the network can act: taking the lock, dialling, waiting for the handshake, opening a stream, closing the
connection, writing. The connection itself (quic-go) is one of three states; it leaves the state `early` by itself when the handshake completes, and any connection may die.
Address resolution and logging are left out; failing to resolve the address is failing before the lock.
-/
namespace Verif.DoqConn
open Verif Verif.Listeners

/-- State of a QUIC connection. quic-go; used in doqclient.go:275-394. -/
inductive Conn where
  /-- dialled with `DialEarly`, handshake not complete: what is written goes out as 0-RTT data -/
  | early
  /-- `HandshakeComplete` is closed -/
  | complete
  /-- its context is done -/
  | dead
deriving DecidableEq, Repr

/-- Where a query is in `getStream` (doqclient.go:315-357) and `Resolve` (doqclient.go:202-213). -/
inductive PC where
  | start
  /-- has the lock, doqclient.go:325 -/
  | locked
  /-- doqclient.go:336 -/
  | await1
  /-- doqclient.go:339 -/
  | open1
  /-- doqclient.go:379 -/
  | restart
  /-- doqclient.go:385 -/
  | redial
  /-- doqclient.go:348 -/
  | await2
  /-- doqclient.go:349 -/
  | open2
  /-- has a stream of the connection with this number; doqclient.go:210 -/
  | stream (c : Nat)
  | written (c : Nat)
  | failed
deriving DecidableEq, Repr

/-- A call of doqclient.go:315-364 `getStream` -/
structure Query where
  opcode : Nat
  pc : PC := .start
deriving DecidableEq, Repr

/-- The fields of doqclient.go:275-284, and all calls in progress -/
structure Sys where
  /-- `dialFunc` is `DialEarly` (doqclient.go:295-298) -/
  use0RTT : Bool
  /-- all connections ever dialled -/
  conns : List Conn := []
  /-- `s.Conn` -/
  cur : Option Nat := none
  /-- `s.mu` -/
  lock : Option Nat := none
  queries : List Query := []
  /-- what was written: the query, the connection, and the state it was in -/
  log : List (Nat × Nat × Conn) := []
deriving DecidableEq, Repr

/-- The steps of doqclient.go:275-394 and of the network; the lines are given at the cases -/
inductive Ev where
  /-- a new query -/
  | call (opcode : Nat)
  | lock (i : Nat)
  /-- there is a connection -/
  | haveConn (i : Nat)
  /-- dialling gives a connection in the given state -/
  | dialOk (i : Nat) (st : Conn)
  | dialFail (i : Nat)
  /-- `awaitReplaySafe` returns -/
  | awaited (i : Nat)
  | openOk (i : Nat)
  | openFail (i : Nat)
  /-- `CloseWithError` -/
  | close (i : Nat)
  | write (i : Nat)
  | writeFail (i : Nat)
  /-- the handshake of a connection completes -/
  | complete (c : Nat)
  /-- a connection dies -/
  | die (c : Nat)
deriving DecidableEq, Repr

/-- Query `i` goes on at `pc`. doqclient.go:275-394. -/
def Sys.goto (s : Sys) (i : Nat) (q : Query) (pc : PC) : Sys := { s with queries := s.queries.set i { q with pc := pc } }

/-- The state of the connection in use. doqclient.go:315-364. -/
def Sys.curState (s : Sys) : Option Conn := s.cur.bind fun c => s.conns[c]?

/-- doqclient.go:366-374 `awaitReplaySafe`: whether it returns -/
def awaitReplaySafe (replaySafe : Bool) (st : Option Conn) : Bool := replaySafe || st = some .complete || st = some .dead

/-- doqclient.go:295-298: `Dial` returns after the handshake, `DialEarly` possibly before -/
def dialAllowed (use0RTT : Bool) (st : Conn) : Bool := use0RTT || st ≠ .early

/-- One step; `none` if it is not possible. doqclient.go:275-394. -/
def step (s : Sys) : Ev → Option Sys
  | .call op => some { s with queries := s.queries ++ [{ opcode := op }] }
  | .lock i => match s.queries[i]? with
    | some q => if q.pc = .start ∧ s.lock = none then some { s.goto i q .locked with lock := some i } else none
    | none => none
  | .haveConn i => match s.queries[i]? with
    | some q => if q.pc = .locked ∧ s.cur ≠ none then some (s.goto i q .await1) else none
    | none => none
  | .dialOk i st => match s.queries[i]? with
    | some q =>
      if ¬ dialAllowed s.use0RTT st then none
      else if q.pc = .locked ∧ s.cur = none then some { s.goto i q .await1 with conns := s.conns ++ [st], cur := some s.conns.length }
      else if q.pc = .redial then some { s.goto i q .await2 with conns := s.conns ++ [st], cur := some s.conns.length }
      else none
    | none => none
  | .dialFail i => match s.queries[i]? with
    | some q => if (q.pc = .locked ∧ s.cur = none) ∨ q.pc = .redial then some { s.goto i q .failed with lock := none } else none
    | none => none
  | .awaited i => match s.queries[i]? with
    | some q =>
      if ¬ awaitReplaySafe (isReplayableOpcode q.opcode) s.curState then none
      else if q.pc = .await1 then some (s.goto i q .open1)
      else if q.pc = .await2 then some (s.goto i q .open2)
      else none
    | none => none
  | .openOk i => match s.queries[i]?, s.cur with
    | some q, some c => if (q.pc = .open1 ∨ q.pc = .open2) ∧ s.conns[c]? ≠ some .dead then some { s.goto i q (.stream c) with lock := none } else none
    | _, _ => none
  | .openFail i => match s.queries[i]? with
    | some q =>
      if q.pc = .open1 then some (s.goto i q .restart)
      else if q.pc = .open2 then some { s.goto i q .failed with lock := none }
      else none
    | none => none
  | .close i => match s.queries[i]?, s.cur with
    | some q, some c => if q.pc = .restart then some { s.goto i q .redial with conns := s.conns.set c .dead } else none
    | _, _ => none
  | .write i => match s.queries[i]? with
    | some q => match q.pc with
      | .stream c => match s.conns[c]? with
        | some st => if st ≠ .dead then some { s.goto i q (.written c) with log := (i, c, st) :: s.log } else none
        | none => none
      | _ => none
    | none => none
  | .writeFail i => match s.queries[i]? with
    | some q => match q.pc with
      | .stream _ => some (s.goto i q .failed)
      | _ => none
    | none => none
  | .complete c => if s.conns[c]? = some .early then some { s with conns := s.conns.set c .complete } else none
  | .die c => if c < s.conns.length then some { s with conns := s.conns.set c .dead } else none

/-- All steps of a history, the last one first. doqclient.go:275-394, in any interleaving. -/
def run (use0RTT : Bool) : List Ev → Option Sys
  | [] => some { use0RTT := use0RTT }
  | e :: evs => match run use0RTT evs with
    | some s => step s e
    | none => none

end Verif.DoqConn
