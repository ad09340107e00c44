import Verif.Model.Net
/-
request-dedup.go: request de-duplication, as a step machine.

An event is one locked region, the return of an upstream call, or the wake-up of a waiting caller; a run is any list of events, i.e. any
interleaving of any number of callers. Callers are numbered in the order in which they take the lock. The `inflightRequest` a
caller creates is kept with that caller. What the upstream replies is part of the event. Messages are values, so `Copy` is the identity.
-/
namespace Verif.Dedup
open Verif Verif.Net

/-- `binary.BigEndian.Uint32`/`Uint64` and longer: big-endian number. request-dedup.go:145-160. -/
def beNat (b : Str) : Nat := b.foldl (fun n x => n * 256 + x.toNat) 0

/-- request-dedup.go:154-159 `byteToUint32` -/
def byteToUint32 (b : Str) : Nat := if b.length ≠ 4 then 0 else beNat b

/-- request-dedup.go:145-152 `byteToUint128` -/
def byteToUint128 (b : Str) : Nat × Nat := if b.length ≠ 16 then (0, 0) else (beNat (b.take 8), beNat (b.drop 8))

/-- request-dedup.go:11-21 -/
structure Key where
  name : Str
  qtype : Nat
  qclass : Nat
  dnssecOk : Bool
  cd : Bool
  ecs4 : Nat
  ecs6hi : Nat
  ecs6lo : Nat
  mask : Nat
deriving DecidableEq, Repr

/-- request-dedup.go:62-77: the loop over the options stops at the first subnet option. -/
def ecsFields : List EOpt → Nat × Nat × Nat × Nat
  | [] => (0, 0, 0, 0)
  | .ecs family mask _ addr :: _ =>
    if family = 1 then (byteToUint32 ((to4 addr).getD []), 0, 0, mask)
    else if family = 2 then
      let w := byteToUint128 ((to16 addr).getD [])
      (0, w.1, w.2, mask)
    else (0, 0, 0, 0)
  | _ :: os => ecsFields os

/-- request-dedup.go:52-89: the key of a query; `none` is the index panic on an empty question section. -/
def key (q : Msg) : Option Key := match q.question with
  | [] => none
  | qu :: _ =>
    let f := match q.edns? with
      | none => (0, 0, 0, 0)
      | some e => ecsFields e.options
    let dnssecOk := match q.edns? with
      | none => false
      | some e => e.dnssecOk
    some { name := lower qu.name, qtype := qu.qtype, qclass := qu.qclass, dnssecOk := dnssecOk, cd := q.cd,
           ecs4 := f.1, ecs6hi := f.2.1, ecs6lo := f.2.2.1, mask := f.2.2.2 }

/-- Where a caller is inside `Resolve`. request-dedup.go:51-139. -/
inductive Phase where
  /-- request-dedup.go:120: waiting for the upstream -/
  | calling
  /-- request-dedup.go:123-126: result published, not yet removed from the map -/
  | closing
  /-- request-dedup.go:106: waiting for the request of caller `l` -/
  | waiting (l : Nat)
  | returned (res : Res)
deriving DecidableEq, Repr

/-- One call of `Resolve`. `answer` is the content of the `inflightRequest` it created, once `done` is closed. request-dedup.go:23-32, 51-139. -/
structure Caller where
  q : Msg
  ph : Phase
  answer : Option Res := none
deriving DecidableEq, Repr

/-- The table of request-dedup.go:34-41 and all calls of `Resolve` -/
structure Sys where
  inflight : List (Key × Nat) := []
  callers : List Caller := []
deriving DecidableEq, Repr

/-- The steps of request-dedup.go:51-139; the lines are given at the cases -/
inductive Ev where
  /-- a new caller takes the lock -/
  | arrive (q : Msg)
  /-- the upstream call made by caller `c` returns -/
  | reply (c : Nat) (r : Res)
  /-- caller `c` removes its request from the map and returns -/
  | finish (c : Nat)
  /-- waiting caller `c` sees its channel closed and returns -/
  | wake (c : Nat)
deriving DecidableEq, Repr

/-- request-dedup.go:110-115 and 132-138: the result handed to a caller -/
def restore (q : Msg) (r : Res) : Res := match r.msg with
  | some a => ⟨some { a with id := q.id, question := q.question }, r.err⟩
  | none => r

/-- The local variables of one call of request-dedup.go:51-139 change -/
def Sys.setCaller (s : Sys) (c : Nat) (x : Caller) : Sys := { s with callers := s.callers.set c x }

/-- One event; `none` if it cannot happen in this state (or the query has no question, on which the code panics). request-dedup.go:51-139. -/
def step (s : Sys) : Ev → Option Sys
  | .arrive q => match key q with
    | none => none
    | some k => match s.inflight.lookup k with
      | some l => some { s with callers := s.callers ++ [{ q := q, ph := .waiting l }] }
      | none => some { inflight := (k, s.callers.length) :: s.inflight, callers := s.callers ++ [{ q := q, ph := .calling }] }
  | .reply c r => match s.callers[c]? with
    | some x => if x.ph = .calling then some (s.setCaller c { x with ph := .closing, answer := some r }) else none
    | none => none
  | .finish c => match s.callers[c]? with
    | some x => match x.ph, key x.q, x.answer with
      | .closing, some k, some r =>
        some { inflight := s.inflight.filter (fun e => e.1 ≠ k),
               callers := s.callers.set c { x with ph := .returned (restore x.q r) } }
      | _, _, _ => none
    | none => none
  | .wake c => match s.callers[c]? with
    | some x => match x.ph with
      | .waiting l => match (s.callers[l]?).bind (·.answer) with
        | some r => some (s.setCaller c { x with ph := .returned (restore x.q r) })
        | none => none
      | _ => none
    | none => none

/-- Any interleaving of calls of request-dedup.go:51-139 -/
def run : Sys → List Ev → Option Sys
  | s, [] => some s
  | s, e :: es => match step s e with
    | none => none
    | some s' => run s' es

end Verif.Dedup
