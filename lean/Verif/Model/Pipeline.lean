import Verif.Model.Dns
/-
pipeline.go: one upstream connection shared by many queries, as a step machine.

The goroutines are: any number of callers in `Resolve`, the manager `start`, one writer and one reader per connection, and one goroutine per
re-queued request. An event is one communication, one locked region, one write or one read; a run is any list of events, i.e. any
interleaving. Requests are numbered in the order of the calls. What the network does (dial, write and read results, with
arbitrary messages) is part of the events, as are the timers. Taking a request out of the in-flight map and completing it are separate
events, since others can run in between. Metrics are in `PipeCounters`, logging is left out.
-/
namespace Verif.Pipeline
open Verif

/-- message.go:24-37 `validateResponseQuestion`; `true` is no error -/
def validateResponseQuestion (q a : Msg) : Bool := match q.question, a.question with
  | [], _ => true
  | _ :: _, [] => false
  | qu :: _, au :: _ => equalFold au.name qu.name && au.qclass == qu.qclass && au.qtype == qu.qtype

/-- Where a caller is inside `Resolve`. pipeline.go:55-80. -/
inductive Phase where
  /-- pipeline.go:62-67: offering the request -/
  | queueing
  /-- pipeline.go:70-76: waiting for the request to be completed -/
  | waiting
  | returned (res : Res)
deriving DecidableEq, Repr

/-- pipeline.go:200-205 `request`. `done` is the content of `a` and `err` once the channel is closed. -/
structure Req where
  q : Msg
  ph : Phase := .queueing
  id : Nat := 0
  done : Option Res := none
deriving DecidableEq, Repr

/-- the manager `start`. pipeline.go:84-196. -/
inductive Manager where
  /-- pipeline.go:87: waiting for a request -/
  | idle
  /-- pipeline.go:90: dialing, with request `r` in hand -/
  | dialing (r : Nat)
  /-- pipeline.go:193: waiting for writer and reader -/
  | connected
deriving DecidableEq, Repr

/-- the writer of the current connection. pipeline.go:98-134. -/
inductive Writer where
  /-- pipeline.go:103: waiting for a request or the end of the reader -/
  | idle
  /-- pipeline.go:113: writing request `r` with ID `id` -/
  | writing (r id : Nat)
  /-- pipeline.go:107, 120: about to complete request `r` with an error, and (`stop`) to end -/
  | failing (r : Nat) (e : Err) (stop : Bool)
  | stopped
deriving DecidableEq, Repr

/-- the reader of the current connection. pipeline.go:137-190. -/
inductive Reader where
  /-- pipeline.go:143: reading -/
  | reading
  /-- pipeline.go:184: about to complete request `r` with message `a` -/
  | completing (r : Nat) (a : Msg)
  | stopped
deriving DecidableEq, Repr

/-- All requests, the in-flight map, the goroutines, the messages written to connections; `panicked` records the close of a closed channel. pipeline.go:24-32, 239-247. -/
structure Sys where
  reqs : List Req := []
  inflight : List (Nat × Nat) := []
  manager : Manager := .idle
  requeued : List Nat := []
  writer : Writer := .stopped
  reader : Reader := .stopped
  written : List Msg := []
  panicked : Bool := false
deriving DecidableEq, Repr

/-- pipeline.go:228-235 `markDone` -/
def Sys.markDone (s : Sys) (r : Nat) (a : Option Msg) (e : Option Err) : Sys := match s.reqs[r]? with
  | none => s
  | some x => match x.done with
    | some _ => { s with panicked := true }
    | none => { s with reqs := s.reqs.set r { x with done := some ⟨a.map fun m => { m with id := x.q.id }, e⟩ } }

/-- pipeline.go:215-225 `waitFor` after the channel is closed -/
def waitFor (q : Msg) (d : Res) : Res := match d.err, d.msg with
  | none, some a => if validateResponseQuestion q a then d else .fail "question mismatch"
  | _, _ => d

/-- pipeline.go:300-307 `drain` -/
def Sys.drain (s : Sys) (e : Err) : Sys :=
  let t := s.inflight.foldl (fun t x => t.markDone x.2 none (some e)) s
  { t with inflight := [] }

/-- A receive from the channel `c.requests`: the sender is the caller itself or the goroutine that re-queues the request. pipeline.go:62-67, 87, 103. -/
def Sys.take (s : Sys) (r : Nat) : Option Sys :=
  if r ∈ s.requeued then some { s with requeued := s.requeued.erase r }
  else match s.reqs[r]? with
    | some x => if x.ph = .queueing then some { s with reqs := s.reqs.set r { x with ph := .waiting } } else none
    | none => none

/-- math.MaxUint16. pipeline.go:255. -/
def maxInFlight : Nat := 65535

/-- The steps of pipeline.go:55-196; the lines are given in `step` -/
inductive Ev where
  /-- a new call of `Resolve` -/
  | call (q : Msg)
  /-- caller `r` times out while offering its request -/
  | queueTimeout (r : Nat)
  /-- the manager receives request `r` and dials -/
  | startTake (r : Nat)
  | dialFail (e : Err)
  | dialOk
  /-- the writer receives request `r`, and `add` picks `id` -/
  | writerTake (r id : Nat)
  /-- the writer receives request `r`, and the in-flight map is full -/
  | writerFull (r : Nat)
  | writeOk
  | writeFail (e : Err)
  /-- the writer completes the request it failed -/
  | writerFailed
  /-- the writer sees that the reader has ended -/
  | writerStop
  /-- the reader reads a message -/
  | recv (a : Msg)
  /-- the reader completes the request -/
  | readerDone
  /-- reading fails without a message -/
  | readerStop
  /-- writer and reader have ended -/
  | drain
  /-- caller `r` times out waiting -/
  | timeout (r : Nat)
  /-- caller `r` sees the request completed -/
  | ret (r : Nat)
deriving DecidableEq, Repr

/-- The error of pipeline.go:76 -/
def errTimeout : Err := "query timed out"
/-- The error of pipeline.go:172 -/
def errClosed : Err := "upstream connection closed with request in flight"
/-- The error of pipeline.go:107 -/
def errFull : Err := "too many queries in flight"

/-- One event; `none` if it cannot happen in this state. pipeline.go:55-313; the lines are given at each case. -/
def step (s : Sys) : Ev → Option Sys
  -- pipeline.go:56
  | .call q => some { s with reqs := s.reqs ++ [{ q := q }] }
  -- pipeline.go:64-66
  | .queueTimeout r => match s.reqs[r]? with
    | some x => if x.ph = .queueing then some { s with reqs := s.reqs.set r { x with ph := .returned (.fail errTimeout) } } else none
    | none => none
  -- pipeline.go:87
  | .startTake r => if s.manager = .idle then (s.take r).map fun s => { s with manager := .dialing r } else none
  -- pipeline.go:91-96
  | .dialFail e => match s.manager with
    | .dialing r => some { s.markDone r none (some e) with manager := .idle }
    | _ => none
  -- pipeline.go:97-136
  | .dialOk => match s.manager with
    | .dialing r => some { s with manager := .connected, requeued := r :: s.requeued, writer := .idle, reader := .reading }
    | _ => none
  -- pipeline.go:104-112, 249-273 `add`
  | .writerTake r id =>
    if s.writer = .idle ∧ s.inflight.length < maxInFlight ∧ id < 65536 ∧ s.inflight.lookup id = none then
      match s.take r with
      | none => none
      | some s => match s.reqs[r]? with
        | none => none
        | some x => some { s with reqs := s.reqs.set r { x with id := id }, inflight := (id, r) :: s.inflight,
                                  writer := .writing r id, written := s.written ++ [{ x.q with id := id }] }
    else none
  -- pipeline.go:106-109, 255-257
  | .writerFull r =>
    if s.writer = .idle ∧ ¬ s.inflight.length < maxInFlight then (s.take r).map fun s => { s with writer := .failing r errFull false }
    else none
  -- pipeline.go:113
  | .writeOk => match s.writer with
    | .writing _ _ => some { s with writer := .idle }
    | _ => none
  -- pipeline.go:113-122, 277-287 `get`
  | .writeFail e => match s.writer with
    | .writing r id => match s.inflight.lookup id with
      | some _ => some { s with inflight := s.inflight.filter (fun x => x.1 ≠ id), writer := .failing r e true }
      | none => some { s with writer := .stopped }
    | _ => none
  -- pipeline.go:107, 120
  | .writerFailed => match s.writer with
    | .failing r e stop => some { s.markDone r none (some e) with writer := if stop then .stopped else .idle }
    | _ => none
  -- pipeline.go:129-132
  | .writerStop => if s.writer = .idle ∧ s.reader = .stopped then some { s with writer := .stopped } else none
  -- pipeline.go:143, 177-182, 277-287 `get`
  | .recv a => match s.reader with
    | .reading => match s.inflight.lookup a.id with
      | some r => some { s with inflight := s.inflight.filter (fun x => x.1 ≠ a.id), reader := .completing r a }
      | none => some s
    | _ => none
  -- pipeline.go:184
  | .readerDone => match s.reader with
    | .completing r a => some { s.markDone r (some a) none with reader := .reading }
    | _ => none
  -- pipeline.go:144-172
  | .readerStop => match s.reader with
    | .reading => some { s with reader := .stopped }
    | _ => none
  -- pipeline.go:193-194
  | .drain =>
    if s.manager = .connected ∧ s.writer = .stopped ∧ s.reader = .stopped then some { s.drain errClosed with manager := .idle } else none
  -- pipeline.go:72-75, 291-297 `delete`
  | .timeout r => match s.reqs[r]? with
    | some x =>
      if x.ph = .waiting then
        some { s with reqs := s.reqs.set r { x with ph := .returned (.fail errTimeout) },
                      inflight := if s.inflight.lookup x.id = some r then s.inflight.filter (fun y => y.1 ≠ x.id) else s.inflight }
      else none
    | none => none
  -- pipeline.go:71, 78
  | .ret r => match s.reqs[r]? with
    | some x => match x.ph, x.done with
      | .waiting, some d => some { s with reqs := s.reqs.set r { x with ph := .returned (waitFor x.q d) } }
      | _, _ => none
    | none => none

/-- pipeline.go:55-313, in any interleaving -/
def run : Sys → List Ev → Option Sys
  | s, [] => some s
  | s, e :: es => match step s e with
    | none => none
    | some s' => run s' es

end Verif.Pipeline
