import Verif.Model.Dns
/-
resolver.go, failrotate.go, failback.go, roundrobin.go, random.go: resolver groups.

Concurrency is modelled by step machines: an event is one locked region, one call of a member or one timer action; a
run is any list of events, i.e. any interleaving of any number of queries. Members are indices; what a
member replies is part of the event, so members may behave in any way at all.
-/
namespace Verif.Group
open Verif

/-- resolver.go:39-48: the reply carries an EDE option with a code for deliberate blocking (15 blocked,
16 censored, 17 filtered). -/
def deliberatelyEmpty (a : Msg) : Bool := match a.edns? with
  | none => false
  | some e => e.options.any fun o => match o with
    | .ede c _ => c = 15 || c = 16 || c = 17
    | _ => false

/-- resolver.go:19-55 `isSuccessResponse` -/
def isSuccessResponse (a : Option Msg) (servfailError emptyError : Bool) : Bool :=
  match a with
  | none => true
  | some a =>
    if (a.rcode = rcodeServerFailure ∧ servfailError) ∨ a.rcode = rcodeRefused ∨ a.rcode = rcodeNotImplemented then false
    else if ¬ emptyError then true
    else match a.answer, a.question with
      | r :: rs, qu :: _ =>
        if (r :: rs).any (fun x => x.rtype = qu.qtype) then true
        else if qu.qtype = typeANY then ! (rs.isEmpty && r.rtype = typeHINFO)
        else false
      | _, _ => deliberatelyEmpty a

/-- `err == nil && r.isSuccessResponse(a)`. failrotate.go:50-71, failback.go:78-99, random.go:50-70. -/
def succeeded (servfailError emptyError : Bool) (r : Res) : Bool :=
  r.err.isNone && isSuccessResponse r.msg servfailError emptyError

/-! ### Fail-rotate -/

/-- failrotate.go:50-71 `FailRotate.Resolve` with nothing else running: attempts left, active index, result so far. `beh` is
what each member replies to this query. Also returns the members asked, in order. -/
def failRotateLoop (n : Nat) (ok : Res → Bool) (beh : Nat → Res) : Nat → Nat → Res → Res × Nat × List Nat
  | 0, active, last => (last, active, [])
  | left + 1, active, _ =>
    let r := beh active
    if ok r then (r, active, [active])
    else
      let (res, act, asked) := failRotateLoop n ok beh left ((active + 1) % n) r
      (res, act, active :: asked)

/-- failrotate.go:50-71; with no members the loop does not run and the result is `nil, nil`. -/
def failRotate (n : Nat) (ok : Res → Bool) (beh : Nat → Res) (active : Nat) : Res × Nat × List Nat :=
  failRotateLoop n ok beh n active Res.drop

/-- Where a query is inside `Resolve`. failrotate.go:50-71. -/
inductive Phase where
  /-- about to start attempt number `i`, with the result of the previous one -/
  | idle (i : Nat) (last : Res)
  /-- attempt `i`: member `m` was active (`current`) and is being asked -/
  | calling (i m : Nat)
  /-- attempt `i`: member `m` failed with `r`, not yet reported (`errorFrom`) -/
  | failed (i m : Nat) (r : Res)
  /-- fail-back only: failure of attempt `i` reported, signal to the timer not yet sent -/
  | sending (i : Nat) (r : Res)
  | done (r : Res)
deriving DecidableEq, Repr

/-- `for i := 0; i < len(r.resolvers); i++`: on to the next attempt, or out of the loop. failrotate.go:57, failback.go:85. -/
def nextAttempt (n i : Nat) (r : Res) : Phase := if i + 1 < n then .idle (i + 1) r else .done r

namespace Rotate

/-- The field `active` of failrotate.go:16-24, and all calls of `Resolve` -/
structure Sys where
  active : Nat
  queries : List Phase
deriving DecidableEq, Repr

/-- The steps of failrotate.go:50-97; the lines are given at the cases -/
inductive Ev where
  /-- a new query arrives -/
  | start
  /-- query `k` runs `current` -/
  | current (k : Nat)
  /-- the member asked by query `k` replies -/
  | reply (k : Nat) (r : Res)
  /-- query `k` runs `errorFrom` -/
  | report (k : Nat)

/-- failrotate.go: one step; `none` if the event cannot happen in this state. `current` 78-82, `reply` 61-65,
`errorFrom` 88-97. -/
def step (n : Nat) (ok : Res → Bool) (s : Sys) : Ev → Option Sys
  | .start => some { s with queries := s.queries ++ [if 0 < n then .idle 0 Res.drop else .done Res.drop] }
  | .current k => match s.queries[k]? with
    | some (.idle i _) => some { s with queries := s.queries.set k (.calling i s.active) }
    | _ => none
  | .reply k r => match s.queries[k]? with
    | some (.calling i m) => some { s with queries := s.queries.set k (if ok r then .done r else .failed i m r) }
    | _ => none
  | .report k => match s.queries[k]? with
    | some (.failed i m r) =>
      some { active := if m = s.active then (s.active + 1) % n else s.active
             queries := s.queries.set k (nextAttempt n i r) }
    | _ => none

/-- failrotate.go:50-97, in any interleaving -/
def run (n : Nat) (ok : Res → Bool) : Sys → List Ev → Option Sys
  | s, [] => some s
  | s, e :: es => do run n ok (← step n ok s e) es

end Rotate

/-! ### Fail-back -/
namespace Back

/-- The goroutine of `startResetTimer` (failback.go:149-174). -/
inductive Timer where
  /-- not started: `failCh` is nil -/
  | off
  /-- in the `select`, timer running -/
  | armed
  /-- just switched back, waiting for a failure (:167) -/
  | parked
deriving DecidableEq, Repr

/-- The fields of failback.go:20-29, and all calls of `Resolve` -/
structure Sys where
  active : Nat
  timer : Timer
  /-- number of signals in `failCh`, whose capacity is 1 -/
  buf : Nat
  queries : List Phase
deriving DecidableEq, Repr

/-- The steps of failback.go:78-172; the lines are given at the cases -/
inductive Ev where
  | start
  | current (k : Nat)
  | reply (k : Nat) (r : Res)
  | report (k : Nat)
  /-- query `k` sends its signal (blocks while the channel is full) -/
  | send (k : Nat)
  /-- the timer goroutine receives a signal, stops and restarts the timer (:155-158, :169; or :167, :169) -/
  | recv
  /-- the timer expires and the goroutine switches back (:159-166) -/
  | fire

/-- failback.go with a reset time above zero: one step. `current` 106-115, `errorFrom` 121-145,
`startResetTimer` 149-174. Receiving from `failCh` and `timer.Stop` plus draining is one step: afterwards the timer is stopped
and its channel empty. -/
def step (n : Nat) (ok : Res → Bool) (s : Sys) : Ev → Option Sys
  | .start => some { s with queries := s.queries ++ [if 0 < n then .idle 0 Res.drop else .done Res.drop] }
  | .current k => match s.queries[k]? with
    | some (.idle i _) => some { s with queries := s.queries.set k (.calling i s.active) }
    | _ => none
  | .reply k r => match s.queries[k]? with
    | some (.calling i m) => some { s with queries := s.queries.set k (if ok r then .done r else .failed i m r) }
    | _ => none
  | .report k => match s.queries[k]? with
    | some (.failed i m r) =>
      if m ≠ s.active then some { s with queries := s.queries.set k (nextAttempt n i r) }
      else some { s with
        timer := if s.timer = .off then .armed else s.timer
        active := (s.active + 1) % n
        queries := s.queries.set k (.sending i r) }
    | _ => none
  | .send k => match s.queries[k]? with
    | some (.sending i r) =>
      if s.buf < 1 then some { s with buf := s.buf + 1, queries := s.queries.set k (nextAttempt n i r) } else none
    | _ => none
  | .recv => if s.timer ≠ .off ∧ 0 < s.buf then some { s with buf := s.buf - 1, timer := .armed } else none
  | .fire => if s.timer = .armed then some { s with active := 0, timer := .parked } else none

/-- failback.go:78-172, in any interleaving -/
def run (n : Nat) (ok : Res → Bool) : Sys → List Ev → Option Sys
  | s, [] => some s
  | s, e :: es => do run n ok (← step n ok s e) es

/-- failback.go:71-73: as created. -/
def init : Sys := ⟨0, .off, 0, []⟩

/-- failback.go:78-99 with a reset time of zero (:109-111, :124-126): attempt `i` asks member `i`. -/
def perQuery (n : Nat) (ok : Res → Bool) (beh : Nat → Res) : Nat → Nat → Res → Res × List Nat
  | 0, _, last => (last, [])
  | left + 1, i, _ =>
    let r := beh i
    if ok r then (r, [i])
    else
      let (res, asked) := perQuery n ok beh left (i + 1) r
      (res, i :: asked)

end Back

/-! ### Round-robin -/

/-- roundrobin.go:32-35: the locked region of one query: member asked and next position. -/
def roundRobinPick (n current : Nat) : Nat × Nat := (current, (current + 1) % n)

/-- The members asked by the next `k` queries, in the order in which they take the lock. roundrobin.go:31-45. -/
def roundRobinPicks (n : Nat) : Nat → Nat → List Nat
  | 0, _ => []
  | k + 1, current =>
    let (m, c) := roundRobinPick n current
    m :: roundRobinPicks n k c

/-! ### Random -/
namespace Random

/-- Where a query is in random.go:50-70 -/
inductive Phase where
  | idle
  | calling (m : Nat)
  | failed (m : Nat)
  /-- `some r`: returned a member's reply; `none`: "no active resolvers left" -/
  | done (r : Option Res)
deriving DecidableEq, Repr

/-- The fields of random.go:15-24, and all calls of `Resolve` -/
structure Sys where
  /-- `r.resolvers`: the active members -/
  active : List Nat
  /-- members some `reactivateLater` goroutine is sleeping for -/
  waiting : List Nat
  queries : List Phase
deriving DecidableEq, Repr

/-- The steps of random.go:50-120 -/
inductive Ev where
  | start
  /-- `pick`, with the index drawn by `rand.Intn` -/
  | pick (k draw : Nat)
  | reply (k : Nat) (r : Res)
  | deactivate (k : Nat)
  /-- one of the sleeping goroutines for member `m` wakes up -/
  | reactivate (m : Nat)

/-- random.go: one step. `pick` 77-87, `reply` 60-63, `deactivate` 91-107, `reactivateLater` 110-120. -/
def step (ok : Res → Bool) (s : Sys) : Ev → Option Sys
  | .start => some { s with queries := s.queries ++ [.idle] }
  | .pick k draw => match s.queries[k]? with
    | some .idle =>
      if s.active = [] then some { s with queries := s.queries.set k (.done none) }
      else match s.active[draw]? with
        | some m => some { s with queries := s.queries.set k (.calling m) }
        | none => none
    | _ => none
  | .reply k r => match s.queries[k]? with
    | some (.calling m) => some { s with queries := s.queries.set k (if ok r then .done (some r) else .failed m) }
    | _ => none
  | .deactivate k => match s.queries[k]? with
    | some (.failed m) => some {
        active := s.active.filter (fun x => ¬ x = m)
        waiting := s.active.filter (fun x => x = m) ++ s.waiting
        queries := s.queries.set k .idle }
    | _ => none
  | .reactivate m =>
    if m ∈ s.waiting then some { s with active := s.active ++ [m], waiting := s.waiting.erase m } else none

/-- random.go:50-120, in any interleaving -/
def run (ok : Res → Bool) : Sys → List Ev → Option Sys
  | s, [] => some s
  | s, e :: es => do run ok (← step ok s e) es

end Random
end Verif.Group
