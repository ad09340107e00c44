import Verif.Model.Group
/-
loadbalance.go, fastest.go and fastest-tcp.go.

Simplifications: float64 arithmetic is modelled by exact rationals (`Rat`); BalanceFloat.lean has it with rounding. The EMA state of a member is changed only inside
`r.mu.Lock` regions, one event each; the failure streak counter lives outside that lock, so whether a failure is penalised is
computed from a streak that is an arbitrary input here.
-/
namespace Verif.Balance
open Verif Verif.Group

/-- loadbalance.go:51-62 `loadBalanceStats`, without the streak counter; averages in microseconds. -/
structure Stats where
  rttEMA : Rat := 0
  count : Nat := 0
  emaInflated : Bool := false
deriving DecidableEq, Repr

/-- loadbalance.go:17 `defaultLoadBalanceInitialRTT` (100 ms) in microseconds -/
abbrev initialRTT : Rat := 100000
/-- loadbalance.go:33 `defaultLoadBalanceMinimumWeightRTT` (1 ms) in microseconds -/
abbrev minWeightRTT : Rat := 1000
/-- loadbalance.go:19 `defaultLoadBalanceEMAAlpha` -/
abbrev alpha : Rat := 1 / 10
/-- loadbalance.go:28 `defaultLoadBalanceExploration` -/
abbrev exploration : Rat := 1 / 20
/-- loadbalance.go:22 `loadBalancePenaltyThreshold` -/
abbrev penaltyThreshold : Nat := 2

/-- loadbalance.go:215-218 and :253-256: at least the minimum sample of 1 µs, then whole microseconds. `d` in nanoseconds. -/
def sample (d : Int) : Rat := ((((if d < 1000 then 1000 else d) / 1000 : Int)) : Rat)

/-- loadbalance.go:214-238 `updateOnSuccess`, the locked region -/
def updateOnSuccess (s : Stats) (d : Int) : Stats :=
  { rttEMA := if s.count = 0 ∨ s.emaInflated then sample d else alpha * sample d + (1 - alpha) * s.rttEMA
    emaInflated := false
    count := s.count + 1 }

/-- loadbalance.go:248: is the penalty applied? `fails` is the streak including this failure. -/
def penalize (penalty : Int) (fails : Nat) : Bool := penalty > 0 && fails ≥ penaltyThreshold

/-- loadbalance.go:246-281 `updateOnFailure`, the locked region -/
def updateOnFailure (penalty : Int) (fails : Nat) (s : Stats) (elapsed : Int) : Stats :=
  let us := sample (if penalize penalty fails then penalty else elapsed)
  if s.count = 0 then { rttEMA := max us initialRTT, emaInflated := true, count := 1 }
  else
    let new := alpha * us + (1 - alpha) * s.rttEMA
    if penalize penalty fails ∨ new > s.rttEMA then { rttEMA := new, emaInflated := true, count := s.count + 1 }
    else { s with count := s.count + 1 }

/-- loadbalance.go:191-197: the weight of a member -/
def weight (s : Stats) : Rat :=
  if s.count > 0 ∧ s.rttEMA > 0 then initialRTT / max s.rttEMA minWeightRTT else 1

/-- loadbalance.go:203-210: walk along the weights; `n` is `len(remaining)`, `i` the position reached. -/
def walk (n : Nat) : Nat → Rat → List Rat → Nat
  | _, _, [] => n - 1
  | i, selected, w :: ws => if selected - w ≤ 0 then i else walk n (i + 1) (selected - w) ws

/-- loadbalance.go:172-211 `pick`: `u` and `v` are the two draws of `randFloat`, `ws` the weights of the remaining members. -/
def pick (u v : Rat) (ws : List Rat) : Nat :=
  if u < exploration then (v * (ws.length : Rat)).floor.toNat
  else walk ws.length 0 (v * ws.foldl (· + ·) 0) ws

/-- loadbalance.go:155-156: drop position `pos` by moving the last element there. -/
def swapRemove (l : List Nat) (pos : Nat) : List Nat := match l.getLast? with
  | none => []
  | some x => (l.set pos x).dropLast

/-- loadbalance.go:122-161: the loop, and what happens after it (:158-160, fuel 0); `choose` is the position picked in each round (any function of the round), `beh` what a
member replies. `none`: index out of range. Also returns the members asked, in order. Fuel: the length of `remaining`. -/
def loop (ok : Res → Bool) (beh : Nat → Res) (choose : Nat → Nat) : Nat → Nat → List Nat → Res → Option (Res × List Nat)
  | 0, _, _, last => some (if last = Res.drop then Res.fail "no active resolvers left" else last, [])
  | fuel + 1, round, remaining, _ =>
    match remaining[choose round]? with
    | none => none
    | some idx =>
      let r := beh idx
      if ok r then some (r, [idx])
      else match loop ok beh choose fuel (round + 1) (swapRemove remaining (choose round)) r with
        | none => none
        | some (res, asked) => some (res, idx :: asked)

/-- loadbalance.go:105-162 `LoadBalance.Resolve`. -/
def resolve (n : Nat) (ok : Res → Bool) (beh : Nat → Res) (choose : Nat → Nat) : Option (Res × List Nat) :=
  loop ok beh choose n 0 (List.range n) Res.drop

/-! ### Fastest -/

/-- fastest.go:53 -/
def fastestGood (r : Res) : Bool := r.err.isNone && (match r.msg with | none => true | some a => a.rcode ≠ rcodeServerFailure)

/-- fastest.go:50-65: the receive loop of `Fastest.Resolve`. `arrivals` are the responses in the order in which they come out of the channel, so
far; `i` counts the bad ones. `none`: still waiting. -/
def fastest (n : Nat) : Nat → List Res → Option Res
  | _, [] => none
  | i, r :: rs => if fastestGood r then some r else if i + 1 ≥ n then some r else fastest n (i + 1) rs

/-! ### Fastest-TCP -/
namespace Tcp

/-- fastest-tcp.go:16 `fastestTCPMaxProbes` -/
abbrev maxProbes : Nat := 32

/-- One receive on the result channel: the probe of record number `i` connected, some probe failed, or the context expired. fastest-tcp.go:147-163, 174-183. -/
inductive Probe where
  | ok (i : Nat)
  | failed
  | timeout
deriving DecidableEq, Repr

/-- fastest-tcp.go:151-157: the loop meant to put the fastest record on top. Records are identified by their number (the code
compares interface values holding pointers); `rr` is the record in hand. -/
def bubble : Nat → List Nat → List Nat
  | _, [] => []
  | rr, x :: xs => if x = rr then x :: xs else rr :: bubble x xs

/-- fastest-tcp.go:142-161 `probeFastest`, on the first receive -/
def probeFastest (rrs : List RR) : Probe → Option (List RR)
  | .ok i => some ((bubble i (List.range rrs.length)).filterMap (rrs[·]?))
  | .failed => none
  | .timeout => none

/-- fastest-tcp.go:170-181 `probeAll`: `left` receives still to do -/
def probeAll (rrs : List RR) : Nat → List Probe → Option (List RR)
  | 0, _ => some []
  | _ + 1, [] => none
  | left + 1, p :: ps => match p with
    | .ok i => match rrs[i]?, probeAll rrs left ps with
      | some r, some rest => some (r :: rest)
      | _, _ => none
    | _ => none

/-- fastest-tcp.go:126-133 `setTTL` -/
def setTTL (minTTL : Nat) (r : RR) : RR := if r.ttl < minTTL then { r with ttl := minTTL } else r

/-- fastest-tcp.go:113-121: put the sorted records back into the positions of the asked type. -/
def merge (qtype : Nat) : List RR → List RR → List RR
  | [], _ => []
  | rrs, [] => rrs
  | r :: rrs, s :: ss => if r.rtype = qtype then s :: merge qtype rrs ss else r :: merge qtype rrs (s :: ss)

/-- fastest-tcp.go:64-123 `Resolve` on the upstream's reply. `probes` is what comes out of the result channel. The outer `none` is the index
panic for a query without question. `setTTL` changes the records in place; they are the ones put back by `merge`. -/
def resolve (waitAll : Bool) (minTTL : Nat) (q : Msg) (reply : Res) (probes : List Probe) : Option Res :=
  match reply.err, reply.msg with
  | none, some a => match q.question with
    | [] => none
    | qu :: _ =>
      if qu.qtype ≠ typeA ∧ qu.qtype ≠ typeAAAA then some (.ok a)
      else
        let ipRRs := (a.answer.filter fun r => r.rtype = qu.qtype).take maxProbes
        if ipRRs.length < 2 then some (.ok a)
        else match (if waitAll then probeAll ipRRs ipRRs.length probes else probeFastest ipRRs (probes.headD .timeout)) with
          | none => some (.ok a)
          | some sorted => some (.ok { a with answer := merge qu.qtype a.answer (sorted.map (setTTL minTTL)) })
  | _, _ => some reply

end Tcp
end Verif.Balance
