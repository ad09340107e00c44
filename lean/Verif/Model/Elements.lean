import Verif.Model.Dns
/-
Small pipeline elements: ttl-modifier.go, truncate-retry.go, response-collapse.go, response-minimize.go, drop.go.

An upstream resolver is its result for the query at hand.
-/
namespace Verif.Elements
open Verif

/-! ### TTL modifier -/

/-- ttl-modifier.go:202-212 `iterateOverAnswerRRHeader` with a function that changes the TTL -/
def mapTTL (f : Nat → Nat) (m : Msg) : Msg :=
  let g := fun (r : RR) => if r.isOpt then r else { r with ttl := f r.ttl }
  { m with answer := m.answer.map g, ns := m.ns.map g, extra := m.extra.map g }

/-- ttl-modifier.go:202-212 with a function that reads the TTL: the values visited, in order -/
def ttls (m : Msg) : List Nat := ((m.answer ++ m.ns ++ m.extra).filter fun r => ! r.isOpt).map (·.ttl)

/-- ttl-modifier.go:20-25: the functions for `SelectFunc`, which are in 82-200 -/
inductive Select where
  | none
  | lowest
  | highest
  | average
  | first
  | last
  /-- with the value drawn by `rand.Intn` -/
  | random (draw : Nat)
deriving DecidableEq, Repr

/-- ttl-modifier.go:22-33 -/
structure TTLOptions where
  select : Select
  minTTL : Nat
  maxTTL : Nat
deriving DecidableEq, Repr

/-- ttl-modifier.go:36-39 -/
def TTLOptions.withDefaults (o : TTLOptions) : TTLOptions := { o with maxTTL := if o.maxTTL = 0 then maxUint32 else o.maxTTL }

/-- ttl-modifier.go:84-200: the value a select function sets. `Lowest` starts at MaxUint32, `Highest` and the others at 0. -/
def selected (o : TTLOptions) (m : Msg) : Option Nat := match o.select with
  | .none => Option.none
  | .lowest => some ((ttls m).foldl (fun lo t => if t < lo then t else lo) maxUint32)
  | .highest => some ((ttls m).foldl (fun hi t => if t > hi then t else hi) 0)
  | .average =>
    let n := (ttls m).foldl (fun n _ => n + 1) 0
    let sum := (ttls m).foldl (· + ·) 0
    some ((sum / (if n = 0 then 1 else n)) % 4294967296)
  | .first => some ((ttls m).head?.getD 0)
  | .last => some ((ttls m).foldl (fun _ t => t) 0)
  | .random draw => some (if o.maxTTL > o.minTTL then o.minTTL + draw else o.minTTL)

/-- ttl-modifier.go:62-71: limits -/
def limit (o : TTLOptions) (t : Nat) : Nat :=
  let t := if t < o.minTTL then o.minTTL else t
  if t > o.maxTTL then o.maxTTL else t

/-- ttl-modifier.go:49-76 `TTLModifier.Resolve` -/
def ttlResolve (o : TTLOptions) (up : Res) : Res := match up.err, up.msg with
  | .none, some a =>
    let a := match selected o a with
      | Option.none => a
      | some v => mapTTL (fun _ => v) a
    .ok (mapTTL (limit o) a)
  | _, _ => up

/-! ### Truncate-retry -/

/-- truncate-retry.go:34-46; also tells whether the retry resolver was asked -/
def truncateRetry (up retry : Res) : Res × Bool := match up.err, up.msg with
  | none, some a => if a.tc then (retry, true) else (up, false)
  | _, _ => (up, false)

/-! ### Collapse and minimise -/

/-- response-collapse.go:28-55; `none` is the index panic on a query without question -/
def collapse (nullRCode : Nat) (q : Msg) (up : Res) : Option Res := match up.err, up.msg with
  | none, some a =>
    if a.rcode ≠ rcodeSuccess then some up
    else match q.question with
      | [] => none
      | qu :: _ =>
        let rrs := a.answer.filterMap fun r => if r.rtype = qu.qtype ∧ r.cls = qu.qclass then some { r with name := qu.name } else none
        if rrs.length = 0 then some (.ok (responseWithCode q nullRCode))
        else some (.ok { a with answer := rrs })
  | _, _ => some up

/-- response-minimize.go:23-32 -/
def minimize (up : Res) : Res := match up.err, up.msg with
  | none, some a => .ok { a with extra := [], ns := [] }
  | _, _ => up

/-! ### Drop -/

/-- drop.go:21-24 -/
def dropResolve (_q : Msg) : Res := .drop

end Verif.Elements
