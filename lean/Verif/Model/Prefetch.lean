import Verif.Model.Cache
/-
prefetch.go: repeat frequently asked queries when their answers expire.

The expiring LRU caches come from a library outside the repository. They are maps in which an entry may be lost at any time (capacity,
sharding), a lookup never returns an entry past its lifetime, and which call back for entries whose lifetime has passed. Simplified: `Resolve` and the callback are
atomic. In the code two first queries for one key may each create a counter, and one count is lost, which can only delay a prefetch. The text of the key
(`%+v` of the cache key) is an arbitrary function of the query.
-/
namespace Verif.Prefetch
open Verif Verif.CacheM

/-- prefetch.go:26-31 -/
structure Options where
  window : Int
  threshold : Nat
deriving DecidableEq, Repr

/-- prefetch.go:42-47; times in seconds -/
def Options.withDefaults (o : Options) : Options :=
  { window := if o.window = 0 then 3600 else o.window, threshold := if o.threshold = 0 then 5 else o.threshold }

/-- An entry of the counters, prefetch.go:16-24 -/
structure Counter where
  count : Nat
  expiry : Int
deriving DecidableEq, Repr

/-- prefetch.go:20-21 -/
structure State where
  names : List (Str × Counter) := []
  queries : List (Str × Msg) := []
deriving DecidableEq, Repr

/-- Storing in the caches of prefetch.go:16-24 -/
def put {α} (m : List (Str × α)) (k : Str) (v : α) : List (Str × α) := (k, v) :: m.filter (fun e => e.1 ≠ k)
/-- Deleting from the caches of prefetch.go:16-24 -/
def del {α} (m : List (Str × α)) (k : Str) : List (Str × α) := m.filter (fun e => e.1 ≠ k)

/-- a lookup in the counter cache. prefetch.go:139. -/
def getCounter (s : State) (k : Str) (now : Int) : Option Counter := match s.names.lookup k with
  | some c => if now < c.expiry then some c else none
  | none => none

/-- prefetch.go:91-102 and 122-133: can the response be used for prefetch -/
def usable (up : Res) : Bool := match up.err, up.msg with
  | none, some a => a.rcode = rcodeSuccess && ! a.tc && (minTTL a).2 && ! decide ((minTTL a).1 < 2)
  | _, _ => false

/-- prefetch.go:139-143: the counter after this query -/
def nextCount (s : State) (k : Str) (now : Int) : Nat := match getCounter s k now with
  | some c => c.count + 1
  | none => 1

/-- A query or a prefetch, prefetch.go:41-153 -/
inductive Ev where
  /-- a client query at a time, with the upstream's reply -/
  | query (q : Msg) (up : Res) (now : Int)
  /-- a counter is evicted -/
  | loseName (k : Str)
  /-- a stored query is evicted -/
  | loseQuery (k : Str)
  /-- the lifetime of the stored query has passed; `up` is what the upstream would reply -/
  | expired (k : Str) (up : Res) (now : Int)
deriving DecidableEq, Repr

/-- prefetch.go:120-153 `Resolve` and prefetch.go:72-106 (the callback). Also gives the query sent by the callback. -/
def step (keyOf : Msg → Str) (o : Options) (s : State) : Ev → State × Option Msg
  | .query q up now =>
    if ! usable up then (s, none)
    else
      let k := keyOf q
      let n := nextCount s k now
      let s := { s with names := put s.names k ⟨n, now + o.window⟩ }
      if n ≥ o.threshold then ({ s with queries := put s.queries k q }, none) else (s, none)
  | .loseName k => ({ s with names := del s.names k }, none)
  | .loseQuery k => ({ s with queries := del s.queries k }, none)
  | .expired k up now => match getCounter s k now, s.queries.lookup k with
    | some c, some q =>
      if c.count < o.threshold then ({ s with queries := del s.queries k }, none)
      else if usable up then (s, some q)
      else ({ s with queries := del s.queries k }, some q)
    | _, _ => ({ s with queries := del s.queries k }, none)

/-- Any number of events of prefetch.go:41-153 -/
def run (keyOf : Msg → Str) (o : Options) (evs : List Ev) : State := evs.foldl (fun s e => (step keyOf o s e).1) {}

end Verif.Prefetch
