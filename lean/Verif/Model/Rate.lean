import Verif.Model.Net
/-
rate-limiter.go: fixed-window rate limiter.

Simplifications: the map key is the masked address itself instead of its text (`IP.String` tells the
possible keys apart: nil, 4 bytes, or 16 bytes that are no IPv4-mapped address, as masking cannot make an address IPv4-mapped); counters do not
overflow.
-/
namespace Verif.Rate
open Verif Verif.Net

/-- rate-limiter.go:27-33, without the resolvers -/
structure Options where
  requests : Nat
  window : Nat
  prefix4 : Nat
  prefix6 : Nat
deriving DecidableEq, Repr

/-- rate-limiter.go:45-54: defaults -/
def Options.withDefaults (o : Options) : Options :=
  { o with window := if o.window = 0 then 60 else o.window
           prefix4 := if o.prefix4 = 0 then 24 else o.prefix4
           prefix6 := if o.prefix6 = 0 then 56 else o.prefix6 }

/-- rate-limiter.go:72-79: client network of an address -/
def key (o : Options) (source : Str) : Str := match to4 source with
  | some _ => ipMask source (cidrMask o.prefix4 4)
  | none => ipMask source (cidrMask o.prefix6 16)

/-- rate-limiter.go:19-21; `counters = none` is the nil map of a new limiter -/
structure State where
  currWinID : Int := 0
  counters : Option (List (Str × Nat)) := none
deriving DecidableEq, Repr

/-- `r.counters[source]`, rate-limiter.go:81-105 -/
def count (m : List (Str × Nat)) (k : Str) : Nat := match m.lookup k with
  | some n => n
  | none => 0

/-- `r.counters[source]++`, rate-limiter.go:81-105 -/
def bump (m : List (Str × Nat)) (k : Str) : List (Str × Nat) := (k, count m k + 1) :: m.filter (fun e => e.1 ≠ k)

/-- rate-limiter.go:81-105: what happens under the lock; `now` in seconds. Returns whether the query is rejected; `none` is the write to a nil map. -/
def step (o : Options) (s : State) (now : Int) (source : Str) : Option (State × Bool) :=
  let windowID := now.tdiv o.window
  let s := if windowID ≠ s.currWinID then { currWinID := windowID, counters := some [] } else s
  match s.counters with
  | none => none
  | some m => some ({ s with counters := some (bump m (key o source)) }, count m (key o source) ≥ o.requests)

/-- Queries in the order in which they take the lock: the verdicts (true = rejected). rate-limiter.go:81-105. -/
def run (o : Options) : State → List (Int × Str) → Option (List Bool)
  | _, [] => some []
  | s, (t, ip) :: rest => match step o s t ip with
    | none => none
    | some (s', b) => match run o s' rest with
      | none => none
      | some bs => some (b :: bs)

/-- Where a query goes. rate-limiter.go:105-118. -/
inductive Dest where
  | resolver
  | limitResolver
  | dropped
deriving DecidableEq, Repr

/-- rate-limiter.go:107-118 -/
def dest (hasLimitResolver rejected : Bool) : Dest :=
  if rejected then (if hasLimitResolver then .limitResolver else .dropped) else .resolver

end Verif.Rate
