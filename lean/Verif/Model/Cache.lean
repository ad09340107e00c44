import Verif.Model.Blob
import Verif.Model.Lru
/-
cache.go and cache-memory.go: the caching resolver over the in-memory backend.

Each locked region of `memoryBackend` is one function on the pointer structure of `Verif.Lru`; the part
of `Lookup` that runs outside the lock (`serve`) is pure in the record read under the lock.
Times are unix nanoseconds (`Int`).
-/
namespace Verif.CacheM
open Verif

/-- What the cache takes from outside: IP formatting (`net.IP.String`), the key hash, and
`dns.Msg.Pack`/`Unpack`. All arbitrary. Used in lru-cache.go:177-181, 287-305, cache-blob.go:82 and cache-memory.go:73-111. -/
structure Env (H : Type) where
  ipStr : Str → Str
  hash : LruKey → H
  encode : Msg → Option Str
  decode : Str → Option Msg

/-- `time.Second`. Used in cache.go:108-119, 321-360. -/
abbrev second : Int := 1000000000

/-- The ECS part of `lruKeyFromQuery` (lru-cache.go:296-302): the last subnet option wins. -/
def ecsOfOptions (ipStr : Str → Str) : List EOpt → Str × Nat → Str × Nat
  | [], acc => acc
  | .ecs _ mask _ addr :: rest, _ => ecsOfOptions ipStr rest (ipStr addr, mask)
  | _ :: rest, acc => ecsOfOptions ipStr rest acc

/-- lru-cache.go:287-305 `lruKeyFromQuery`; `none` is the panic on an empty question section. -/
def lruKeyFromQuery (ipStr : Str → Str) (q : Msg) : Option LruKey := do
  let qu ← q.question.head?
  match q.edns? with
  | none => return { name := lower qu.name, qtype := qu.qtype, qclass := qu.qclass, net := [],
                     dnssecOk := false, cd := q.cd, ecsMask := 0 }
  | some e =>
    let (net, mask) := ecsOfOptions ipStr e.options ([], 0)
    return { name := lower qu.name, qtype := qu.qtype, qclass := qu.qclass, net := net,
             dnssecOk := e.dnssecOk, cd := q.cd, ecsMask := mask }

/-- cache.go:108-113 `cacheAge`. The subtraction is an `int64`, the result is truncated to `uint32`. -/
def cacheAge (now stored : Int) : Nat :=
  if now ≤ stored then 0 else ((toI64 (toU64 (now - stored))).tdiv second).toNat % 4294967296

/-- cache.go:130-139, the loop over one section. `none`: some record has aged out. -/
def ageSection (age : Nat) : List RR → Option (List RR)
  | [] => some []
  | a :: rest =>
    if a.isOpt then (ageSection age rest).map (a :: ·)
    else if age ≥ a.ttl then none
    else (ageSection age rest).map ({ a with ttl := a.ttl - age } :: ·)

/-- cache.go:123-142 `ageCachedAnswer`; `none` is `false`. -/
def ageCachedAnswer (answer q : Msg) (age : Nat) : Option Msg := do
  let an ← ageSection age answer.answer
  let ns ← ageSection age answer.ns
  let ex ← ageSection age answer.extra
  return { answer with id := q.id, question := q.question, answer := an, ns := ns, extra := ex }

/-- cache.go:363-381 `minTTL`: the value and whether one was found. -/
def minTTL (m : Msg) : Nat × Bool :=
  m.records.foldl (fun acc a => if a.isOpt then acc else if a.ttl < acc.1 then (a.ttl, true) else acc)
    (maxUint32, false)

/-- cache.go:35-78 `CacheOptions`, the fields used here. -/
structure Opts where
  negativeTTL : Nat := 60
  rcodeMaxTTL : Nat → Option Nat := fun _ => none
  prefetchTrigger : Nat := 0
  prefetchEligible : Nat := 0
  flushQuery : Str := []
  harden : Bool := false
  shuffle : Option (Msg → Msg) := none

/-- cache.go:179-181: the default negative TTL set by `NewCache`. -/
def newOpts (o : Opts) : Opts := if o.negativeTTL = 0 then { o with negativeTTL := 60 } else o

/-- cache.go:331-348: expiry and prefetch flag before the per-code limit, `none` if the response is not to
be stored. -/
def baseLifetime (o : Opts) (m : Msg) (now : Int) : Option (Int × Bool) :=
  if m.rcode = rcodeSuccess ∨ m.rcode = rcodeNameError ∨ m.rcode = rcodeRefused
      ∨ m.rcode = rcodeNotImplemented ∨ m.rcode = rcodeFormatError then
    if (minTTL m).2 then some (now + (minTTL m).1 * second, decide ((minTTL m).1 > o.prefetchEligible))
    else some (now + o.negativeTTL * second, false)
  else if m.rcode = rcodeServerFailure then
    if o.negativeTTL < 300 then some (now + o.negativeTTL * second, false)
    else some (now + 300 * second, false)
  else none

/-- cache.go:322-356, the decision part of `storeInCache`: expiry and prefetch flag, `none` if the
response is not to be stored. -/
def lifetime (o : Opts) (m : Msg) (now : Int) : Option (Int × Bool) :=
  match baseLifetime o m now with
  | none => none
  | some (expiry, eligible) =>
    match o.rcodeMaxTTL m.rcode with
    | none => some (expiry, eligible)
    | some lim => if expiry > now + lim * second then some (now + lim * second, eligible)
                  else some (expiry, eligible)

variable {H : Type} [DecidableEq H]

/-- `cacheBlob.matchesKey`. It never panics (`Props.Blob.blob_matches_total`). cache-blob.go:175-193. -/
def matchKey (b : Str) (k : LruKey) : Bool := Blob.matchesKey? b k == some true

/-- cache-memory.go:16-23: the `lru` of the backend, with encoded records -/
abbrev State (H : Type) := Lru.Cache H Str

/-- cache-memory.go:59-71 `Store`, cache-blob.go:75-89 `newCacheBlob`. A record that cannot be encoded
is not stored. Outer `none` is a panic. -/
def store (env : Env H) (c : State H) (q m : Msg) (timestamp expiry : Int) (prefetch : Bool) :
    Option (State H) := do
  let key ← lruKeyFromQuery env.ipStr q
  match env.encode m with
  | none => return c
  | some wire =>
    match Blob.newFromWire key prefetch timestamp expiry wire with
    | none => return c
    | some blob => Lru.addKey env.hash matchKey c key blob

/-- cache.go:321-360 `storeInCache` at time `now`. -/
def storeInCache (env : Env H) (o : Opts) (c : State H) (q m : Msg) (now : Int) : Option (State H) :=
  match lifetime o m now with
  | none => some c
  | some (expiry, eligible) => store env c q m now expiry eligible

/-- cache-memory.go:78-80 `b.lru.get(q)` under the lock. -/
def lookupGet (env : Env H) (c : State H) (q : Msg) : Option (State H × Option Str) := do
  let key ← lruKeyFromQuery env.ipStr q
  Lru.get env.hash matchKey c key

/-- cache-memory.go:88-110: what `Lookup` does with the record, outside the lock. Inner `none` is a
miss that evicts. Outer `none` is a panic on a malformed record. -/
def serve (env : Env H) (blob : Str) (q : Msg) (now : Int) : Option (Option (Msg × Bool)) := do
  let expiry ← Blob.expiry? blob
  if now > expiry then return none
  let wire ← Blob.message? blob
  match env.decode wire with
  | none => return none
  | some answer =>
    let ts ← Blob.timestamp? blob
    match ageCachedAnswer answer q (cacheAge now ts) with
    | none => return none
    | some a =>
      let pf ← Blob.prefetch? blob
      return some (a, pf)

/-- cache-memory.go:113-119 `Evict` of one query. -/
def evict (env : Env H) (c : State H) (q : Msg) : Option (State H) := do
  let key ← lruKeyFromQuery env.ipStr q
  Lru.delete env.hash matchKey c key

/-- cache-memory.go:73-111 `Lookup`, run without interference. -/
def lookup (env : Env H) (c : State H) (q : Msg) (now : Int) :
    Option (State H × Option (Msg × Bool)) := do
  let (c, blob) ← lookupGet env c q
  match blob with
  | none => return (c, none)
  | some b =>
    match ← serve env b q now with
    | some r => return (c, some r)
    | none => return (← evict env c q, none)

/-- cache-memory.go:121-125 `Flush` -/
def flush (c : State H) : State H := Lru.reset c

/-- cache-memory.go:137-144, one garbage collection. Reading the expiry of a stored record cannot
fail: records are at least a header long. -/
def gc (c : State H) (now : Int) : Option (State H) :=
  Lru.deleteFunc (fun e => match Blob.expiry? e.2 with
    | some x => decide (now > x)
    | none => false) c

/-- cache.go:307-315, the loop over the higher names. `frags` is `fragments[i:]`, and `i` runs while at
least two fragments are left. `clock` gives the time of each lookup. -/
def hardenLoop (env : Env H) (q : Msg) (clock : Nat → Int) :
    State H → List Str → Nat → Option (State H × Bool)
  | c, a :: b :: rest, i => do
    let qu ← q.question.head?
    let newQ := { q with question := { qu with name := joinWith dot (a :: b :: rest) } :: q.question.tail }
    let (c, r) ← lookup env c newQ (clock i)
    match r with
    | some (m, _) => return (c, decide (m.rcode = rcodeNameError))
    | none => hardenLoop env q clock c (b :: rest) (i + 1)
  | c, _, _ => some (c, false)

/-- cache.go:292-319 `answerFromCache` -/
def answerFromCache (env : Env H) (o : Opts) (c : State H) (q : Msg) (clock : Nat → Int) :
    Option (State H × Option (Msg × Bool)) := do
  let (c, r) ← lookup env c q (clock 0)
  match r with
  | some (a, pf) => return (c, some ((match o.shuffle with | some f => f a | none => a), pf))
  | none =>
    if o.harden then
      let qu ← q.question.head?
      let (c, nx) ← hardenLoop env q clock c ((splitOn dot qu.name).drop 1) 1
      if nx then return (c, some (nxdomain q, false)) else return (c, none)
    else return (c, none)

/-- cache.go:228-231: whether a hit starts a background refresh, and the TTL to beat. -/
def wantsPrefetch (o : Opts) (a : Msg) (eligible : Bool) : Option Nat :=
  if eligible ∧ o.prefetchTrigger > 0 then
    let (min, ok) := minTTL a
    if ok ∧ min < o.prefetchTrigger then some min else none
  else none

/-- cache.go:239-258: the background refresh, with the upstream's reply. -/
def prefetchDone (env : Env H) (o : Opts) (c : State H) (q : Msg) (reply : Res) (min : Nat) (now : Int) :
    Option (State H) :=
  match reply with
  | ⟨some a, none⟩ =>
    if a.tc then some c
    else
      let (amin, ok) := minTTL a
      if ¬ ok ∨ amin < min then some c else storeInCache env o c q a now
  | _ => some c

/-- What `Cache.Resolve` did, besides its result. cache.go:204-285. -/
structure Outcome (H : Type) where
  state : State H
  res : Res
  /-- whether the upstream resolver was asked (in the foreground) -/
  asked : Bool
  /-- background refresh started, with the TTL to beat -/
  prefetch : Option Nat

/-- cache.go:204-285 `Cache.Resolve`. `up` is the upstream's reply to this query, `clock` the successive
clock readings of the lookups, `tStore` the reading in `storeInCache`. -/
def resolve (env : Env H) (o : Opts) (c : State H) (q : Msg) (up : Res) (clock : Nat → Int) (tStore : Int) :
    Option (Outcome H) :=
  if q.question.length > 1 then some ⟨c, up, true, none⟩
  else do
    let qu ← q.question.head?
    if o.flushQuery ≠ [] ∧ o.flushQuery = qu.name then
      return ⟨flush c, Res.ok (setReply q), false, none⟩
    let (c, r) ← answerFromCache env o c q clock
    match r with
    | some (a, pf) => return ⟨c, Res.ok a, false, wantsPrefetch o a pf⟩
    | none =>
      match up with
      | ⟨some a, none⟩ =>
        if a.tc then return ⟨c, Res.ok a, true, none⟩
        else return ⟨← storeInCache env o c q a tStore, Res.ok a, true, none⟩
      | ⟨_, e⟩ => return ⟨c, ⟨none, e⟩, true, none⟩

end Verif.CacheM
