import Verif.Spec.Races
/-
What the goroutines of the program do to the state they share: which locks they take, which fields they read and write under them, which
channels they close and wait for, which goroutines they start. Every element with a mutex, `sync.Once` or atomic counter is modelled,
function by function; decisions that depend on values are branches that can go either way, loops run any number of times.

Simplifications. The model starts when the element was built: its constructor ran before any goroutine could use it. Everything else a
goroutine does between the modelled actions (queries to other elements, logging, sleeping) is left out. It can only add happens-before
edges. Sends and receives of values on channels are left out for the same reason; only channels closed as a signal are modelled.
`sync.Once.Do` is a lock around `ensure`, as documented: the function ran completely before any `Do` returns. `expvar` variables are
atomic.
-/
namespace Verif.Races
open Verif.Spec.Races

/-- The code of a goroutine (no counterpart in /repo: the language the functions of the .go files below are written in). -/
inductive Code (L X C G : Type) where
  | done
  | act (a : Act L X C G) (k : Code L X C G)
  /-- either the one or the other -/
  | branch (a b : Code L X C G)
  /-- the body any number of times, then the rest -/
  | loop (body k : Code L X C G)
deriving Repr

section Language
variable {L X C G : Type}

/-- actions one after the other, then the rest (no counterpart in the .go files) -/
def seq : List (Act L X C G) → Code L X C G → Code L X C G
  | [], k => k
  | a :: as, k => .act a (seq as k)

/-- one of several (no counterpart in the .go files) -/
def choice : List (Code L X C G) → Code L X C G
  | [] => .done
  | [c] => c
  | c :: cs => .branch c (choice cs)

/-- what a goroutine did when it came to the end of its code (no counterpart in the .go files) -/
inductive Full : Code L X C G → List (Act L X C G) → Prop
  | done : Full .done []
  | act {a : Act L X C G} {k : Code L X C G} {l : List (Act L X C G)} : Full k l → Full (.act a k) (a :: l)
  | left {a b : Code L X C G} {l : List (Act L X C G)} : Full a l → Full (.branch a b) l
  | right {a b : Code L X C G} {l : List (Act L X C G)} : Full b l → Full (.branch a b) l
  | out {b k : Code L X C G} {l : List (Act L X C G)} : Full k l → Full (.loop b k) l
  | round {b k : Code L X C G} {l l' : List (Act L X C G)} : Full b l → Full (.loop b k) l' → Full (.loop b k) (l ++ l')

/-- what a goroutine may have done up to some moment (no counterpart in the .go files) -/
inductive Runs : Code L X C G → List (Act L X C G) → Prop
  | here {c : Code L X C G} : Runs c []
  | act {a : Act L X C G} {k : Code L X C G} {l : List (Act L X C G)} : Runs k l → Runs (.act a k) (a :: l)
  | left {a b : Code L X C G} {l : List (Act L X C G)} : Runs a l → Runs (.branch a b) l
  | right {a b : Code L X C G} {l : List (Act L X C G)} : Runs b l → Runs (.branch a b) l
  | out {b k : Code L X C G} {l : List (Act L X C G)} : Runs k l → Runs (.loop b k) l
  | inside {b k : Code L X C G} {l : List (Act L X C G)} : Runs b l → Runs (.loop b k) l
  | round {b k : Code L X C G} {l l' : List (Act L X C G)} : Full b l → Runs (.loop b k) l' → Runs (.loop b k) (l ++ l')

/-- The goroutines of an element: what each kind `R` of them does, and of which kinds there is at most one (no counterpart in the .go
files). -/
structure System (L X C G R : Type) where
  code : R → Code L X C G
  unique : R → Bool

/-- An execution of the element by any number of goroutines (no counterpart in the .go files). `kind t` is what goroutine `t` is; `none`:
there is no such goroutine. -/
structure System.Executes [DecidableEq L] {R : Type} (S : System L X C G R) (kind : Tid → Option R) (e : Exec L X C G) : Prop where
  possible : e.Possible
  absent : ∀ t, kind t = none → proj t e.events = []
  runs : ∀ t r, kind t = some r → Runs (S.code r) (proj t e.events)
  one : ∀ t t' r, kind t = some r → kind t' = some r → S.unique r = true → t = t'

/-- `mu.Lock()`, as in roundrobin.go:32 -/
def lock (m : L) : Act L X C G := .acquire m .exclusive
/-- `mu.Unlock()`, as in roundrobin.go:35 -/
def unlock (m : L) : Act L X C G := .release m .exclusive
/-- `mu.RLock()`, as in failrotate.go:79 -/
def rlock (m : L) : Act L X C G := .acquire m .shared
/-- `mu.RUnlock()`, as in failrotate.go:80 -/
def runlock (m : L) : Act L X C G := .release m .shared

end Language

/-- the one lock most elements have, `mu` in failback.go:23, failrotate.go:19, random.go:18 and others -/
inductive Mu where
  | mu
deriving DecidableEq, Repr

/-- no channels or goroutines of interest (nothing in the .go files) -/
inductive Nothing
deriving DecidableEq, Repr

/-! ### Fail-back group -/
namespace FailBack

/-- failback.go:19-30: `active`, `failCh`; the counters of failback.go:44-64 -/
inductive X where
  | active
  | failCh
  | available
  | failover
deriving DecidableEq, Repr

/-- the goroutines of clients, and the timer of failback.go:151 -/
inductive R where
  | client
  | timer
deriving DecidableEq, Repr

/-- failback.go:122-145 `errorFrom`; the `failCh` in the send of line 144 is read after the lock was released -/
def errorFrom (k : Code Mu X Nothing Nothing) : Code Mu X Nothing Nothing :=
  .branch k <|
  seq [lock .mu, .read .active] <|
  .branch (seq [unlock .mu] k) <|
  seq [.ensure .failCh, .read .active, .write .active, .read .active, .atomic .available, .read .active, unlock .mu, .atomic .failover,
    .read .failCh] k

/-- failback.go:106-115 `current` -/
def current (k : Code Mu X Nothing Nothing) : Code Mu X Nothing Nothing :=
  .branch k (seq [rlock .mu, .read .active, .read .active, runlock .mu] k)

/-- failback.go:78-99 `Resolve`, any number of times -/
def client : Code Mu X Nothing Nothing := .loop (current (.branch .done (errorFrom .done))) .done

/-- failback.go:149-174: the goroutine of `startResetTimer` -/
def timer : Code Mu X Nothing Nothing :=
  .loop (.branch .done (seq [lock .mu, .write .active, .atomic .available, .read .active, unlock .mu] .done)) .done

/-- failback.go -/
def system : System Mu X Nothing Nothing R where
  code := fun r => match r with
    | .client => client
    | .timer => timer
  unique := fun _ => false

end FailBack

/-! ### Fail-rotate group -/
namespace FailRotate

/-- failrotate.go:15-23: `active`; the counter `failover` -/
inductive X where
  | active
  | failover
deriving DecidableEq, Repr

/-- failrotate.go:78-82 `current` -/
def current (k : Code Mu X Nothing Nothing) : Code Mu X Nothing Nothing := seq [rlock .mu, .read .active, .read .active, runlock .mu] k

/-- failrotate.go:88-97 `errorFrom` -/
def errorFrom (k : Code Mu X Nothing Nothing) : Code Mu X Nothing Nothing :=
  seq [lock .mu, .read .active] <|
  .branch (seq [unlock .mu] k) (seq [.atomic .failover, .read .active, .write .active, .read .active, unlock .mu] k)

/-- failrotate.go:46-71 `Resolve`, any number of times -/
def client : Code Mu X Nothing Nothing := .loop (current (.branch .done (errorFrom .done))) .done

/-- failrotate.go -/
def system : System Mu X Nothing Nothing Unit where
  code := fun _ => client
  unique := fun _ => false

end FailRotate

/-! ### Round-robin group -/
namespace RoundRobin

/-- roundrobin.go:11-17: `current` -/
inductive X where
  | current
  | route
  | failure
deriving DecidableEq, Repr

/-- roundrobin.go:31-44 `Resolve`, any number of times -/
def client : Code Mu X Nothing Nothing :=
  .loop (seq [lock .mu, .read .current, .read .current, .write .current, unlock .mu, .atomic .route]
    (.branch .done (seq [.atomic .failure] .done))) .done

/-- roundrobin.go -/
def system : System Mu X Nothing Nothing Unit where
  code := fun _ => client
  unique := fun _ => false

end RoundRobin

/-! ### Random group -/
namespace Random

/-- random.go:14-21: `resolvers` (the list and its elements); the counters -/
inductive X where
  | resolvers
  | available
  | failover
deriving DecidableEq, Repr

/-- clients, and the goroutines of random.go:101 -/
inductive R where
  | client
  | later
deriving DecidableEq, Repr

/-- random.go:101: `go r.reactivateLater(bad)` -/
inductive G where
  | later
deriving DecidableEq, Repr

/-- random.go:77-87 `pick` -/
def pick (k : Code Mu X Nothing G) : Code Mu X Nothing G :=
  seq [rlock .mu, .read .resolvers, .atomic .available, .atomic .failover] <|
  .branch (seq [runlock .mu] k) (seq [.read .resolvers, runlock .mu] k)

/-- random.go:91-107 `deactivate` -/
def deactivate (k : Code Mu X Nothing G) : Code Mu X Nothing G :=
  seq [lock .mu, .read .resolvers] <|
  .loop (.branch (seq [.read .resolvers] .done) (seq [.read .resolvers, .spawn .later] .done)) <|
  seq [.write .resolvers, unlock .mu] k

/-- random.go:50-71 `Resolve`, any number of times -/
def client : Code Mu X Nothing G := .loop (pick (.branch .done (deactivate .done))) .done

/-- random.go:110-120 `reactivateLater` -/
def later : Code Mu X Nothing G :=
  seq [.start .later, lock .mu, .read .resolvers, .write .resolvers, .read .resolvers, .atomic .available, unlock .mu] .done

/-- random.go -/
def system : System Mu X Nothing G R where
  code := fun r => match r with
    | .client => client
    | .later => later
  unique := fun _ => false

end Random

/-! ### Load balancing -/
namespace LoadBalance

/-- loadbalance.go:38-65, for one member: the average, the number of samples, the mark, the failures in a row, and the published average -/
inductive X where
  | rttEMA
  | count
  | emaInflated
  | consecFails
  | rttVar
deriving DecidableEq, Repr

/-- loadbalance.go:172-212 `pick` -/
def pick (k : Code Mu X Nothing Nothing) : Code Mu X Nothing Nothing :=
  .branch k <|
  seq [rlock .mu] <|
  .loop (seq [.read .count] (.branch .done (seq [.read .rttEMA, .read .rttEMA] .done))) <|
  seq [runlock .mu] k

/-- loadbalance.go:215-238 `updateOnSuccess` -/
def updateOnSuccess (k : Code Mu X Nothing Nothing) : Code Mu X Nothing Nothing :=
  seq [.atomic .consecFails, lock .mu, .read .count, .read .emaInflated] <|
  let rest := seq [.write .emaInflated, .read .rttEMA, .read .count, .write .count, unlock .mu, .atomic .rttVar] k
  .branch (seq [.write .rttEMA] rest) (seq [.read .rttEMA, .write .rttEMA] rest)

/-- loadbalance.go:246-281 `updateOnFailure` -/
def updateOnFailure (k : Code Mu X Nothing Nothing) : Code Mu X Nothing Nothing :=
  seq [.atomic .consecFails, lock .mu, .read .count] <|
  let rest := seq [.read .rttEMA, .read .count, .write .count, unlock .mu, .atomic .rttVar] k
  .branch (seq [.write .rttEMA, .write .emaInflated] rest) <|
  seq [.read .rttEMA] <|
  .branch rest (seq [.read .rttEMA, .write .rttEMA, .write .emaInflated] rest)

/-- loadbalance.go:105-160 `Resolve`, any number of times -/
def client : Code Mu X Nothing Nothing := .loop (pick (.branch (updateOnSuccess .done) (updateOnFailure .done))) .done

/-- loadbalance.go -/
def system : System Mu X Nothing Nothing Unit where
  code := fun _ => client
  unique := fun _ => false

end LoadBalance

/-! ### Rate limiter -/
namespace RateLimiter

/-- rate-limiter.go:15-23: `currWinID`, `counters`, and a counter in it; the published counters -/
inductive X where
  | currWinID
  | counters
  | counter
  | metrics
deriving DecidableEq, Repr

/-- rate-limiter.go:68-121 `Resolve`, any number of times -/
def client : Code Mu X Nothing Nothing :=
  let rest : Code Mu X Nothing Nothing :=
    seq [.read .counters] <|
    let count : Code Mu X Nothing Nothing :=
      seq [.read .counter, .read .counter, .write .counter, unlock .mu] (.branch .done (seq [.atomic .metrics] .done))
    .branch count (seq [.write .counter, .write .counters] count)
  .loop (seq [.atomic .metrics, lock .mu, .read .currWinID] (.branch rest (seq [.write .currWinID, .write .counters] rest))) .done

/-- rate-limiter.go -/
def system : System Mu X Nothing Nothing Unit where
  code := fun _ => client
  unique := fun _ => false

end RateLimiter

/-! ### Query blocklist -/
namespace Blocklist

/-- blocklist.go:16-58: the two lists -/
inductive X where
  | blocklistDB
  | allowlistDB
deriving DecidableEq, Repr

/-- clients, and the two goroutines of blocklist.go:80, 83 -/
inductive R where
  | client
  | refreshBlock
  | refreshAllow
deriving DecidableEq, Repr

/-- blocklist.go:90-97, the part of `Resolve` that uses the element's state, any number of times -/
def client : Code Mu X Nothing Nothing :=
  .loop (seq [rlock .mu, .read .blocklistDB, .read .allowlistDB, runlock .mu] .done) .done

/-- blocklist.go:195-210 `refreshLoopBlocklist`; the list is read without the lock in line 200 -/
def refreshBlock : Code Mu X Nothing Nothing :=
  .loop (seq [.read .blocklistDB] (.branch .done (seq [lock .mu, .write .blocklistDB, unlock .mu] .done))) .done

/-- blocklist.go:211-225 `refreshLoopAllowlist` -/
def refreshAllow : Code Mu X Nothing Nothing :=
  .loop (seq [.read .allowlistDB] (.branch .done (seq [lock .mu, .write .allowlistDB, unlock .mu] .done))) .done

/-- blocklist.go -/
def system : System Mu X Nothing Nothing R where
  code := fun r => match r with
    | .client => client
    | .refreshBlock => refreshBlock
    | .refreshAllow => refreshAllow
  unique := fun r => r != .client

end Blocklist

/-! ### Client blocklist and response blocklists -/
namespace ListElement

/-- client-blocklist.go:15-36, response-blocklist-ip.go:25-44, response-blocklist-name.go:14-30: the list, and the database behind it (closed by
the refresh loop) -/
inductive X where
  | blocklistDB
deriving DecidableEq, Repr

/-- clients, and the goroutine of client-blocklist.go:50, response-blocklist-ip.go:60, response-blocklist-name.go:45 -/
inductive R where
  | client
  | refresh
deriving DecidableEq, Repr

/-- client-blocklist.go:112-116, response-blocklist-ip.go:88-92, response-blocklist-name.go:66-71 `match`, any number of times -/
def client : Code Mu X Nothing Nothing := .loop (seq [rlock .mu, .read .blocklistDB, runlock .mu] .done) .done

/-- client-blocklist.go:118-140, response-blocklist-ip.go:94-114 `refreshLoopBlocklist`, and response-blocklist-name.go:73-87, which
does not read the old list under the lock -/
def refresh : Code Mu X Nothing Nothing :=
  .loop (seq [.read .blocklistDB] (.branch .done (seq [lock .mu]
    (.branch (seq [.read .blocklistDB, .write .blocklistDB, unlock .mu] .done) (seq [.write .blocklistDB, unlock .mu] .done))))) .done

/-- client-blocklist.go, response-blocklist-ip.go, response-blocklist-name.go -/
def system : System Mu X Nothing Nothing R where
  code := fun r => match r with
    | .client => client
    | .refresh => refresh
  unique := fun r => r == .refresh

end ListElement

/-! ### Memory cache -/
namespace Memory

/-- cache-memory.go:16-24: the two locks -/
inductive L where
  | mu
  | saveMu
deriving DecidableEq, Repr

/-- the map and linked list of lru-cache.go behind `lru`, an encoded record, and the cache file -/
inductive X where
  | lru
  | blob
  | file
deriving DecidableEq, Repr

/-- clients, the goroutines of cache-memory.go:54-55, the one of cache.go:191, and the caller of `Close` (cmd/routedns/main.go:466-469, 792) -/
inductive R where
  | client
  | gc
  | save
  | size
  | closer
deriving DecidableEq, Repr

/-- cache-memory.go:113-119 `Evict` (lru-cache.go:168-177 `delete`) -/
def evict (k : Code L X Nothing Nothing) : Code L X Nothing Nothing :=
  seq [lock .mu] <| .loop (seq [.read .lru] (.branch .done (seq [.write .lru] .done))) <| seq [unlock .mu] k

/-- cache-memory.go:59-71 `Store`; the record is made before the lock is taken and is new, so its writing concerns nobody else -/
def store (k : Code L X Nothing Nothing) : Code L X Nothing Nothing := seq [lock .mu, .read .lru, .write .lru, unlock .mu] k

/-- cache-memory.go:73-111 `Lookup` (lru-cache.go:180-205 `get` and `touch`) -/
def lookup (k : Code L X Nothing Nothing) : Code L X Nothing Nothing :=
  seq [lock .mu, .read .lru] <|
  .branch (seq [unlock .mu] k) <|
  seq [.write .lru, .read .lru, unlock .mu, .read .blob] (.branch (evict k) k)

/-- cache-memory.go:121-125 `Flush` -/
def flush (k : Code L X Nothing Nothing) : Code L X Nothing Nothing := seq [lock .mu, .write .lru, unlock .mu] k

/-- cache-memory.go:132-155 `startGC` -/
def gc : Code L X Nothing Nothing :=
  .loop (seq [lock .mu] (.loop (seq [.read .lru, .read .blob] (.branch .done (seq [.write .lru] .done))) (seq [.read .lru, unlock .mu] .done))) .done

/-- cache-memory.go:170-192 `writeToFile` -/
def writeToFile (k : Code L X Nothing Nothing) : Code L X Nothing Nothing :=
  seq [lock .saveMu] <|
  .branch (seq [unlock .saveMu] k) <|
  seq [lock .mu] <|
  .loop (seq [.read .lru, .read .blob, .write .file] .done) <|
  seq [unlock .mu] <|
  .branch (seq [.write .file, unlock .saveMu] k) (seq [unlock .saveMu] k)

/-- the elements' calls of the cache (cache.go:197-290), any number of times -/
def client : Code L X Nothing Nothing := .loop (choice [lookup .done, store .done, evict .done, flush .done]) .done

/-- cache-memory.go:214-222 `intervalSave` -/
def save : Code L X Nothing Nothing := .loop (writeToFile .done) .done

/-- cache.go:191-197 with cache-memory.go:157-161 `Size` -/
def size : Code L X Nothing Nothing := .loop (seq [lock .mu, .read .lru, unlock .mu] .done) .done

/-- cache-memory.go:163-168 `Close` -/
def closer : Code L X Nothing Nothing := .branch .done (writeToFile .done)

/-- cache-memory.go -/
def system : System L X Nothing Nothing R where
  code := fun r => match r with
    | .client => client
    | .gc => gc
    | .save => save
    | .size => size
    | .closer => closer
  unique := fun _ => false

end Memory

/-! ### Round-robin shuffling of answers -/
namespace Shuffle

/-- cache.go:411-415: the locks; `once` stands for the `sync.Once` -/
inductive L where
  | once
  | mu
deriving DecidableEq, Repr

/-- cache.go:406-415: the variable holding the map, the map, and of a record in it the counter and the expiry -/
inductive X where
  | state
  | map
  | reads
  | expiry
deriving DecidableEq, Repr

/-- cache.go:426: the clean-up goroutine -/
inductive G where
  | cleanup
deriving DecidableEq, Repr

/-- callers of cache.go:418, and the clean-up of cache.go:426 -/
inductive R where
  | caller
  | cleanup
deriving DecidableEq, Repr

/-- cache.go:418-495 `AnswerShuffleRoundRobin`, any number of times. The first caller to come creates the map and starts the clean-up. -/
def caller : Code L X Nothing G :=
  let lookup : Code L X Nothing G :=
    seq [rlock .mu, .read .state, .read .map, runlock .mu] <|
    choice [seq [.atomic .reads] .done, .done, seq [lock .mu, .read .state, .write .map, unlock .mu] .done]
  .loop (.branch .done (seq [lock .once, .ensure .state]
    (.branch (seq [unlock .once] lookup) (seq [.spawn .cleanup, unlock .once] lookup)))) .done

/-- cache.go:426-448: the clean-up -/
def cleanup : Code L X Nothing G :=
  seq [.start .cleanup] <|
  .loop (seq [rlock .mu, .read .state] (.loop (seq [.read .map, .read .expiry] .done)
    (seq [runlock .mu, lock .mu] (.loop (seq [.read .state, .write .map] .done) (seq [unlock .mu] .done))))) .done

/-- cache.go:405-495 -/
def system : System L X Nothing G R where
  code := fun r => match r with
    | .caller => caller
    | .cleanup => cleanup
  unique := fun _ => false

end Shuffle

/-! ### De-duplication of requests -/
namespace Dedup

/-- request-dedup.go:20-40: the map, and of one request in flight the answer, the error, and the message the answer points to -/
inductive X where
  | inflight
  | answer
  | err
  | msg
deriving DecidableEq, Repr

/-- request-dedup.go:26: the channel of that request -/
inductive C where
  | done
deriving DecidableEq, Repr

/-- request-dedup.go:91-138, for one request in flight: the goroutine that created it, those that wait for it, and those with other questions. -/
inductive R where
  | leader
  | waiter
  | other
deriving DecidableEq, Repr

/-- request-dedup.go:91-99 and 117-138: the goroutine that found no request in the map. The message comes from the next element, which
hands it over (C93). -/
def leader : Code Mu X C Nothing :=
  seq [lock .mu, .read .inflight, .write .inflight, unlock .mu, .write .msg, .write .answer, .write .err, .close .done,
    lock .mu, .write .inflight, unlock .mu, .read .msg] .done

/-- request-dedup.go:91-116: a goroutine that found the request in the map -/
def waiter : Code Mu X C Nothing :=
  seq [lock .mu, .read .inflight, unlock .mu, .recv .done, .read .answer, .read .err] (.branch .done (seq [.read .msg] .done))

/-- request-dedup.go:91-128: what goroutines with other questions do to the map -/
def other : Code Mu X C Nothing :=
  .loop (seq [lock .mu, .read .inflight] (.branch (seq [unlock .mu] .done) (seq [.write .inflight, unlock .mu, lock .mu, .write .inflight,
    unlock .mu] .done))) .done

/-- request-dedup.go -/
def system : System Mu X C Nothing R where
  code := fun r => match r with
    | .leader => leader
    | .waiter => waiter
    | .other => other
  unique := fun r => r == .leader

end Dedup

/-! ### Pipelined connections -/
namespace Pipeline

/-- pipeline.go:199-206 and 238-243: the queue with its map and its maximum, and of one request its id, answer, error and query -/
inductive X where
  | requests
  | maxLen
  | id
  | answer
  | err
  | query
deriving DecidableEq, Repr

/-- pipeline.go:204: the channel of the request -/
inductive C where
  | done
deriving DecidableEq, Repr

/-- pipeline.go:55-195. The caller of `Resolve` with this request, the goroutine that completes it (exactly one: C24, `pipeline_no_panic`; in the code the
`start` loop, the writer or the reader), and all others working on the queue. -/
inductive R where
  | caller
  | completer
  | other
deriving DecidableEq, Repr

/-- pipeline.go:249-273 `add`, of this request (which may come after the caller gave up) or another -/
def add (k : Code Mu X C Nothing) : Code Mu X C Nothing :=
  seq [lock .mu, .read .requests] <|
  .branch (seq [unlock .mu] k) <|
  .loop (seq [.read .requests] .done) <|
  .branch (seq [.write .id, .write .requests, .read .query, .read .maxLen, .write .maxLen, unlock .mu] k)
    (seq [.write .requests, .read .maxLen, .write .maxLen, unlock .mu] k)

/-- pipeline.go:277-287 `get` -/
def take (k : Code Mu X C Nothing) : Code Mu X C Nothing :=
  seq [lock .mu, .read .requests] (.branch (seq [unlock .mu] k) (seq [.write .requests, unlock .mu] k))

/-- pipeline.go:291-297 `delete`; the ids of other requests are other variables -/
def delete (k : Code Mu X C Nothing) : Code Mu X C Nothing :=
  seq [lock .mu, .read .id, .read .requests] (.branch (seq [unlock .mu] k) (seq [.read .id, .write .requests, unlock .mu] k))

/-- pipeline.go:309-313 `maxQueueLen` -/
def maxQueueLen (k : Code Mu X C Nothing) : Code Mu X C Nothing := seq [lock .mu, .read .maxLen, unlock .mu] k

/-- pipeline.go:55-80 `Resolve` with pipeline.go:215-225 `waitFor` -/
def caller : Code Mu X C Nothing :=
  choice [.done, delete .done,
    seq [.recv .done, .recv .done, .read .err] (.branch (seq [.read .err] .done) (seq [.read .query, .read .answer, .read .answer, .read .err] .done))]

/-- work on the queue for other requests: pipeline.go:84-195 -/
def work (k : Code Mu X C Nothing) : Code Mu X C Nothing :=
  .loop (choice [add .done, take .done, maxQueueLen .done,
    seq [lock .mu, .read .requests, .write .requests, unlock .mu] .done]) k

/-- pipeline.go:228-235 `markDone` called directly, or pipeline.go:300-307 by `drain` with the lock held -/
def completer : Code Mu X C Nothing :=
  work (.branch (seq [.read .query, .write .answer, .write .err, .close .done] (work .done))
    (seq [lock .mu, .read .requests, .read .query, .write .answer, .write .err, .close .done, .write .requests, unlock .mu] (work .done)))

/-- pipeline.go -/
def system : System Mu X C Nothing R where
  code := fun r => match r with
    | .caller => caller
    | .completer => completer
    | .other => work .done
  unique := fun r => r == .completer

end Pipeline

/-! ### DNS-over-QUIC connections -/
namespace Quic

/-- doqclient.go:275-284: the connection -/
inductive X where
  | conn
deriving DecidableEq, Repr

/-- doqclient.go:366-374 `awaitReplaySafe` -/
def awaitReplaySafe (k : Code Mu X Nothing Nothing) : Code Mu X Nothing Nothing := .branch k (seq [.read .conn, .read .conn] k)

/-- doqclient.go:378-394 `restart`, with the two outcomes -/
def restart (failed ok : Code Mu X Nothing Nothing) : Code Mu X Nothing Nothing :=
  seq [.read .conn] (.branch failed (seq [.write .conn] ok))

/-- doqclient.go:315-357 `getStream` -/
def getStream (k : Code Mu X Nothing Nothing) : Code Mu X Nothing Nothing :=
  let leave := seq [unlock .mu] k
  let work := awaitReplaySafe (seq [.read .conn] (.branch leave (restart leave (awaitReplaySafe (seq [.read .conn] leave)))))
  .branch k <|
  seq [lock .mu, .read .conn] <|
  .branch work (seq [.write .conn] (.branch leave work))

/-- doqclient.go:148-260 `Resolve`, any number of times -/
def client : Code Mu X Nothing Nothing := .loop (getStream .done) .done

/-- doqclient.go -/
def system : System Mu X Nothing Nothing Unit where
  code := fun _ => client
  unique := fun _ => false

end Quic

/-! ### ODoH client -/
namespace Odoh

/-- odohclient.go:28-40: the key and its expiry -/
inductive X where
  | config
  | expiry
deriving DecidableEq, Repr

/-- odohclient.go:169-189 `getTargetConfig`, any number of times -/
def client : Code Mu X Nothing Nothing :=
  .loop (seq [lock .mu] (choice [
    seq [unlock .mu] .done,
    seq [.write .config, .read .config, unlock .mu] .done,
    seq [.read .config, .read .expiry] (.branch (seq [.read .config, unlock .mu] .done)
      (seq [.write .config, .write .expiry, .read .config, unlock .mu] .done))])) .done

/-- odohclient.go -/
def system : System Mu X Nothing Nothing Unit where
  code := fun _ => client
  unique := fun _ => false

end Odoh

/-! ### Key store of the validator -/
namespace Keystore

/-- dnssec/keystore.go:11-21: the lock of the map and the lock of an entry -/
inductive L where
  | store
  | entry
deriving DecidableEq, Repr

/-- dnssec/keystore.go:11-21: the map, and of an entry the keys and the DS records -/
inductive X where
  | store
  | keys
  | ds
deriving DecidableEq, Repr

/-- dnssec/keystore.go:135-157 `getItem` -/
def getItem (k : Code L X Nothing Nothing) : Code L X Nothing Nothing :=
  seq [rlock .store, .read .store, runlock .store] <|
  .branch k <|
  seq [lock .store, .read .store] (.branch (seq [unlock .store] k) (seq [.write .store, unlock .store] k))

/-- dnssec/keystore.go:47-73 `addDS` -/
def addDS (k : Code L X Nothing Nothing) : Code L X Nothing Nothing :=
  getItem (seq [lock .entry, .read .ds, .write .ds, unlock .entry] k)

/-- dnssec/keystore.go:75-99 `addDNSKEY` with 23-27 `setDNSKEY` -/
def addDNSKEY (k : Code L X Nothing Nothing) : Code L X Nothing Nothing := getItem (seq [lock .entry, .write .keys, unlock .entry] k)

/-- dnssec/keystore.go:101-115 `getDNSKEY` -/
def getDNSKEY (k : Code L X Nothing Nothing) : Code L X Nothing Nothing :=
  seq [rlock .store, .read .store, runlock .store] (.branch k (seq [rlock .entry, .read .keys, .read .keys, runlock .entry] k))

/-- dnssec/keystore.go:117-131 `getDS` -/
def getDS (k : Code L X Nothing Nothing) : Code L X Nothing Nothing :=
  seq [rlock .store, .read .store, runlock .store] (.branch k (seq [rlock .entry, .read .ds, .read .ds, runlock .entry] k))

/-- the calls of the validator (dnssec/validator.go:61-360), any number of times -/
def client : Code L X Nothing Nothing := .loop (choice [addDS .done, addDNSKEY .done, getDNSKEY .done, getDS .done]) .done

/-- dnssec/keystore.go -/
def system : System L X Nothing Nothing Unit where
  code := fun _ => client
  unique := fun _ => false

end Keystore

/-! ### Listeners -/
namespace Listener

/-- adminlistener.go:17-30, dohlistener.go:28-42, doqlistener.go:19-32: the servers and sockets -/
inductive X where
  | httpServer
  | quicServer
  | quicTransport
  | quicConn
deriving DecidableEq, Repr

/-- the goroutine that serves (as in dohlistener.go:120), and those that stop the listener (as in dohlistener.go:187) -/
inductive R where
  | start
  | stop
deriving DecidableEq, Repr

/-- adminlistener.go:76-132, dohlistener.go:120-184, doqlistener.go:81-124 `Start`, any number of times -/
def start : Code Mu X Nothing Nothing :=
  .loop (choice [.done, seq [lock .mu, .write .httpServer, unlock .mu] .done,
    seq [lock .mu, .write .quicServer, .write .quicTransport, .write .quicConn, unlock .mu] .done]) .done

/-- adminlistener.go:135-161, dohlistener.go:187-209, doqlistener.go:127-143 `Stop`, any number of times -/
def stop : Code Mu X Nothing Nothing :=
  .loop (seq [lock .mu, .read .httpServer, .read .quicServer, .read .quicTransport, .read .quicConn, unlock .mu] .done) .done

/-- adminlistener.go, dohlistener.go, doqlistener.go -/
def system : System Mu X Nothing Nothing R where
  code := fun r => match r with
    | .start => start
    | .stop => stop
  unique := fun _ => false

end Listener

/-! ### Socket server -/
namespace XSocket

/-- xsocketserver_linux.go:38-45: the listening socket and the mark -/
inductive X where
  | ln
  | closed
deriving DecidableEq, Repr

/-- the goroutine that serves (xsocketserver_linux.go:56-79), and those that stop the server (82-90) -/
inductive R where
  | start
  | stop
deriving DecidableEq, Repr

/-- xsocketserver_linux.go:56-79 `Start` -/
def start : Code Mu X Nothing Nothing :=
  .branch .done (seq [lock .mu, .read .closed] (.branch (seq [unlock .mu] .done) (seq [.write .ln, unlock .mu] .done)))

/-- xsocketserver_linux.go:82-90 `Stop`, any number of times -/
def stop : Code Mu X Nothing Nothing := .loop (seq [lock .mu, .write .closed, .read .ln, .read .ln, unlock .mu] .done) .done

/-- xsocketserver_linux.go -/
def system : System Mu X Nothing Nothing R where
  code := fun r => match r with
    | .start => start
    | .stop => stop
  unique := fun _ => false

end XSocket

/-! ### Watcher of network namespaces -/
namespace Watcher

/-- netns_watch_linux.go:47-57: the lock of the watcher; `once` stands for the `sync.Once` -/
inductive L where
  | once
  | mu
deriving DecidableEq, Repr

/-- netns_watch_linux.go:40-57: the watcher, its error, the list of subscribers, and of a subscriber what was last delivered -/
inductive X where
  | nsWatcher
  | nsWatcherErr
  | subs
  | last
  | hasLast
deriving DecidableEq, Repr

/-- netns_watch_linux.go:92: `go w.read()`, which has the watcher as its receiver -/
inductive G where
  | read
deriving DecidableEq, Repr

/-- supervisors of listeners (netns_watch_linux.go:68-77), and the goroutine that reads the events (netns_watch_linux.go:92) -/
inductive R where
  | subscriber
  | read
deriving DecidableEq, Repr

/-- netns_watch_linux.go:231-242 `notifyLocked` -/
def notifyLocked (k : Code L X Nothing G) : Code L X Nothing G :=
  seq [.read .hasLast] <|
  .branch (seq [.read .last] (.branch k (.branch k (seq [.write .last, .write .hasLast] k))))
    (.branch k (seq [.write .last, .write .hasLast] k))

/-- netns_watch_linux.go:68-77 `SubscribeNetNS` with 149-174 `subscribe` and the returned `cancel`, any number of times -/
def subscriber : Code L X Nothing G :=
  let leave : Code L X Nothing G :=
    .branch .done (seq [lock .mu, .read .subs] (.branch (seq [unlock .mu] .done) (seq [.read .subs, .write .subs, unlock .mu] .done)))
  let use : Code L X Nothing G :=
    seq [unlock .once, .read .nsWatcherErr] (.branch .done
      (seq [.read .nsWatcher, lock .mu, .read .subs, .write .subs] (notifyLocked (seq [unlock .mu] leave))))
  .loop (seq [lock .once] (.branch (seq [.ensure .nsWatcher, .ensure .nsWatcherErr] use)
    (seq [.spawn .read, .ensure .nsWatcher, .ensure .nsWatcherErr] use))) .done

/-- netns_watch_linux.go:97-138 `read` with 140-147 `dispatch` -/
def reader : Code L X Nothing G :=
  seq [.start .read] <|
  .loop (seq [lock .mu, .read .subs] (.loop (.branch .done (notifyLocked .done)) (seq [unlock .mu] .done))) .done

/-- netns_watch_linux.go -/
def system : System L X Nothing G R where
  code := fun r => match r with
    | .subscriber => subscriber
    | .read => reader
  unique := fun _ => false

end Watcher

/-! ### SOCKS5 dialer -/
namespace Socks

/-- socks5.go:17: `once` -/
inductive L where
  | once
deriving DecidableEq, Repr

/-- socks5.go:18: `addr` -/
inductive X where
  | addr
deriving DecidableEq, Repr

/-- socks5.go:105-156 `Dial`, any number of times. Within `Do` the address may be set a second time (line 141), which is part of
setting it. -/
def client : Code L X Nothing Nothing := .loop (seq [lock .once, .ensure .addr, unlock .once, .read .addr, .read .addr] .done) .done

/-- socks5.go -/
def system : System L X Nothing Nothing Unit where
  code := fun _ => client
  unique := fun _ => false

end Socks

end Verif.Races
