import Verif.Model.Rate
import Verif.Model.Prefetch
import Verif.Model.Bytes
/-
cmd/routedns/main.go:475-1085: the numbers, times and addresses that sections give to elements with state, and what is used for those left out.

Simplified: text stays text; `int` and `uint` have 64 bits; the numbers are those the TOML library accepted for the types in cmd/routedns/config.go.
-/
namespace Verif.Settings
open Verif

/-- Times in nanoseconds: `time.Second`, `time.Millisecond`. As in cmd/routedns/main.go:500, 794. -/
abbrev sec : Int := 1000000000
/-- `time.Millisecond`. As in cmd/routedns/main.go:794-801. -/
abbrev msec : Int := 1000000

/-- Products of type `time.Duration` have 64 bits. As in cmd/routedns/main.go:500, 509, 538, 601, 772, 788. -/
def duration (n unit : Int) : Int := toI64 (toU64 (n * unit))

/-- cmd/routedns/config.go:91-107 `cacheBackend` -/
structure Backend where
  type : Str := []
  size : Int := 0
  gcPeriod : Int := 0
  filename : Str := []
  saveInterval : Int := 0
  network : Str := []
  address : Str := []
  username : Str := []
  password : Str := []
  db : Int := 0
  keyPrefix : Str := []
  maxRetries : Int := 0
  minRetryBackoff : Int := 0
  maxRetryBackoff : Int := 0
  syncSet : Bool := false
deriving DecidableEq, Repr

/-- cmd/routedns/config.go:109-224 `group`: the fields used here -/
structure Section where
  failurePenalty : Nat := 0
  backend : Option Backend := none
  gcPeriod : Int := 0
  cacheSize : Int := 0
  refresh : Int := 0
  blocklistRefresh : Int := 0
  allowlistRefresh : Int := 0
  requests : Nat := 0
  window : Nat := 0
  prefix4 : Nat := 0
  prefix6 : Nat := 0
  port : Int := 0
  /-- in nanoseconds -/
  prefetchWindow : Int := 0
  prefetchThreshold : Nat := 0
  prefetchCacheSize : Int := 0
  prefetchMaxItems : Int := 0
  luaConcurrency : Nat := 0
deriving DecidableEq, Repr

/-- cmd/routedns/main.go:1001-1012 with rate-limiter.go:45-54 -/
def rateLimiter (s : Section) : Rate.Options :=
  Rate.Options.withDefaults { requests := s.requests, window := s.window, prefix4 := s.prefix4, prefix6 := s.prefix6 }

/-- cmd/routedns/main.go:507-510: nanoseconds -/
def failurePenalty (s : Section) : Int := duration s.failurePenalty sec

/-- cache-memory.go:24-36 `MemoryBackendOptions`; times in nanoseconds -/
structure Memory where
  capacity : Int
  gcPeriod : Int
  filename : Str := []
  saveInterval : Int := 0
deriving DecidableEq, Repr

/-- cache-memory.go:40-43, the default of `NewMemoryBackend` -/
def newMemory (m : Memory) : Memory := if m.gcPeriod = 0 then { m with gcPeriod := 60 * sec } else m

/-- cmd/routedns/main.go:802-816: `RedisBackendOptions`; times in nanoseconds -/
structure Redis where
  network : Str
  addr : Str
  username : Str
  password : Str
  db : Int
  contextTimeout : Bool
  maxRetries : Int
  minRetryBackoff : Int
  maxRetryBackoff : Int
  keyPrefix : Str
  syncSet : Bool
deriving DecidableEq, Repr

/-- Where a cache keeps its entries, cmd/routedns/main.go:782-821 -/
inductive Store where
  | memory (m : Memory)
  | redis (r : Redis)
deriving DecidableEq, Repr

/-- cmd/routedns/main.go:794-801 -/
def backoff (n : Int) : Int := if n = -1 then -1 else duration n msec

/-- cmd/routedns/main.go:771-822 and cache.go:182-188: the store of a cache; `none`: the section is rejected -/
def store (s : Section) : Option Store := match s.backend with
  | none => some (.memory (newMemory { capacity := s.cacheSize, gcPeriod := duration s.gcPeriod sec }))
  | some b =>
    if b.type = str "memory" then
      some (.memory (newMemory { capacity := b.size, gcPeriod := duration b.gcPeriod sec, filename := b.filename, saveInterval := duration b.saveInterval sec }))
    else if b.type = str "redis" then
      some (.redis {
        network := b.network, addr := b.address, username := b.username, password := b.password, db := b.db, contextTimeout := true
        maxRetries := b.maxRetries, minRetryBackoff := backoff b.minRetryBackoff, maxRetryBackoff := backoff b.maxRetryBackoff
        keyPrefix := b.keyPrefix, syncSet := b.syncSet })
    else none

/-- The types of elements with lists, cmd/routedns/main.go:525-612, 834-950 -/
inductive Lists where
  | blocklist
  | blocklistV2
  | responseIp
  | responseName
  | client
deriving DecidableEq, Repr

/-- cmd/routedns/main.go:538, 601, 868, 907, 944: how often the blocklist is reloaded, nanoseconds -/
def blocklistRefresh (s : Section) : Lists → Int
  | .blocklist => duration s.refresh sec
  | _ => duration s.blocklistRefresh sec

/-- cmd/routedns/main.go:604: how often the allowlist is reloaded, nanoseconds; only blocklist-v2 has one -/
def allowlistRefresh (s : Section) : Lists → Int
  | .blocklistV2 => duration s.allowlistRefresh sec
  | _ => 0

/-- cmd/routedns/main.go:666-671 with fastest-tcp.go:49-53: the port probed -/
def probePort (s : Section) : Int := if s.port = 0 then 443 else s.port

/-- prefetch.go:26-31 `PrefetchOptions`; the window in nanoseconds -/
structure Prefetch where
  window : Int
  threshold : Nat
  cacheSize : Int
  maxItems : Int
deriving DecidableEq, Repr

/-- cmd/routedns/main.go:823-833 with prefetch.go:41-50 -/
def prefetch (s : Section) : Prefetch :=
  { window := if s.prefetchWindow = 0 then 3600 * sec else s.prefetchWindow
    threshold := if s.prefetchThreshold = 0 then 5 else s.prefetchThreshold
    cacheSize := if s.prefetchCacheSize = 0 then toI64 (toU64 (s.prefetchMaxItems * 3)) else s.prefetchCacheSize
    maxItems := s.prefetchMaxItems }

/-- cmd/routedns/main.go:1038-1042 with lua.go:27-31: how many scripts run at once -/
def luaConcurrency (s : Section) : Nat := if s.luaConcurrency = 0 then 4 else s.luaConcurrency

end Verif.Settings
