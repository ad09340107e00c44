import Verif.Model.Cache
/-
cache-redis.go: the Redis cache backend.

Outside the model: the Redis server is a map from keys to values with a deadline (`Server`), the texts of
classes, types and addresses are parameters (`dns.Class.String`, `dns.Type.String`, `net.IP.String`).
Failing commands are not modelled (they are misses or lost writes).
-/
namespace Verif.Redis
open Verif Verif.CacheM

/-- The byte `':'`. cache-redis.go:258-295. -/
abbrev colon : UInt8 := 58
/-- The byte `'/'`. cache-redis.go:258-295. -/
abbrev slash : UInt8 := 47

/-- Decimal digits, most significant first; `fuel` bounds the number of digits. For `strconv.FormatUint`, cache-redis.go:258-295. -/
def digits : Nat → Nat → Str
  | 0, _ => []
  | fuel + 1, n => if n < 10 then [(48 + n).toUInt8] else digits fuel (n / 10) ++ [(48 + n % 10).toUInt8]
/-- `strconv.FormatUint(n, 10)`. Go library; used in cache-redis.go:258-295. -/
def decimal (n : Nat) : Str := digits (n + 1) n

/-- Text forms used by the key. cache-redis.go:258-295. -/
structure Texts where
  cls : Nat → Str
  type : Nat → Str
  ip : Str → Str

/-- cache-redis.go:286-291: the subnet options, one after the other. -/
def ecsText (tx : Texts) : List EOpt → Str
  | [] => []
  | .ecs _ mask _ addr :: rest => tx.ip addr ++ slash :: decimal mask ++ ecsText tx rest
  | _ :: rest => ecsText tx rest

/-- cache-redis.go:276-293: the part after the CD marker. -/
def ednsText (tx : Texts) (q : Msg) : Str :=
  match q.edns? with
  | none => []
  | some e => (if e.dnssecOk then str "true" else str "false") ++ colon :: ecsText tx e.options

/-- cache-redis.go:258-295 `keyFromQuery`; `none` is the panic without a question. -/
def keyFromQuery (tx : Texts) (pre : Str) (q : Msg) : Option Str := do
  let qu ← q.question.head?
  return pre ++ (lower qu.name ++ colon :: (tx.cls qu.qclass ++ colon :: (tx.type qu.qtype ++ colon ::
    ((if q.cd then str "cd" else []) ++ colon :: ednsText tx q))))

/-- cache-redis.go:52-87 `encodeCacheAnswer`. `ts` is `Timestamp.Unix()`. Simplified: the result is the bytes,
regardless of the buffer they end up in. -/
def encode (pack : Msg → Option Str) (ts : Int) (prefetch : Bool) (m : Msg) : Option Str := do
  let wire ← pack m
  return [1, if prefetch then 1 else 0] ++ beBytes 8 (toU64 ts) ++ wire

/-- cache-redis.go:91-120 `decodeCacheAnswer`: timestamp, flag and message; `none` is the error. -/
def decode (unpack : Str → Option Msg) (b : Str) : Option (Int × Bool × Msg) :=
  if b.length < 10 then none
  else do
    let version ← b[0]?
    if version ≠ 1 then none
    else
      let flags ← b[1]?
      let ts ← be64? b 2
      let m ← unpack (b.drop 10)
      return (toI64 ts, flags &&& 1 ≠ 0, m)

/-- The keys of the server, with value and deadline in nanoseconds. The Redis server behind cache-redis.go:132-214. -/
abbrev Server := List (Str × Str × Int)

/-- `SET key value PX ttl` arriving at time `now`. Sent by cache-redis.go:177-183. -/
def Server.set (s : Server) (key value : Str) (ttl now : Int) : Server :=
  (key, value, now + ttl) :: s.filter (fun e => ¬ e.1 = key)

/-- `GET key` at time `now`: expired keys do not exist. Sent by cache-redis.go:185-214. -/
def Server.get (s : Server) (key : Str) (now : Int) : Option Str :=
  ((s.find? (fun e => e.1 = key)).filter (fun e => decide (now < e.2.2))).map (·.2.1)

/-- cache-redis.go:132-147 `Store` at time `now`: the write that is issued, if any. -/
def storeWrite (tx : Texts) (pre : Str) (pack : Msg → Option Str) (q m : Msg) (ts expiry : Int) (prefetch : Bool) (now : Int) :
    Option (Option (Str × Str × Int)) :=
  if expiry - now ≤ 0 then some none
  else do
    let key ← keyFromQuery tx pre q
    match encode pack (ts / second) prefetch m with
    | none => return none
    | some v => return some (key, v, expiry - now)

/-- cache-redis.go:185-214 `Lookup` at time `now`; `none` is a panic. `a.Timestamp.UnixNano()` is an `int64`. -/
def lookup (tx : Texts) (pre : Str) (unpack : Str → Option Msg) (s : Server) (q : Msg) (now : Int) : Option (Option (Msg × Bool)) := do
  let key ← keyFromQuery tx pre q
  match s.get key now with
  | none => return none
  | some v =>
    match decode unpack v with
    | none => return none
    | some (ts, pf, m) => return (ageCachedAnswer m q (cacheAge now (toI64 (toU64 (ts * second))))).map (·, pf)

end Verif.Redis
