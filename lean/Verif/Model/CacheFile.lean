import Verif.Model.Cache
/-
lru-cache.go:51-127, 260-285 and cache-memory.go:170-211: saving the cache to a file and loading it.
The JSON text itself is not modelled: `encoding/json` is taken to return the records it wrote.
-/
namespace Verif.CacheM
open Verif

/-- lru-cache.go:58-68 `cacheItemJSON`/`cacheAnswerJSON`. Times are the unix nanoseconds that
`nanoTime`/`unixNano` (lru-cache.go:89-101) convert from and to. -/
structure FileRec where
  key : LruKey
  timestamp : Int
  expiry : Int
  prefetch : Bool
  msg : Str
deriving DecidableEq, Repr

/-- lru-cache.go:73-83 `newCacheItemJSON` -/
def toRecord (b : Str) : Option FileRec := do
  return { key := ← Blob.key? b, timestamp := ← Blob.timestamp? b, expiry := ← Blob.expiry? b,
           prefetch := ← Blob.prefetch? b, msg := ← Blob.message? b }

/-- lru-cache.go:111-127 `toCacheBlob`; `none` is `false`: the record is skipped. -/
def toCacheBlob (decode : Str → Option Msg) (r : FileRec) : Option Str :=
  if r.key.name = [] ∨ r.msg = [] then none
  else match decode r.msg with
    | none => none
    | some _ => Blob.newFromWire r.key r.prefetch r.timestamp r.expiry r.msg

variable {H : Type} [DecidableEq H]

/-- lru-cache.go:260-268 `serialize`: the records in file order; `none` is a panic. -/
def saveFile (c : State H) : Option (List FileRec) := do
  (← Lru.serialize c).mapM toRecord

/-- lru-cache.go:270-285 `deserialize` into cache `c`. -/
def loadFile (env : Env H) : State H → List FileRec → Option (State H)
  | c, [] => some c
  | c, r :: rest =>
    match toCacheBlob env.decode r with
    | none => loadFile env c rest
    | some blob => do
      let c ← Lru.addKey env.hash matchKey c r.key blob
      loadFile env c rest

end Verif.CacheM
