import Verif.Model.CacheFile
/-
cache-memory.go:41-57 and 163-221: a memory cache with a file, over any number of runs of the program. A run ends at any moment and in any way; the file stays, and
the next run starts with it.

What `writeFileAtomic` guarantees (C45) is taken from there: after a save the file has all records, and a save that fails or is cut short leaves the file as it was, so that
such saves are no events. The seed of the hash is new in every run; options may be changed between runs.
-/
namespace Verif.CacheLives
open Verif Verif.CacheM

/-- Everything that can happen to the cache and its file: each event is one locked region, a save, or the start of the program. cache-memory.go:41-57, 163-221. -/
inductive Ev (H : Type) where
  /-- cache.go:321-360 `storeInCache` of an upstream response, at a time -/
  | store (q m : Msg) (now : Int)
  | get (q : Msg)
  | evict (q : Msg)
  | gc (now : Int)
  | flush
  /-- cache-memory.go:170-193 `writeToFile`, from `intervalSave` or `Close` -/
  | save
  /-- the program ends, and starts with this hash, these options and this capacity; `n` records of the file are read before an error (cache-memory.go:52 ignores it) -/
  | start (hash : LruKey → H) (o : Opts) (cap : Int) (n : Nat)

/-- The cache, its options and the file, cache-memory.go:41-57, 163-221 -/
structure Sys (H : Type) where
  hash : LruKey → H
  opts : Opts
  cache : State H
  /-- the records in the file; none if there is no file -/
  file : List FileRec

variable {H : Type} [DecidableEq H]

/-- The environment of the present run. lru-cache.go:129-141: the seed of the hash is made in `newLRUCache`. -/
def Sys.env (env : Env H) (s : Sys H) : Env H := { env with hash := s.hash }

/-- One event; `none` is a panic. cache-memory.go:41-57, 163-221; the lines are given at the events. -/
def step (env : Env H) (s : Sys H) : Ev H → Option (Sys H)
  | .store q m now => do return { s with cache := ← storeInCache (s.env env) s.opts s.cache q m now }
  | .get q => do return { s with cache := (← lookupGet (s.env env) s.cache q).1 }
  | .evict q => do return { s with cache := ← evict (s.env env) s.cache q }
  | .gc now => do return { s with cache := ← gc s.cache now }
  | .flush => some { s with cache := flush s.cache }
  | .save => do return { s with file := ← saveFile s.cache }
  | .start hash o cap n => do
    return { hash := hash, opts := o, cache := ← loadFile { env with hash := hash } (Lru.new cap) (s.file.take n), file := s.file }

/-- Any number of events, cache-memory.go:41-57, 163-221 -/
def run (env : Env H) : Sys H → List (Ev H) → Option (Sys H)
  | s, [] => some s
  | s, e :: es => do run env (← step env s e) es

/-- The first start, without a file. cache-memory.go:41-57. -/
def first (hash : LruKey → H) (o : Opts) (cap : Int) : Sys H := ⟨hash, o, Lru.new cap, []⟩

end Verif.CacheLives
