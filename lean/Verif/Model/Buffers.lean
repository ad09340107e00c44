import Verif.Model.Bytes
/-
cache.go:80-100, cache-blob.go:73-89, cache-redis.go:52-87 and 132-183: the pool of encode buffers shared by the cache
backends, and the calls that use it, as a step machine.

A run is any list of events, i.e. any interleaving of any number of calls, in any number of backends. Memory is modelled:
an array has an identity, a fixed length and contents that everybody holding it can read and write. A `*[]byte` of the pool is a
cell naming an array; the slice in it always starts at the start of the array, so that its capacity is the array's length.
Contract of `sync.Pool`: `Get` returns any value put earlier and not returned since, or a new one; the pool may forget
values at any time. Contract of `PackBuffer` (miekg/dns): it fails, or packs into the buffer given, or into a new array; in the
buffer given it may have written anything before. Contract of the Redis client: it reads the value any number of times
while `Set` runs, not afterwards.
-/
namespace Verif.Buffers
open Verif

/-- Replaces one value of a function. A helper for assignments in cache.go:80-100, cache-blob.go:73-89, cache-redis.go:52-87, 132-183. -/
def upd {α : Type} (f : Nat → α) (n : Nat) (v : α) : Nat → α := fun m => if m = n then v else f m

/-- What a call is about: the key, the bytes put in front of the message, and what packing the message yields (`none`: error).
For the memory backend `hdr` is not used. The arguments of cache-blob.go:75 and cache-redis.go:132. -/
structure Item where
  key : Str
  hdr : Str
  wire : Option Str
deriving DecidableEq, Repr

/-- Who makes the call. The callers of the pool, cache.go:82-87. -/
inductive Kind where
  /-- cache-blob.go:75 `newCacheBlob` -/
  | memory
  /-- cache-redis.go:132 `Store` with `SyncSet` -/
  | sync
  /-- cache-redis.go:132 `Store` of the backend with that number -/
  | async (backend : Nat)
deriving DecidableEq, Repr

/-- Where a call is. `p` is `bufPtr`, `a` the array being written or read. cache-blob.go:75-89, cache-redis.go:132-183. -/
inductive Phase where
  | called
  /-- cache-blob.go:82 and cache-redis.go:60: inside `PackBuffer` -/
  | packing (p a : Nat)
  /-- cache-blob.go:86 and cache-redis.go:151: the encoded value is the first `len` bytes of `a` -/
  | encoded (p a len : Nat)
  /-- cache-redis.go:163-169: the goroutine -/
  | writing (p a len : Nat)
  /-- cache-redis.go:166: the buffer is back, the place in the semaphore still taken -/
  | leaving
  | finished
deriving DecidableEq, Repr

/-- One call. `cur` is the caller's item as it is now; `key` the key built at the start of the call; `outs` everything read
out of the buffer: keys and values sent to Redis, or copied into the memory cache. cache-blob.go:75-89, cache-redis.go:132-183. -/
structure Job where
  kind : Kind
  cur : Item
  key : Str := []
  phase : Phase := .called
  outs : List (Str × Str) := []
deriving DecidableEq, Repr

/-- The memory of the pool and of all calls in progress, cache.go:80-100, cache-blob.go:73-89, cache-redis.go:52-87, 132-183 -/
structure Sys where
  mem : Nat → Str
  /-- arrays made so far -/
  arrays : Nat
  cells : Nat → Nat
  /-- cells made so far -/
  ptrs : Nat
  pool : List Nat
  jobs : List Job
  /-- tokens in `asyncWriteSem` of every backend -/
  sem : Nat → Nat
  /-- everything sent to Redis, in the order in which it was sent -/
  log : List (Str × Str)
  /-- a panic -/
  crashed : Bool

/-- The state when the program starts. cache.go:82-87, cache-redis.go:124-131. -/
def init : Sys :=
  { mem := fun _ => [], arrays := 0, cells := fun _ => 0, ptrs := 0, pool := [], jobs := [], sem := fun _ => 0, log := [],
    crashed := false }

/-- cache-redis.go:19 `redisAsyncWriteSemCapacity` -/
def semCapacity : Nat := 256

/-- cache-redis.go:39 `headerSize` -/
def headerSize : Nat := 10

/-- The steps of cache.go:80-100, cache-blob.go:73-89, cache-redis.go:52-87, 132-183; the lines are given at the cases -/
inductive Ev where
  /-- somebody calls `Store` -/
  | call (k : Kind) (it : Item)
  /-- `packBufPool.Get`: the cell `p` out of the pool, or a new one -/
  | take (i : Nat) (p : Option Nat)
  /-- `PackBuffer` writes something into the buffer -/
  | scribble (i : Nat) (b : Str)
  /-- `PackBuffer` returns; `some extra`: it made a new array with that much room to spare -/
  | finish (i : Nat) (alloc : Option Nat)
  /-- the value is read -/
  | use (i : Nat)
  /-- the `select` of an asynchronous store -/
  | spawn (i : Nat)
  /-- `putPackBuf` after use -/
  | release (i : Nat)
  /-- the goroutine gives its token back -/
  | signal (i : Nat)
  /-- the caller changes the message after the call returned -/
  | mutate (i : Nat) (it : Item)
  /-- the pool forgets a cell -/
  | forget (p : Nat)
deriving DecidableEq, Repr

/-- The local variables of one call of cache-blob.go:75-89 or cache-redis.go:132-183 change -/
def Sys.setJob (s : Sys) (i : Nat) (j : Job) : Sys := { s with jobs := s.jobs.set i j }

/-- A new array. `make` in cache.go:84 or inside `PackBuffer`, cache-blob.go:82 and cache-redis.go:60. -/
def Sys.newArray (s : Sys) (b : Str) : Sys := { s with mem := upd s.mem s.arrays b, arrays := s.arrays + 1 }

/-- cache.go:89-92 `putPackBuf`. The length of the slice, which is reset, is not modelled. -/
def Sys.put (s : Sys) (p : Nat) : Sys := { s with pool := p :: s.pool }

/-- cache.go:96-100 `adoptPackBuf` -/
def Sys.adopt (s : Sys) (p a : Nat) : Sys :=
  if (s.mem a).length > (s.mem (s.cells p)).length then { s with cells := upd s.cells p a } else s

/-- cache-blob.go:82 and cache-redis.go:142, 145, 53-56: with the buffer in hand, before packing. The array of the pool is used, unless
it is too short for the header of the Redis encoding. -/
def Sys.begin (s : Sys) (i : Nat) (j : Job) (p : Nat) : Sys :=
  if j.kind ≠ .memory ∧ (s.mem (s.cells p)).length < headerSize then
    (s.newArray (List.replicate (headerSize + 2048) 0)).setJob i { j with key := j.cur.key, phase := .packing p s.arrays }
  else s.setJob i { j with key := j.cur.key, phase := .packing p (s.cells p) }

/-- The encoded value: header and message for Redis, the message alone for the memory backend. cache-redis.go:52-87, cache-blob.go:82-88. -/
def payload (k : Kind) (it : Item) (w : Str) : Str := if k = .memory then w else it.hdr ++ w

/-- cache-blob.go:82-86, cache-redis.go:60-86, 146-151: `PackBuffer` succeeded with `w`. In place, the value is at the start of `a`; otherwise it is in
a new array, which for Redis has exactly the length of the value. `none`: `PackBuffer` cannot have done that. -/
def Sys.encode (s : Sys) (i : Nat) (j : Job) (p a : Nat) (w : Str) : Option Nat → Option Sys
  | none =>
    let v := payload j.kind j.cur w
    if v.length ≤ (s.mem a).length then
      let s1 := { s with mem := upd s.mem a (v ++ (s.mem a).drop v.length) }
      some ((s1.adopt p a).setJob i { j with phase := .encoded p a v.length })
    else none
  | some extra =>
    let v := payload j.kind j.cur w
    let s1 := s.newArray (v ++ List.replicate (if j.kind = .memory then extra else 0) 0)
    some ((s1.adopt p s.arrays).setJob i { j with phase := .encoded p s.arrays v.length })

/-- cache-redis.go:158-174: the `select`; never waits. -/
def Sys.trySpawn (s : Sys) (i : Nat) (j : Job) (b p a len : Nat) : Sys :=
  if s.sem b < semCapacity then
    { s with sem := upd s.sem b (s.sem b + 1) }.setJob i { j with phase := .writing p a len }
  else (s.put p).setJob i { j with phase := .finished }

/-- The value is read and goes out under the key. cache-redis.go:154, 169; cache-blob.go:119-121. -/
def Sys.emit (s : Sys) (i : Nat) (j : Job) (a len : Nat) : Sys :=
  { s with log := if j.kind = Kind.memory then s.log else s.log ++ [(j.key, (s.mem a).take len)] }.setJob i
    { j with outs := j.outs ++ [(j.key, (s.mem a).take len)] }

/-- A step of one of the calls of cache-blob.go:75-89 or cache-redis.go:132-183 -/
def Sys.onJob (s : Sys) (i : Nat) (f : Job → Option Sys) : Option Sys := s.jobs[i]?.bind f

/-- `packBufPool.Get` and what follows up to `PackBuffer`. cache.go:82-87: a new buffer has 2048 bytes. -/
def Sys.take (s : Sys) (i : Nat) (j : Job) : Option Nat → Option Sys
  | some p => if p ∈ s.pool then some ({ s with pool := s.pool.erase p }.begin i j p) else none
  | none => some ({ s.newArray (List.replicate 2048 0) with
      cells := upd s.cells s.ptrs s.arrays, ptrs := s.ptrs + 1 }.begin i j s.ptrs)

/-- `PackBuffer` returns. cache-redis.go:66 panics if there is nothing behind the header, or nothing was packed. -/
def Sys.finish (s : Sys) (i : Nat) (j : Job) (p a : Nat) (alloc : Option Nat) : Option Sys :=
  match j.cur.wire with
  | none => some ((s.put p).setJob i { j with phase := .finished })
  | some w =>
    if j.kind ≠ .memory ∧ ((s.mem a).length ≤ headerSize ∨ w = []) then some { s with crashed := true }
    else s.encode i j p a w alloc

/-- One step; `none`: the event is not possible. cache.go:80-100, cache-blob.go:73-89, cache-redis.go:52-87, 132-183. -/
def step (s : Sys) (e : Ev) : Option Sys :=
  if s.crashed then none
  else match e with
  | .call k it => some { s with jobs := s.jobs ++ [{ kind := k, cur := it }] }
  | .take i p => s.onJob i fun j => match j.phase with
    | .called => s.take i j p
    | _ => none
  | .scribble i b => s.onJob i fun j => match j.phase with
    | .packing _ a => if b.length = (s.mem a).length then some { s with mem := upd s.mem a b } else none
    | _ => none
  | .finish i alloc => s.onJob i fun j => match j.phase with
    | .packing p a => s.finish i j p a alloc
    | _ => none
  | .use i => s.onJob i fun j => match j.phase, j.kind with
    | .encoded _ a len, .memory => some (s.emit i j a len)
    | .encoded _ a len, .sync => some (s.emit i j a len)
    | .writing _ a len, _ => some (s.emit i j a len)
    | _, _ => none
  | .spawn i => s.onJob i fun j => match j.phase, j.kind with
    | .encoded p a len, .async b => some (s.trySpawn i j b p a len)
    | _, _ => none
  | .release i => s.onJob i fun j => match j.phase, j.kind with
    | .encoded p _ _, .memory => some ((s.put p).setJob i { j with phase := .finished })
    | .encoded p _ _, .sync => some ((s.put p).setJob i { j with phase := .finished })
    | .writing p _ _, _ => some ((s.put p).setJob i { j with phase := .leaving })
    | _, _ => none
  | .signal i => s.onJob i fun j => match j.phase, j.kind with
    | .leaving, .async b => some ({ s with sem := upd s.sem b (s.sem b - 1) }.setJob i { j with phase := .finished })
    | _, _ => none
  | .mutate i it => s.onJob i fun j => match j.phase with
    | .writing _ _ _ => some (s.setJob i { j with cur := it })
    | .leaving => some (s.setJob i { j with cur := it })
    | .finished => some (s.setJob i { j with cur := it })
    | _ => none
  | .forget p => if p ∈ s.pool then some { s with pool := s.pool.erase p } else none

/-- A run. cache.go:80-100, cache-blob.go:73-89, cache-redis.go:52-87, 132-183, in any interleaving. -/
def run : Sys → List Ev → Option Sys
  | s, [] => some s
  | s, e :: es => (step s e).bind (run · es)

end Verif.Buffers
