import Verif.Model.Dns
/-
cache-redis.go:216-239: emptying the Redis cache, as a step machine.

The server is the set of its keys; other clients (among them this program's own writes) add and remove keys at any time. What `SCAN`
replies is part of the events; what Redis promises about it is stated in the specification. Values, deadlines and the number of keys
asked for at a time are not modelled.
-/
namespace Verif.RedisFlush
open Verif

/-- The byte `'*'`. cache-redis.go:216-239. -/
abbrev star : UInt8 := 42

/-- Where cache-redis.go:216-239 is -/
inductive Phase where
  /-- about to send `SCAN` with that cursor -/
  | scanning (cursor : Nat)
  /-- about to send `DEL` -/
  | deleting (keys : List Str) (next : Nat)
  | done
  /-- gave up: a command failed, or the five seconds are over -/
  | failed
deriving DecidableEq, Repr

/-- The Redis server and the call of cache-redis.go:216-239 -/
structure Sys where
  db : List Str
  ph : Phase
deriving DecidableEq, Repr

/-- The steps of cache-redis.go:216-239, and what others do -/
inductive Ev where
  /-- somebody else writes a key -/
  | add (k : Str)
  /-- somebody else deletes a key, or it expires -/
  | remove (k : Str)
  /-- `SCAN cursor MATCH pat`, with the reply -/
  | scan (pat : Str) (cursor : Nat) (keys : List Str) (next : Nat)
  | scanFailed
  /-- `DEL keys` -/
  | del (keys : List Str)
  /-- `DEL` failed; it may have been carried out -/
  | delFailed (carriedOut : Bool)
deriving DecidableEq, Repr

/-- cache-redis.go:235-238 -/
def afterBatch (next : Nat) : Phase := if next = 0 then .done else .scanning next

/-- cache-redis.go:216-239, one command or one action of others; `none`: not possible. -/
def step (pre : Str) (s : Sys) : Ev → Option Sys
  | .add k => some { s with db := k :: s.db }
  | .remove k => some { s with db := s.db.filter (· ≠ k) }
  | .scan pat c keys next => match s.ph with
    | .scanning cursor =>
      if c = cursor ∧ pat = pre ++ [star] then
        some { s with ph := if keys.length > 0 then .deleting keys next else afterBatch next }
      else none
    | _ => none
  | .scanFailed => match s.ph with
    | .scanning _ => some { s with ph := .failed }
    | _ => none
  | .del ks => match s.ph with
    | .deleting keys next => if ks = keys then some { db := s.db.filter (fun k => ¬ k ∈ ks), ph := afterBatch next } else none
    | _ => none
  | .delFailed b => match s.ph with
    | .deleting keys _ => some { db := if b then s.db.filter (fun k => ¬ k ∈ keys) else s.db, ph := .failed }
    | _ => none

/-- A run of `Flush`, with what others do meanwhile. cache-redis.go:216-239. -/
def run (pre : Str) : Sys → List Ev → Option Sys
  | s, [] => some s
  | s, e :: es => (step pre s e).bind (run pre · es)

/-- cache-redis.go:221: `Flush` starts with cursor 0. -/
def start (db : List Str) : Sys := ⟨db, .scanning 0⟩

end Verif.RedisFlush
