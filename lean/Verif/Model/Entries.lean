import Verif.Model.Upkeep
/-
The gauge `entries` of a cache in memory: cache.go:190-197, beside the cache and the work in its background (`Upkeep`). Times are nanoseconds.
-/
namespace Verif.Entries
open Verif Verif.Upkeep

/-- cache.go:193 -/
def minute : Int := 60 * 1000000000

/-- Where the goroutine is. cache.go:191-197. -/
inductive Watch where
  /-- in `time.Sleep` until this time or later -/
  | asleep (wake : Int)
  /-- between cache.go:194 and cache.go:195, since this time, with this size -/
  | measured (since : Int) (size : Nat)
deriving DecidableEq, Repr

/-- The cache with its goroutines, that of the gauge, and the gauge. cache.go:168-200. -/
structure Watched (H : Type) where
  kept : Kept H
  watch : Watch
  gauge : Int := 0

/-- What can happen, cache.go:190-197 -/
inductive WEv (H : Type) where
  /-- anything in `Upkeep` -/
  | other (e : KEv H)
  /-- cache.go:194, which locks the cache (cache-memory.go:157-161) -/
  | measure
  /-- cache.go:195 -/
  | emit

variable {H : Type} [DecidableEq H]

/-- cache.go:168-200 `NewCache`, with a backend that was just started -/
def startWatch (k : Kept H) : Watched H := { kept := k, watch := .asleep (k.now + minute) }

/-- cache.go:190-197 and cache-memory.go:59-221: one step -/
def wstep (env : CacheM.Env H) (m : Settings.Memory) (s : Watched H) : WEv H → Option (Watched H)
  | .other e => (kstep env m s.kept e).map fun k => { s with kept := k }
  | .measure => match s.watch with
    | .asleep u => if u ≤ s.kept.now then some { s with watch := .measured s.kept.now (Lru.size s.kept.sys.cache) } else none
    | _ => none
  | .emit => match s.watch with
    | .measured _ n => some { s with watch := .asleep (s.kept.now + minute), gauge := n }
    | _ => none

/-- cache.go:190-197 and cache-memory.go:59-221: any number of steps -/
def wrun (env : CacheM.Env H) (m : Settings.Memory) : Watched H → List (WEv H) → Option (Watched H)
  | s, [] => some s
  | s, e :: es => (wstep env m s e).bind (wrun env m · es)

end Verif.Entries
