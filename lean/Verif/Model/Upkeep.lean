import Verif.Model.CacheLives
import Verif.Model.Settings
/-
What goes on in the background, with times: cache-memory.go:40-57, 127-155, 213-221 (removing expired entries, saving the cache) and blocklist.go:70-86, 196-225 with
client-blocklist.go:48-51, 118-140, response-blocklist-ip.go:58-61, 94-114 and response-blocklist-name.go:43-46, 73-87 (reloading lists). Times are nanoseconds.

Each goroutine is a loop `for { time.Sleep(period); work }`. Sleeping takes the time asked for or longer, work takes any time. Times do not overflow.
-/
namespace Verif.Upkeep
open Verif

/-- Where such a loop is, cache-memory.go:132-134, 217-220, blocklist.go:197-199 -/
inductive Phase where
  /-- in `time.Sleep` until this time or later -/
  | asleep (wake : Int)
  /-- working since this time -/
  | working (since : Int)
deriving DecidableEq, Repr

/-! ### Lists -/

/-- A list that is reloaded, blocklist.go:196-210: the clock, the loop (none if none was started), the list in use, and when reloads began, newest first -/
structure Reloaded (γ : Type) where
  now : Int
  loop : Option Phase
  list : γ
  begun : List Int := []

/-- What can happen to a list, blocklist.go:196-210 -/
inductive LEv (γ : Type) where
  | tick (t : Int)
  /-- 198-201: a reload begins -/
  | begin
  /-- 206-208: it has brought this list -/
  | swap (l : γ)
  /-- 202-205: it has failed -/
  | fail

/-- blocklist.go:78-84, client-blocklist.go:48-51, response-blocklist-ip.go:58-61, response-blocklist-name.go:43-46: the loop is started if a period was given -/
def startList {γ : Type} (period now : Int) (list : γ) : Reloaded γ :=
  { now := now, loop := if period > 0 then some (.asleep (now + period)) else none, list := list }

/-- blocklist.go:196-210, 211-225, client-blocklist.go:118-140, response-blocklist-ip.go:94-114, response-blocklist-name.go:73-87: one step -/
def lstep {γ : Type} (period : Int) (s : Reloaded γ) : LEv γ → Option (Reloaded γ)
  | .tick t => if s.now < t then some { s with now := t } else none
  | .begin => match s.loop with
    | some (.asleep u) => if u ≤ s.now then some { s with loop := some (.working s.now), begun := s.now :: s.begun } else none
    | _ => none
  | .swap l => match s.loop with
    | some (.working _) => some { s with loop := some (.asleep (s.now + period)), list := l }
    | _ => none
  | .fail => match s.loop with
    | some (.working _) => some { s with loop := some (.asleep (s.now + period)) }
    | _ => none

/-- blocklist.go:196-210, any number of steps -/
def lrun {γ : Type} (period : Int) : Reloaded γ → List (LEv γ) → Option (Reloaded γ)
  | s, [] => some s
  | s, e :: es => (lstep period s e).bind (lrun period · es)

/-! ### The cache in memory -/

variable {H : Type} [DecidableEq H]

/-- The cache and its file, the clock, the goroutine of `startGC`, that of `intervalSave` (none if it has returned), and when saves were done, newest first. cache-memory.go:40-57. -/
structure Kept (H : Type) where
  sys : CacheLives.Sys H
  now : Int
  gc : Phase
  saver : Option Phase
  saves : List Int := []

/-- What can happen to the cache, cache-memory.go:59-221 -/
inductive KEv (H : Type) where
  | tick (t : Int)
  /-- queries use the cache: one locked region -/
  | use (e : CacheLives.Ev H)
  /-- cache-memory.go:133-135: reads the clock -/
  | gcWakes
  /-- cache-memory.go:137-146 -/
  | gcSweeps
  /-- cache-memory.go:218-219 -/
  | saveBegins
  /-- cache-memory.go:170-193: what is saved is what the cache has at that moment -/
  | saved
  | saveFails

/-- cache-memory.go:40-57, 127-134, 213-218: `NewMemoryBackend` after the file has been loaded -/
def startCache (m : Settings.Memory) (now : Int) (s : CacheLives.Sys H) : Kept H :=
  { sys := s, now := now, gc := .asleep (now + m.gcPeriod)
    saver := if m.filename = [] ∨ m.saveInterval = 0 then none else some (.asleep (now + m.saveInterval)) }

/-- What queries do: cache-memory.go:59-125. A response is stored with a time read before (cache.go:322). -/
def usable (now : Int) : CacheLives.Ev H → Bool
  | .store _ _ t => t ≤ now
  | .get _ => true
  | .evict _ => true
  | .flush => true
  | _ => false

/-- cache-memory.go:59-221: one step; `none`: not possible, or a panic -/
def kstep (env : CacheM.Env H) (m : Settings.Memory) (s : Kept H) : KEv H → Option (Kept H)
  | .tick t => if s.now < t then some { s with now := t } else none
  | .use e => if usable s.now e then (CacheLives.step env s.sys e).map fun x => { s with sys := x } else none
  | .gcWakes => match s.gc with
    | .asleep u => if u ≤ s.now then some { s with gc := .working s.now } else none
    | _ => none
  | .gcSweeps => match s.gc with
    | .working g => (CacheLives.step env s.sys (.gc g)).map fun x => { s with sys := x, gc := .asleep (s.now + m.gcPeriod) }
    | _ => none
  | .saveBegins => match s.saver with
    | some (.asleep u) => if u ≤ s.now then some { s with saver := some (.working s.now) } else none
    | _ => none
  | .saved => match s.saver with
    | some (.working _) =>
      (CacheLives.step env s.sys .save).map fun x => { s with sys := x, saver := some (.asleep (s.now + m.saveInterval)), saves := s.now :: s.saves }
    | _ => none
  | .saveFails => match s.saver with
    | some (.working _) => some { s with saver := some (.asleep (s.now + m.saveInterval)) }
    | _ => none

/-- cache-memory.go:59-221, any number of steps -/
def krun (env : CacheM.Env H) (m : Settings.Memory) : Kept H → List (KEv H) → Option (Kept H)
  | s, [] => some s
  | s, e :: es => (kstep env m s e).bind (krun env m · es)

end Verif.Upkeep
