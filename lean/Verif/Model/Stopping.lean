import Verif.Model.CacheFile
/-
Stopping the program: cmd/routedns/main.go:461-471 with 786-792, and cache-memory.go:163-193, 213-221, where caches in memory are saved. Listeners go on while the program stops, so that the
caches go on changing.
-/
namespace Verif.Stopping
open Verif Verif.CacheM

/-- Who saves: cache-memory.go:219 or cache-memory.go:165 -/
inductive Who where
  | interval
  | stop
deriving DecidableEq, Repr

/-- A save that has the lock `saveMu` of its cache: `none` until cache-memory.go:183 has been done. cache-memory.go:170-193. -/
structure Save where
  who : Who
  recs : Option (List FileRec)
deriving DecidableEq, Repr

/-- cmd/routedns/main.go:461-471: waiting for a signal; calling the functions of `onClose`, of which so many have returned; the program has ended -/
inductive Phase where
  | running
  | stopping (done : Nat)
  | ended
deriving DecidableEq, Repr

/-- What the caches have, by position in `onClose`; the saves under way; the files. cmd/routedns/main.go:172, cache-memory.go:19-37. -/
structure Prog (H : Type) where
  mem : Nat → State H
  saving : Nat → Option Save := fun _ => none
  files : Str → Option (List FileRec)
  phase : Phase := .running

/-- What can happen, cmd/routedns/main.go:461-471 and cache-memory.go:163-193; the lines are given at the events -/
inductive Ev (H : Type) where
  /-- queries and the removal of expired entries change a cache: here to anything (C01, C99) -/
  | changes (i : Nat) (c : State H)
  /-- cmd/routedns/main.go:462-464: an interrupt, SIGTERM or SIGHUP -/
  | signal
  /-- cache-memory.go:174: the lock is taken -/
  | begins (i : Nat) (who : Who)
  /-- cache-memory.go:183-185: the cache is locked and encoded -/
  | reads (i : Nat)
  /-- cache-memory.go:180, atomicfile.go: the file is replaced (C45), the lock is given back -/
  | lands (i : Nat)
  /-- cache-memory.go:187-190: the file is left as it was (C45), the lock is given back -/
  | fails (i : Nat)
  /-- cache-memory.go:164, 167: nothing to save -/
  | closes
  /-- cmd/routedns/main.go:471 and 66-70 -/
  | ends

variable {H : Type} [DecidableEq H]

/-- cmd/routedns/main.go:467-469: the next function, whatever the last one returned (main.go:792 drops the error) -/
def advance (p : Phase) : Who → Phase
  | .interval => p
  | .stop => match p with
    | .stopping k => .stopping (k + 1)
    | p => p

/-- Assignment at one place, for the maps of `Prog`. cache-memory.go:19-37. -/
def put {α β : Type} [DecidableEq α] (f : α → β) (a : α) (b : β) : α → β := fun x => if x = a then b else f x

/-- One step. `names` are the file names of the caches in memory that have a `backend`, in the order in which they were built (cmd/routedns/main.go:786-792). The interval of saves is left out:
they may begin at any time (C99 has it). cmd/routedns/main.go:461-471, cache-memory.go:163-193, 213-221. -/
def step (names : List Str) (s : Prog H) : Ev H → Option (Prog H)
  | .changes i c => if s.phase = .ended then none else some { s with mem := put s.mem i c }
  | .signal => match s.phase with
    | .running => some { s with phase := .stopping 0 }
    | .stopping _ => some s
    | .ended => none
  | .begins i who =>
    if s.phase = .ended ∨ s.saving i ≠ none ∨ (names.getD i []) = [] ∨ (who = .stop ∧ s.phase ≠ .stopping i) then none
    else some { s with saving := put s.saving i (some ⟨who, none⟩) }
  | .reads i => match s.phase, s.saving i with
    | .ended, _ => none
    | _, some ⟨who, none⟩ => (saveFile (s.mem i)).map fun recs => { s with saving := put s.saving i (some ⟨who, some recs⟩) }
    | _, _ => none
  | .lands i => match s.phase, s.saving i with
    | .ended, _ => none
    | p, some ⟨who, some recs⟩ => some { s with files := put s.files (names.getD i []) (some recs), saving := put s.saving i none, phase := advance p who }
    | _, _ => none
  | .fails i => match s.phase, s.saving i with
    | .ended, _ => none
    | p, some ⟨who, _⟩ => some { s with saving := put s.saving i none, phase := advance p who }
    | _, none => none
  | .closes => match s.phase with
    | .stopping k => if names[k]? = some [] then some { s with phase := .stopping (k + 1) } else none
    | _ => none
  | .ends => if s.phase = .stopping names.length then some { s with phase := .ended } else none

/-- Any number of steps. cmd/routedns/main.go:461-471, cache-memory.go:163-193, 213-221. -/
def run (names : List Str) : Prog H → List (Ev H) → Option (Prog H)
  | s, [] => some s
  | s, e :: es => (step names s e).bind (run names · es)

end Verif.Stopping
