import Verif.Model.Dns
/-
Atomic replacement of files and the sweep for left-over temporary files: atomicfile.go.

One directory with any number of writers (goroutines or processes), each replacing a file in it, sweeps at any time, and processes killed at any point. All are interleaved system call by
system call. A crash of the machine is described by `Crash`.

Simplifications: names are entries of the one directory of the target (`filepath.Dir(filename)`), symbolic links and directories as targets are left out (an entry is regular or not); the
error values are left out.
-/
namespace Verif.AtomicFile
open Verif

/-- atomicfile.go 22 -/
def tmpPrefix : Str := str ".routedns-tmp-"

/-- atomicfile.go 26, in seconds -/
def tmpMaxAge : Int := 3600

/-- os.CreateTemp's mode 0600. Called in atomicfile.go:99. -/
def tmpMode : Nat := 0o600

/-- An inode. `synced`: everything written has reached the disk. The files that atomicfile.go works on; not part of the code. -/
structure File where
  data : List UInt8 := []
  mode : Nat := tmpMode
  mtime : Int := 0
  synced : Bool := false
  regular : Bool := true
deriving DecidableEq, Repr, Inhabited

/-- The directory `filepath.Dir(filename)` of atomicfile.go:99: names and inodes -/
abbrev Dir := Str → Option Nat

/-- Where a call of writeFileAtomic is. `created`: after line 99; `ready`: after 120; `synced`: after 131; `closed`: after 135; `cleaning`: in the deferred function (104-107). atomicfile.go:98-139. -/
inductive Pc where
  | idle | created | ready | synced | closed
  | cleaning (ok : Bool)
  | done (ok : Bool)
  | dead
deriving DecidableEq, Repr, Inhabited

/-- A call of `writeFileAtomic` with its local variables, atomicfile.go:98-139 -/
structure Writer where
  target : Str
  /-- everything the `write` callback writes -/
  content : List UInt8
  pc : Pc := .idle
  tmp : Str := []
  ino : Nat := 0
  /-- what has not been written to the file yet: still to come from the callback, or in the buffer -/
  rest : List UInt8 := []
deriving DecidableEq, Repr, Inhabited

/-- The directory, its files, and all calls of atomicfile.go:98-139 in progress -/
structure Sys where
  files : Nat → File
  /-- number of inodes so far -/
  next : Nat
  dir : Dir
  /-- earlier states of the directory; the directory is never synced (no call in atomicfile.go) -/
  past : List Dir := []
  writers : Nat → Writer
  now : Int := 0

/-- The system calls of atomicfile.go:98-139 and 48-71, one event each; the lines are given at the cases -/
inductive Ev where
  /-- 99: CreateTemp succeeds with this name -/
  | create (w : Nat) (name : Str)
  /-- 113-120: Stat and Chmod -/
  | stat (w : Nat)
  /-- 122-126: so many bytes reach the file -/
  | write (w : Nat) (n : Nat)
  | sync (w : Nat)
  | close (w : Nat)
  | rename (w : Nat)
  /-- an error in any of the calls between 99 and 138, or from the callback -/
  | fail (w : Nat)
  /-- 106: Remove; it may fail -/
  | cleanup (w : Nat) (removed : Bool)
  /-- the process is killed -/
  | kill (w : Nat)
  /-- 60-70 for one entry, by a sweep that began so many seconds ago. The test and the removal are one step. -/
  | sweep (name : Str) (ago : Nat)
  /-- time passes -/
  | tick (seconds : Nat)
deriving DecidableEq, Repr

/-- Assignment to the local variables of one call, atomicfile.go:98-139 -/
def setW (s : Sys) (w : Nat) (x : Writer) : Nat → Writer := fun j => if j = w then x else s.writers j
/-- The effect of a system call on one file, atomicfile.go:98-139 -/
def setF (s : Sys) (i : Nat) (f : File) : Nat → File := fun j => if j = i then f else s.files j
/-- The effect of a system call on one entry of the directory, atomicfile.go:98-139 -/
def setD (d : Dir) (n : Str) (v : Option Nat) : Dir := fun m => if m = n then v else d m

/-- Does the writer's name still belong to it? From CreateTemp to the end of the deferred Remove. atomicfile.go:99-107. -/
def Pc.active : Pc → Bool
  | .created | .ready | .synced | .closed | .cleaning _ => true
  | _ => false

/-- strings.HasPrefix, atomicfile.go:62 -/
def hasPrefix (p s : Str) : Bool := s.take p.length = p

/-- One system call of writeFileAtomic (98-139) or removeStaleTempFiles (48-71). `none`: not possible now.

`create` needs a name with the prefix that is not in the directory (O_EXCL) and is not the name of a call in progress (its file may have been swept): the random part does not repeat within
one call of writeFileAtomic. atomicfile.go:48-71, 98-139. -/
def step (s : Sys) : Ev → Option Sys
  | .create w name =>
    let x := s.writers w
    if x.pc = .idle ∧ s.dir name = none ∧ hasPrefix tmpPrefix name then
      some { s with
        files := setF s s.next { mtime := s.now }
        next := s.next + 1
        dir := setD s.dir name (some s.next)
        past := s.dir :: s.past
        writers := setW s w { x with pc := .created, tmp := name, ino := s.next, rest := x.content } }
    else none
  | .stat w =>
    let x := s.writers w
    if x.pc = .created then
      match s.dir x.target with
      | some i => some { s with files := setF s x.ino { s.files x.ino with mode := (s.files i).mode }, writers := setW s w { x with pc := .ready } }
      | none => some { s with writers := setW s w { x with pc := .ready } }
    else none
  | .write w n =>
    let x := s.writers w
    if x.pc = .ready ∧ 0 < n then
      some { s with
        files := setF s x.ino { s.files x.ino with data := (s.files x.ino).data ++ x.rest.take n, mtime := s.now, synced := false }
        writers := setW s w { x with rest := x.rest.drop n } }
    else none
  | .sync w =>
    let x := s.writers w
    if x.pc = .ready ∧ x.rest = [] then
      some { s with files := setF s x.ino { s.files x.ino with synced := true }, writers := setW s w { x with pc := .synced } }
    else none
  | .close w =>
    let x := s.writers w
    if x.pc = .synced then some { s with writers := setW s w { x with pc := .closed } } else none
  | .rename w =>
    let x := s.writers w
    if x.pc = .closed then
      match s.dir x.tmp with
      | none => some { s with writers := setW s w { x with pc := .cleaning false } }
      | some i =>
        some { s with dir := setD (setD s.dir x.tmp none) x.target (some i), past := s.dir :: s.past, writers := setW s w { x with pc := .cleaning true } }
    else none
  | .fail w =>
    let x := s.writers w
    if x.pc = .idle then some { s with writers := setW s w { x with pc := .done false } }
    else if x.pc = .created ∨ x.pc = .ready ∨ x.pc = .synced ∨ x.pc = .closed then some { s with writers := setW s w { x with pc := .cleaning false } }
    else none
  | .cleanup w removed =>
    let x := s.writers w
    match x.pc with
    | .cleaning ok =>
      some { s with dir := if removed then setD s.dir x.tmp none else s.dir, past := s.dir :: s.past, writers := setW s w { x with pc := .done ok } }
    | _ => none
  | .kill w => some { s with writers := setW s w { s.writers w with pc := .dead } }
  | .sweep name ago =>
    match s.dir name with
    | none => none
    | some i =>
      if (s.files i).regular ∧ hasPrefix tmpPrefix name ∧ ¬ (s.now - ago - tmpMaxAge < (s.files i).mtime) then
        some { s with dir := setD s.dir name none, past := s.dir :: s.past }
      else none
  | .tick t => some { s with now := s.now + t }

/-- Runs of events of the kind `ok` in which CreateTemp's random name is not the one of a call in progress. os.CreateTemp in atomicfile.go:99 picks a random name. -/
inductive Reach (ok : Ev → Prop) (s₀ : Sys) : Sys → Prop where
  | refl : Reach ok s₀ s₀
  | step {s s' : Sys} {e : Ev} : Reach ok s₀ s → ok e → (∀ w name, e = .create w name → ∀ v, (s.writers v).pc.active = true → (s.writers v).tmp ≠ name) → step s e = some s' → Reach ok s₀ s'

/-- What can be found on the disk after a crash of the machine: some state the directory had (it is not synced, but its changes reach the disk in order), and files with the data that was
synced; of files that were not synced anything may be left. The machine, not the code; `Sync` is called in atomicfile.go:130. -/
def Crash (s : Sys) (d : Dir) (content : Nat → List UInt8) : Prop :=
  d ∈ s.dir :: s.past ∧ ∀ i, i < s.next → (s.files i).synced = true → content i = (s.files i).data

/-- The directories that are swept: atomicfile.go 52 -/
def sweeps (dir : Str) : Bool := ! (dir = [] || dir = str ".")

/-- removeStaleTempFiles (48-71) on a directory that nobody else changes: the names that are left of `entries`. atomicfile.go:48-71. -/
def removeStale (dir : Str) (now : Int) (entries : List (Str × File)) : List (Str × File) :=
  if ! sweeps dir then entries
  else entries.filter fun e => ! (e.2.regular && hasPrefix tmpPrefix e.1 && ! decide (now - tmpMaxAge < e.2.mtime))

end Verif.AtomicFile
