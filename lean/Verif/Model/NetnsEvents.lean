import Verif.Model.Bytes
/-
netns_watch_linux.go: reading inotify events (97-138), telling subscribers of a name (140-173, 231-241), waiting for a namespace to be mounted (196-216).

The byte order is that of a little-endian machine. The watch itself, errors of `read` and the goroutine are in `NetnsWatch`.
-/
namespace Verif.NetnsEvents
open Verif

/-- A little-endian number. The fields of `unix.InotifyEvent`, netns_watch_linux.go:97-138. -/
def leVal (l : Str) : Nat := l.foldr (fun b acc => b.toNat + 256 * acc) 0

/-- netns_watch_linux.go:110: a field of `unix.InotifyEvent` (wd at 0, mask at 4, cookie at 8, len at 12), read through the pointer -/
def field (buf : Str) (off : Nat) : Nat := leVal ((buf.drop off).take 4)

/-- netns_watch_linux.go:123-131: `true` is `NetNSPresent`. IN_CREATE is 0x100, IN_MOVED_TO 0x80, IN_DELETE 0x200, IN_MOVED_FROM 0x40. -/
def stateOf (mask : Nat) : Option Bool :=
  if mask &&& (0x100 ||| 0x80) ≠ 0 then some true else if mask &&& (0x200 ||| 0x40) ≠ 0 then some false else none

/-- netns_watch_linux.go:112-120: up to the first zero byte -/
def nameIn (b : Str) : Str := b.takeWhile (· ≠ 0)

/-- netns_watch_linux.go:123-135: what one event makes the watcher dispatch -/
def said (mask : Nat) (name : Str) : Option (Str × Bool) := match stateOf mask with
  | some st => if name = [] then none else some (name, st)
  | none => none

/-- netns_watch_linux.go:108-136: the events in the first `n` bytes of the buffer, from `off` on; `none` is a panic (name reaches beyond the buffer) -/
def events (buf : Str) (n off : Nat) : Option (List (Str × Bool)) :=
  if off + 16 ≤ n then
    if field buf (off + 12) = 0 then
      (events buf n (off + 16)).map ((said (field buf (off + 4)) []).toList ++ ·)
    else (slice? buf (off + 16) (off + 16 + field buf (off + 12))).bind fun b =>
      (events buf n (off + 16 + field buf (off + 12))).map ((said (field buf (off + 4)) (nameIn b)).toList ++ ·)
  else some []
termination_by n - off

/-! ### Subscribers -/

/-- netns_watch_linux.go:40-45 `netnsSubscriber`; `last` is `none` while `hasLast` is false -/
structure Sub where
  name : Str
  chan : List Bool := []
  last : Option Bool := none
deriving DecidableEq, Repr

/-- netns_watch_linux.go:231-241 `notifyLocked` -/
def notify (s : Sub) (st : Bool) : Sub :=
  if s.last = some st then s else if s.chan.length < 16 then { s with chan := s.chan ++ [st], last := some st } else s

/-- netns_watch_linux.go:140-148 `dispatch` -/
def dispatch (subs : List Sub) (name : Str) (st : Bool) : List Sub := subs.map fun s => if s.name = name then notify s st else s

/-- What happens to the list of subscribers. netns_watch_linux.go:140-194, 231-241. -/
inductive Ev where
  /-- an event has been read -/
  | event (name : Str) (st : Bool)
  /-- netns_watch_linux.go:154-160: a new subscriber, for whom the file system said `st` -/
  | subscribe (name : Str) (st : Bool)
  /-- netns_watch_linux.go:162-171: subscriber number `i` of the list cancels -/
  | cancel (i : Nat)
  /-- subscriber number `i` takes a value out of its channel -/
  | receive (i : Nat)
deriving DecidableEq, Repr

/-- netns_watch_linux.go:140-194, 231-241 -/
def step (subs : List Sub) : Ev → List Sub
  | .event name st => dispatch subs name st
  | .subscribe name st => subs ++ [notify { name := name } st]
  | .cancel i => subs.eraseIdx i
  | .receive i => subs.modify i fun s => { s with chan := s.chan.tail }

/-! ### Waiting -/

/-- netns_watch_linux.go:201-208: what `Statfs` says -/
inductive Stat where
  | mounted
  | missing
  /-- a file that is not a namespace, or another error -/
  | other
deriving DecidableEq, Repr

/-- How netns_watch_linux.go:196-216 ends -/
inductive Result where
  | ready
  | missing
  | timeout
deriving DecidableEq, Repr

/-- A round of the loop: what `Statfs` said, and the clock read after it, in nanoseconds. netns_watch_linux.go:196-216. -/
structure Look where
  stat : Stat
  now : Int

/-- netns_watch_linux.go:184 `netnsReadyRecheckInterval` -/
def interval : Int := 10000000

/-- netns_watch_linux.go:196-216 `WaitNetNSReady`: the result, and how long it sleeps between rounds. `none`: it still waits after these rounds. -/
def wait (deadline : Int) : List Look → Option Result × List Int
  | [] => (none, [])
  | l :: ls => match l.stat with
    | .mounted => (some .ready, [])
    | .missing => (some .missing, [])
    | .other => if deadline - l.now ≤ 0 then (some .timeout, [])
      else let r := wait deadline ls
        (r.1, min (deadline - l.now) interval :: r.2)

end Verif.NetnsEvents
