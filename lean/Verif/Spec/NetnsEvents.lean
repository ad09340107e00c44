import Verif.Model.NetnsEvents
/-
Vocabulary for the claims about namespace events (C87): how the kernel lays out inotify events (inotify(7)), which changes a subscriber is to hear of.
-/
namespace Verif.Spec.NetnsEvents
open Verif Verif.NetnsEvents

/-- Four bytes, least significant first. -/
def le4 (n : Nat) : Str := [(n % 256).toUInt8, (n / 256 % 256).toUInt8, (n / 65536 % 256).toUInt8, (n / 16777216 % 256).toUInt8]

/-- An event of the kernel: watch, mask, cookie, name, and how many zero bytes follow the name. -/
structure KEvent where
  wd : Nat
  mask : Nat
  cookie : Nat
  name : Str
  pad : Nat

/-- Its bytes. -/
def bytes (e : KEvent) : Str := le4 e.wd ++ (le4 e.mask ++ (le4 e.cookie ++ (le4 (e.name.length + e.pad) ++ (e.name ++ List.replicate e.pad 0))))

/-- What fits: a 32-bit mask and length, no zero byte in a name. -/
def Proper (e : KEvent) : Prop := e.mask < 4294967296 ∧ e.name.length + e.pad < 4294967296 ∧ ¬ 0 ∈ e.name

/-- What it says about a name in the directory: `true` it is there now (created, or moved in: bits 8 and 7 of the mask), `false` it is gone (deleted, or moved out: bits 9 and 6). -/
def meaning (e : KEvent) : Option (Str × Bool) :=
  if e.name = [] then none
  else if e.mask.testBit 8 ∨ e.mask.testBit 7 then some (e.name, true)
  else if e.mask.testBit 9 ∨ e.mask.testBit 6 then some (e.name, false)
  else none

/-- The states that differ from the one before. -/
def changes : Option Bool → List Bool → List Bool
  | _, [] => []
  | last, st :: sts => if last = some st then changes last sts else st :: changes (some st) sts

/-- The event matters to subscriber number `i`, who is called `name`. -/
def Concerns (i : Nat) (name : Str) : Ev → Bool
  | .event n _ => n = name
  | .receive j => j = i
  | _ => false

/-- Nobody cancels (which changes the numbers of the others). -/
def NoCancel (es : List Ev) : Prop := ∀ (e : Ev) (i : Nat), e ∈ es → e ≠ .cancel i

/-- A round of waiting that decides nothing: not mounted, not missing, and there is time left. -/
def Undecided (deadline : Int) (l : Look) : Prop := l.stat = .other ∧ l.now < deadline

/-- What a round decides. -/
def Decides (deadline : Int) (l : Look) : Result → Prop
  | .ready => l.stat = .mounted
  | .missing => l.stat = .missing
  | .timeout => l.stat = .other ∧ deadline ≤ l.now

end Verif.Spec.NetnsEvents
