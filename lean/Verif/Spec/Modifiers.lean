import Verif.Spec.Edns
import Verif.Model.Net
/-
C39, C40, C41 in words.
-/
namespace Verif.Spec.Modifiers
open Verif Verif.Net

/-- a client-subnet option -/
def IsSubnet (o : EOpt) : Prop := ∃ (f m s : Nat) (a : Str), o = .ecs f m s a

/-- `os'` are the options of `os` that satisfy `p`, in the same order. -/
inductive Kept (p : EOpt → Prop) : List EOpt → List EOpt → Prop
  | nil : Kept p [] []
  | keep {o os os'} : p o → Kept p os os' → Kept p (o :: os) (o :: os')
  | drop {o os os'} : ¬ p o → Kept p os os' → Kept p (o :: os) os'

/-- The leading `n` bits of `a` are those of `ip`; the others are zero. -/
def Masked (ip : Str) (n : Nat) (a : Str) : Prop :=
  a.length = ip.length ∧ (bits a).take n = (bits ip).take n ∧ ∀ i, n ≤ i → i < 8 * ip.length → (bits a)[i]? = some false

/-- An option for the network of `source`: at most `prefix4` or `prefix6` bits of it -/
def SubnetOf (source : Str) (prefix4 prefix6 : Nat) (o : EOpt) : Prop :=
  (∃ ip a, (source = ip ∨ source = v4Prefix ++ ip) ∧ ip.length = 4 ∧ o = .ecs 1 prefix4 0 a ∧ Masked ip prefix4 a) ∨
  (source.length = 16 ∧ source.take 12 ≠ v4Prefix ∧ ∃ a, o = .ecs 2 prefix6 0 a ∧ Masked source prefix6 a)

/-- The sum of the lengths of the padding -/
def paddingBytes (os : List EOpt) : Nat := (os.map fun o => match o with | .padding n => n | _ => 0).sum

/-- The same options without content of the padding -/
def emptied (os : List EOpt) : List EOpt := os.map fun o => match o with | .padding _ => .padding 0 | o => o

/-- A length function for messages: every byte of padding adds one. -/
def CountsPadding (len : Msg → Nat) : Prop :=
  ∀ m m' (e : Edns), Replaced m m' { e with options := emptied e.options } e → len m' = len m + paddingBytes e.options

/-- The length a response of length `l` gets: the end of its block of 468 bytes, or the limit, or no padding -/
def paddedLength (l limit : Nat) : Nat := if 468 * (l / 468 + 1) ≤ limit then 468 * (l / 468 + 1) else if l ≤ limit then limit else l

end Verif.Spec.Modifiers
