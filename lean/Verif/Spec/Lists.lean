import Verif.Model.Lists
/-
C29, C31, C32 in words.
-/
namespace Verif.Spec.Lists
open Verif Verif.Net Verif.Lists

/-! ### Hosts files -/

/-- What a line of words lists: the first word is the address of all others, and a word that starts with `#` makes the line a comment. -/
def lists : List Str → List (Str × Str)
  | [] => []
  | a :: names => if [35] <+: a then [] else names.map fun n => (a, n)

/-- What a hosts file lists: pairs of address text and name, in order. Lines that are empty or comments or only an address list nothing. -/
def listed (rules : List Str) : List (Str × Str) := rules.flatMap fun r => lists (fields (trimSpace r))

/-- Two spellings of the same name -/
def sameName (a b : Str) : Prop := lower (trimDot a) = lower (trimDot b)

/-- The address to give out for an address text: none for `0.0.0.0`, `::` and for what is not an address. -/
def address (parseIP : Str → Str) (text : Str) : Str :=
  if parseIP text = v4Prefix ++ [0, 0, 0, 0] ∨ parseIP text = List.replicate 16 0 then [] else parseIP text

/-- The addresses listed for a name, in the order of the file, either the IPv4 ones or all others -/
def addressesFor (parseIP : Str → Str) (rules : List Str) (name : Str) (v4 : Bool) : List Str :=
  ((listed rules).filter fun e => decide (lower (trimDot e.2) = lower (trimDot name)) && ((to4 (parseIP e.1)).isSome == v4)).map fun e => address parseIP e.1

/-- The names listed for an address whose reverse name is `rev`, as written in the file -/
def namesFor (reverseAddr : Str → Option Str) (rules : List Str) (rev : Str) : List Str :=
  ((listed rules).filter fun e => decide (reverseAddr e.1 = some rev)).map fun e => e.2

/-! ### Hardware addresses -/

/-- A hexadecimal digit and its value -/
def HexDigit (c : UInt8) (v : Nat) : Prop :=
  v < 16 ∧ (c = (str "0123456789abcdef").getD v 0 ∨ c = (str "0123456789ABCDEF").getD v 0)

/-- `01:23:45:ab:cd:ef` is the text of six bytes -/
inductive MacText : Str → Str → Prop
  | last (h l : UInt8) (a b : Nat) (h1 : HexDigit h a) (h2 : HexDigit l b) : MacText [h, l] [UInt8.ofNat (a * 16 + b)]
  | more (h l : UInt8) (a b : Nat) (t m : Str) (h1 : HexDigit h a) (h2 : HexDigit l b) (ht : MacText t m) :
      MacText (h :: l :: 58 :: t) (UInt8.ofNat (a * 16 + b) :: m)

/-- The hardware address a query carries: option 65001 with six bytes, the last one if there are several. -/
def Carries (m : Msg) (mac : Str) : Prop :=
  ∃ (e : Edns) (pre post : List EOpt), m.edns? = some e ∧ e.options = pre ++ .loc 65001 mac :: post ∧ mac.length = 6 ∧
    ∀ d, EOpt.loc 65001 d ∈ post → d.length ≠ 6

/-! ### Refresh -/

/-- The outcome of the last reload that worked, if there was one -/
def lastGood {γ : Type} (outcomes : List (Option γ)) : Option γ := (outcomes.filterMap id).getLast?

end Verif.Spec.Lists
