import Verif.Model.Dns
/-
What is expected of lists of locations and autonomous systems.
-/
namespace Verif.Spec.Location
open Verif

/-- The value of decimal digits, most significant first. -/
def valueOf : Str → Nat
  | [] => 0
  | c :: cs => (c.toNat - 48) * 10 ^ cs.length + valueOf cs

/-- `s` is a decimal numeral (leading zeros allowed) for the 64-bit number `n`. -/
def Numeral (s : Str) (n : Nat) : Prop := s ≠ [] ∧ (∀ c ∈ s, 48 ≤ c ∧ c ≤ 57) ∧ valueOf s = n ∧ n < 2 ^ 64

def White (s : Str) : Prop := ∀ c ∈ s, c = 32 ∨ (9 ≤ c ∧ c ≤ 13)

/-- A line without content: white space, perhaps followed by a comment. -/
def Blank (line : Str) : Prop := White line ∨ ∃ w c, White w ∧ line = w ++ 35 :: c

/-- A line with the number `n`: white space, the numeral, white space, perhaps a comment. -/
def Says (line : Str) (n : Nat) : Prop :=
  ∃ w1 d w2, White w1 ∧ White w2 ∧ Numeral d n ∧ (line = w1 ++ d ++ w2 ∨ ∃ c, line = w1 ++ d ++ w2 ++ 35 :: c)

end Verif.Spec.Location
