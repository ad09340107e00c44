import Verif.Model.Validate
/-
C57, C66 in words.
-/
namespace Verif.Spec.Validate
open Verif Verif.Validate

/-- A host and a port, with brackets around the host, or without if there is no colon in it -/
def HostPort (s h p : Str) : Prop :=
  58 ∉ p ∧ (∀ c, c = 91 ∨ c = 93 → c ∉ h ∧ c ∉ p) ∧ ((58 ∉ h ∧ s = h ++ [58] ++ p) ∨ s = [91] ++ h ++ [93, 58] ++ p)

def Digit (c : UInt8) : Prop := 48 ≤ c.toNat ∧ c.toNat ≤ 57
def Letter (c : UInt8) : Prop := (65 ≤ c.toNat ∧ c.toNat ≤ 90) ∨ (97 ≤ c.toNat ∧ c.toNat ≤ 122)

/-- Letters, digits and hyphens; the hyphens inside -/
def Label (l : Str) : Prop := (∀ c, c ∈ l → Letter c ∨ Digit c ∨ c = 45) ∧ l.head? ≠ some 45 ∧ l.getLast? ≠ some 45

/-- The name consists of these labels, with or without a dot at the end. -/
def HasLabels (name : Str) (ls : List Str) : Prop := name = joinWith 46 ls ∨ name = joinWith 46 ls ++ [46]

/-- A host name as in RFC 1123: labels of 1 to 63 characters, the last one not a number, 255 characters at most -/
def HostName (name : Str) : Prop := ∃ ls, ls ≠ [] ∧ HasLabels name ls ∧ name.length ≤ 255 ∧ (∀ l, l ∈ ls → Label l ∧ l ≠ [] ∧ l.length ≤ 63) ∧
  ∃ l, ls.getLast? = some l ∧ ∃ c, c ∈ l ∧ ¬ Digit c

/-- The number that decimal digits stand for, the first one for the most -/
def number : Str → Nat
  | [] => 0
  | c :: s => (c.toNat - 48) * 10 ^ s.length + number s

/-- A number from 0 to 65535 in decimal -/
def Port (s : Str) : Prop := s ≠ [] ∧ (∀ c, c ∈ s → Digit c) ∧ number s < 65536

end Verif.Spec.Validate
