import Verif.Model.Odoh
import Verif.Spec.Listeners
import Verif.Spec.Clients
/-
C62 in words.
-/
namespace Verif.Spec.Odoh
open Verif Verif.Listeners Verif.Odoh Verif.Regex

/-- What a regular expression matches -/
inductive Lang : Re → Str → Prop
  | eps : Lang .eps []
  | cls {p : UInt8 → Bool} {c} : p c = true → Lang (.cls p) [c]
  | altL {a b s} : Lang a s → Lang (.alt a b) s
  | altR {a b s} : Lang b s → Lang (.alt a b) s
  | seq {a b s t} : Lang a s → Lang b t → Lang (.seq a b) (s ++ t)
  | starNil {a} : Lang (.star a) []
  | starCons {a s t} : Lang a s → Lang (.star a) t → Lang (.star a) (s ++ t)

def Letter (c : UInt8) : Prop := (65 ≤ c.toNat ∧ c.toNat ≤ 90) ∨ (97 ≤ c.toNat ∧ c.toNat ≤ 122)
def Digit (c : UInt8) : Prop := 48 ≤ c.toNat ∧ c.toNat ≤ 57

/-- A host name the proxy sends to: at least two labels with dots between them, of letters, digits and hyphens, none empty; the last one has two or more characters, all
letters. (So it is no IP address and has no port, and no user information.) -/
def PublicName (h : Str) : Prop := h.length ≤ 253 ∧ ∃ (ls : List Str) (tld : Str), ls ≠ [] ∧ h = joinWith 46 (ls ++ [tld]) ∧
  (∀ l, l ∈ ls → l ≠ [] ∧ ∀ c, c ∈ l → Letter c ∨ Digit c ∨ c = 45) ∧ 2 ≤ tld.length ∧ ∀ c, c ∈ tld → Letter c

/-- A path the proxy sends to: absolute, at most 1024 bytes, no `..` in it -/
def SafePath (p : Str) : Prop := (∃ rest, p = 47 :: rest) ∧ p.length ≤ 1024 ∧ ¬ ∃ a b, p = a ++ [46, 46] ++ b

/-- A request for the proxy to send on -/
def Forwardable (r : Request) : Prop :=
  r.base.method = str "POST" ∧ r.contentType = str "application/oblivious-dns-message" ∧ PublicName r.targetHost ∧ SafePath r.targetPath

end Verif.Spec.Odoh
