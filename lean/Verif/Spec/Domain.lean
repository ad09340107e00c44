import Verif.Model.Domain
/-
C28 in words. Names and rules are lists of labels, top-level label first.
-/
namespace Verif.Spec.Domain
open Verif

/-- The labels of a name in the list or in a query, top-level label first, in lower case; the last dot does not count. -/
def labels (s : Str) : List Str := (splitOn 46 (lower (trimDot s))).reverse

inductive Rule where
  /-- `domain.com`: just this name -/
  | exact (name : List Str)
  /-- `.domain.com`: this name and everything below -/
  | apexAndSub (name : List Str)
  /-- `*.domain.com`: everything below -/
  | subOnly (name : List Str)
deriving DecidableEq

def Rule.Matches : Rule → List Str → Prop
  | .exact n, q => q = n
  | .apexAndSub n, q => n <+: q
  | .subOnly n, q => n <+: q ∧ q ≠ n

/-- What a line means. A leading `.` or `*.` is recognised if something follows. With `includeSubdomains`, a plain name stands for itself and
everything below. -/
def ruleOf (includeSubdomains : Bool) (line : Str) : Rule :=
  let ls := labels (trimSpace line)
  match ls.reverse with
  | [] :: p :: ps => .apexAndSub (p :: ps).reverse
  | [42] :: p :: ps => .subOnly (p :: ps).reverse
  | _ => if includeSubdomains ∧ ls ≠ [[]] then .apexAndSub ls else .exact ls

/-- The dotted form of a list of labels -/
def dotted (n : List Str) : Str := joinWith 46 n.reverse

/-- How a rule is reported -/
def Rule.text : Rule → Str
  | .exact n => dotted n
  | .apexAndSub n => 46 :: dotted n
  | .subOnly n => 42 :: 46 :: dotted n

/-- No empty label between others: `a..b` -/
def NoHole (line : Str) : Prop := ∀ l, l ∈ (labels (trimSpace line)).dropLast.tail → l ≠ []

/-- An asterisk is only allowed alone in front. -/
def GoodWildcards (line : Str) : Prop :=
  ∀ (i : Nat) (l : Str), (labels (trimSpace line)).reverse[i]? = some l → 42 ∈ l → i = 0 ∧ l = [42]

end Verif.Spec.Domain
