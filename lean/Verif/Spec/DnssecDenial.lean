import Verif.Spec.DnssecName
/-
What there is in a zone, which queries it has an answer for (RFC 1034 section 4.3.2 with wildcards, for a zone that delegates nothing above the name
in question), and what a true NSEC or NSEC3 record says about it (RFC 4034 section 4, RFC 5155 section 3).
-/
namespace Verif.DnssecSpec
open Verif

/-- The label `*` -/
abbrev star : Str := [42]

/-- A zone: the types of the records it has at every name, in lower case -/
structure Zone where
  apex : Name
  types : Name → List Nat
  /-- all names are proper names in lower case -/
  apexOk : canon apex = apex ∧ WfName apex
  /-- and at or below the apex -/
  ok : ∀ n : Name, types n ≠ [] → canon n = n ∧ WfName n ∧ apex <:+ n

/-- A name at or below the apex of the zone, in lower case -/
structure InZone (Z : Zone) (q : Name) : Prop where
  can : canon q = q
  wf : WfName q
  sub : Z.apex <:+ q

/-- The name exists: it or a name below has records (RFC 4592: also a name without records is there if a name below it is) -/
def Zone.Exists (Z : Zone) (n : Name) : Prop := Z.apex <:+ n ∧ ∃ m : Name, Z.types m ≠ [] ∧ n <:+ m

/-- The closest encloser of a name that does not exist: its longest ancestor that exists -/
def Zone.IsEncloser (Z : Zone) (q ce : Name) : Prop := ce <:+ q ∧ Z.Exists ce ∧ ∀ a : Name, a <:+ q → Z.Exists a → a <:+ ce

/-- The zone has records of type `t` to answer a query for `q` with: its own ones, or those of the wildcard at the closest encloser if `q` does not exist -/
def Zone.HasType (Z : Zone) (q : Name) (t : Nat) : Prop :=
  (Z.Exists q ∧ t ∈ Z.types q) ∨ (¬ Z.Exists q ∧ ∃ ce : Name, Z.IsEncloser q ce ∧ t ∈ Z.types (star :: ce))

/-- An NSEC record with owner `o`, next name `x` and type list `ts` is true of the zone: owner and next have records, the types are those of the owner,
no name with records is between owner and next, or after the owner if next is the apex again. -/
structure Zone.TrueNsec (Z : Zone) (o x : Name) (ts : List Nat) : Prop where
  owner : Z.types (canon o) ≠ []
  next : Z.types (canon x) ≠ []
  types : ∀ t : Nat, t ∈ ts ↔ t ∈ Z.types (canon o)
  gap : (canon x = Z.apex ∧ ∀ m : Name, Z.types m ≠ [] → ¬ CanonLt o m)
    ∨ (CanonLt o x ∧ ∀ m : Name, Z.types m ≠ [] → ¬ (CanonLt o m ∧ CanonLt m x))

/-- A delegation to an unsigned zone -/
def Zone.Unsigned (Z : Zone) (n : Name) : Prop := typeNS ∈ Z.types n ∧ typeDS ∉ Z.types n ∧ n ≠ Z.apex

/-- Nothing but unsigned delegations at or below the name; an opt-out NSEC3 record may leave such names out -/
def Zone.Omittable (Z : Zone) (n : Name) : Prop := ∀ m : Name, Z.types m ≠ [] → n <:+ m → Z.Unsigned m

/-- Strictly between two hashes on the circle of hashes -/
def Between (a h b : Str) : Prop := (a < b ∧ a < h ∧ h < b) ∨ (b < a ∧ (a < h ∨ h < b)) ∨ (a = b ∧ h ≠ a)

/-- An NSEC3 record with owner hash `o`, next hash `x`, types `ts` and opt-out flag is true of the zone under the hash function `H` -/
structure Zone.TrueNsec3 (Z : Zone) (H : Name → Str) (o x : Str) (ts : List Nat) (optOut : Bool) : Prop where
  owner : ∃ n : Name, Z.Exists n ∧ H n = o ∧ ∀ t : Nat, t ∈ ts ↔ t ∈ Z.types n
  gap : ∀ n : Name, Z.Exists n → Between o (H n) x → optOut = true ∧ Z.Omittable n

end Verif.DnssecSpec
