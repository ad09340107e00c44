import Verif.Spec.DnssecServes
/-
What a server of a signed zone sends to say that there is no such name, or no records of the type (C96): RFC 4035 section 3.1.3 for NSEC, RFC 5155 section 7.2
for NSEC3.
-/
namespace Verif.DnssecSpec
open Verif Verif.Dnssec

/-- The name is in the gap after the owner of the NSEC record: before the next name, or the next name is the apex again. -/
def InGap (Z : Zone) (n : Nsec) (q : Name) : Prop :=
  ∃ o x : Name, n.hdr.name = present o ∧ n.next = present x ∧ WfName o ∧ WfName x ∧ CanonLt o q ∧ (CanonLt q x ∨ canon x = Z.apex)

/-- The NSEC record is true of the zone. -/
def TrueRecord (Z : Zone) (n : Nsec) : Prop :=
  ∃ o x : Name, n.hdr.name = present o ∧ n.next = present x ∧ WfName o ∧ WfName x ∧ Z.TrueNsec o x n.types

/-- The NSEC record is the one of the name. -/
def OwnedBy (n : Nsec) (q : Name) : Prop := ∃ o : Name, n.hdr.name = present o ∧ WfName o ∧ canon o = q

/-- The records `P` are all true, and they include those that the server has to send for the name `q` of its zone, the type and the response code. -/
inductive ProperNsec (Z : Zone) (P : Nsec → Prop) (q : Name) (t : Nat) : Nat → Prop where
  /-- no such name: a record for the name, and one for the wildcard at the closest encloser. In the root zone it is the record of the root itself. -/
  | nameError {ce : Name} {n w : Nsec} : (∀ n, P n → TrueRecord Z n) → Z.IsEncloser q ce → P n → InGap Z n q → P w → InGap Z w (star :: ce) →
      (ce = [] → OwnedBy w []) → ProperNsec Z P q t 3
  /-- no records of the type at the name -/
  | noData {n : Nsec} : (∀ n, P n → TrueRecord Z n) → P n → OwnedBy n q → ¬ Z.HasType q t → ¬ Z.HasType q 5 → ProperNsec Z P q t 0
  /-- no records of the type at the wildcard that the name stands for -/
  | wildcardNoData {ce : Name} {n w : Nsec} : (∀ n, P n → TrueRecord Z n) → Z.IsEncloser q ce → ce ≠ [] → P n → InGap Z n q → P w → OwnedBy w (star :: ce) →
      ¬ Z.Exists q → ¬ Z.HasType q t → ¬ Z.HasType q 5 → ProperNsec Z P q t 0

/-- The hash of a name with the parameters of the record -/
def hashFor (L : Lib) (r : Nsec3) (n : Name) : Str := L.hashName (present n) r.hash r.iterations r.salt

/-- The NSEC3 record, with owner hash `o`, is one of the zone, and true of it. Owner hashes are in base 32. -/
def TrueRecord3 (L : Lib) (Z : Zone) (r : Nsec3) (o : Str) : Prop :=
  ∃ (h : Str) (a : Name), r.hdr.name = present (h :: a) ∧ WfName (h :: a) ∧ canon a = Z.apex ∧ Spec.InCapitals o h ∧ escLabel o = o ∧
    Z.TrueNsec3 (hashFor L r) o r.next r.types (decide (r.flags % 2 = 1))

/-- The hash function tells the names of the zone apart from `q`, the names above it, and their wildcards. -/
def ToldApart (L : Lib) (Z : Zone) (P : Nsec3 → Prop) (q : Name) : Prop :=
  ∀ r, P r → ∀ n c : Name, Z.Exists n → (c <:+ q ∨ ∃ a : Name, a <:+ q ∧ c = star :: a) → hashFor L r n = hashFor L r c → n = c

/-- The record is the one for the hash of the name. -/
def Matches3 (L : Lib) (Z : Zone) (r : Nsec3) (n : Name) : Prop := TrueRecord3 L Z r (hashFor L r n)

/-- The hash of the name is in the gap after the record. -/
def Covers3 (L : Lib) (Z : Zone) (r : Nsec3) (n : Name) : Prop := ∃ o : Str, TrueRecord3 L Z r o ∧ Between o (hashFor L r n) r.next

/-- Likewise for NSEC3: the name is `q`, its closest encloser `ce`, and the next closer name `l :: ce`. -/
inductive ProperNsec3 (L : Lib) (Z : Zone) (P : Nsec3 → Prop) (q : Name) (t : Nat) : Nat → Prop where
  /-- no such name: a record for the closest encloser, one for the gap of the next closer name, and one for the gap of the wildcard, or the one for the next closer name
  has the opt-out flag -/
  | nameError {ce : Name} {l : Str} {rc rn rw : Nsec3} : (∀ r, P r → ∃ o, TrueRecord3 L Z r o) → ToldApart L Z P q → Z.IsEncloser q ce → l :: ce <:+ q →
      P rc → Matches3 L Z rc ce → P rn → Covers3 L Z rn (l :: ce) → (P rw ∧ Covers3 L Z rw (star :: ce)) ∨ rn.flags % 2 = 1 → ProperNsec3 L Z P q t 3
  /-- no records of the type at the name -/
  | noData {r : Nsec3} : (∀ r, P r → ∃ o, TrueRecord3 L Z r o) → ToldApart L Z P q → P r → Matches3 L Z r q → ¬ Z.HasType q t → ¬ Z.HasType q 5 → ProperNsec3 L Z P q t 0
  /-- no DS records at the name: it is in the gap of a record with the opt-out flag -/
  | optOut {r : Nsec3} : (∀ r, P r → ∃ o, TrueRecord3 L Z r o) → ToldApart L Z P q → P r → r.flags % 2 = 1 → Covers3 L Z r q → t = 43 → 43 ∉ Z.types q → 5 ∉ Z.types q → ProperNsec3 L Z P q t 0
  /-- no records of the type at the wildcard that the name stands for -/
  | wildcardNoData {ce : Name} {l : Str} {rc rn rw : Nsec3} : (∀ r, P r → ∃ o, TrueRecord3 L Z r o) → ToldApart L Z P q → Z.IsEncloser q ce → l :: ce <:+ q →
      P rc → Matches3 L Z rc ce → P rn → Covers3 L Z rn (l :: ce) → P rw → Matches3 L Z rw (star :: ce) → ¬ Z.HasType q t → ¬ Z.HasType q 5 → ProperNsec3 L Z P q t 0

end Verif.DnssecSpec
