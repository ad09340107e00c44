import Verif.Model.Dnssec
import Verif.Spec.DnssecName
/-
What it means that keys of a zone are linked to the configured trust anchors. Times are the times at which signatures were checked.

(The types of records and the parameter for the cryptography are those of the model; of its functions only `canonicalName`, the canonical spelling of a
name, `equalFold`, and for the name hierarchy `isSubDomain`, which `isSubDomain_present` specifies, are used.)
-/
namespace Verif.DnssecSpec
open Verif Verif.Dnssec

/-- The signature on the set of records was made with the key, and is valid at time `t` -/
structure SignedBy (C : Crypto) (s : Sig) (k : Key) (rrset : List Rec) (t : Int) : Prop where
  period : C.inPeriod s t = true
  crypto : C.check s k rrset = true
  tag : C.keyTag k = s.keyTag
  alg : k.alg = s.alg
  /-- the key belongs to the name that is given as the signer -/
  signer : lower k.hdr.name = canonicalName s.signer
  nonempty : rrset ≠ []
  covered : ∀ r ∈ rrset, r.rtype = s.covered ∧ r.hdr.cls = s.hdr.cls
  /-- all records have the same owner -/
  owner : ∀ r ∈ rrset, ∀ r' ∈ rrset, r.hdr.name = r'.hdr.name

/-- The key has the digest of one of the DS records -/
def HasDs (C : Crypto) (k : Key) (D : List Ds) : Prop := ∃ d ∈ D, ∃ x : Str, C.toDS k d.digestType = some x ∧ equalFold x d.digest = true

/-- The set of keys is signed, between `a` and `b`, by a key signing key in it that has the digest of one of the DS records; and it is signed in the name of the zone -/
def KeysOk (C : Crypto) (zone : Str) (keys : List Key) (D : List Ds) (a b : Int) : Prop :=
  ∃ (k : Key) (s : Sig) (t : Int), k ∈ keys ∧ k.flags = 257 ∧ HasDs C k D ∧ canonicalName s.signer = zone ∧ s.covered = typeDNSKEY
    ∧ a ≤ t ∧ t ≤ b ∧ SignedBy C s k (keys.map .dnskey) t

/-- `parent` is what is left of the name `zone` after its first dot -/
def ParentName (zone parent : Str) : Prop :=
  ∃ l : Str, 46 ∉ l ∧ ((zone = l ++ 46 :: parent ∧ parent ≠ []) ∨ (zone = l ++ [46] ∧ parent = root))

/-- Keys that were established between `a'` and `b'` are usable for something established between `a` and `b`: they were established then, too; or they
were kept since `c`, and the TTL of none of them had passed when they were looked up at `u`. -/
def UsableIn (keys : List Key) (a' b' a b : Int) : Prop :=
  (a ≤ a' ∧ b' ≤ b) ∨ ∃ c u : Int, b' ≤ c ∧ c ≤ u ∧ a ≤ u ∧ u ≤ b ∧ ∀ k ∈ keys, u ≤ c + (k.hdr.ttl : Int) * 1000000000

/-- The keys are those of the zone, as established between `a` and `b` by a chain of signatures from the trust anchors of the root -/
inductive Trusted (C : Crypto) (anchors : List Ds) : Str → List Key → Int → Int → Prop where
  | root {keys : List Key} {a b : Int} {D : List Ds} (hD : ∀ d ∈ D, d ∈ anchors) (hk : KeysOk C Dnssec.root keys D a b) : Trusted C anchors Dnssec.root keys a b
  | child {zone parent : Str} {keys pkeys : List Key} {pk : Key} {s : Sig} {D : List Ds} {a b a' b' t : Int} (hz : ParentName zone parent)
      (hp : Trusted C anchors parent pkeys a' b') (hu : UsableIn pkeys a' b' a b) (hpk : pk ∈ pkeys) (hf : pk.flags = 256)
      (hta : a ≤ t) (htb : t ≤ b) (hs : SignedBy C s pk (D.map .ds) t) (hk : KeysOk C zone keys D a b) : Trusted C anchors zone keys a b

/-- Trusted keys that may be used between `a` and `b` -/
def Usable (C : Crypto) (anchors : List Ds) (zone : Str) (keys : List Key) (a b : Int) : Prop :=
  ∃ a' b' : Int, Trusted C anchors zone keys a' b' ∧ UsableIn keys a' b' a b

/-- The set is signed with a zone key of a zone that is linked to the trust anchors, by a signature checked between `a` and `b` -/
def SignedByZone (C : Crypto) (anchors : List Ds) (zone : Str) (s : Sig) (rrset : List Rec) (a b : Int) : Prop :=
  ∃ (keys : List Key) (k : Key) (t : Int), Usable C anchors zone keys a b ∧ k ∈ keys ∧ k.flags = 256 ∧ a ≤ t ∧ t ≤ b ∧ SignedBy C s k rrset t

/-- There is an authenticated statement of the parent that the zone has no DS records, that is, a delegation to an unsigned zone -/
def Insecure (C : Crypto) (anchors : List Ds) (zone : Str) (a b : Int) : Prop :=
  ∃ (parent : Str) (s : Sig) (rrset : List Rec) (r : Rec), ParentName zone parent ∧ SignedByZone C anchors parent s rrset a b ∧ r ∈ rrset
    ∧ ((∃ n : Nsec, r = .nsec n ∧ nsecDeniesDS n zone = true) ∨ (∃ n : Nsec3, r = .nsec3 n ∧ nsec3DeniesDS C.lib n zone = true))

/-- This is so for the name or for one above it -/
def InsecureAbove (C : Crypto) (anchors : List Ds) (name : Str) (a b : Int) : Prop := ∃ zone : Str, zone <:+ name ∧ Insecure C anchors zone a b

/-- A name as the library writes it when it reads a message -/
def WireName (s : Str) : Prop := ∃ n : Name, WfName n ∧ s = present n

/-- A message read from the wire -/
structure WireMsg (m : SMsg) : Prop where
  question : ∀ q ∈ m.question, WireName q.1
  owner : ∀ r ∈ m.answer ++ m.ns, WireName r.hdr.name
  signer : ∀ s : Sig, Rec.rrsig s ∈ m.answer ++ m.ns → WireName s.signer

end Verif.DnssecSpec
