import Verif.Model.Dnssec
import Verif.Spec.Dnssec
import Verif.Spec.DnssecName
import Verif.Spec.DnssecDenial
import Verif.Spec.Letters
/-
A world in which everybody does their part (C95): zones are signed and linked by DS records up to the trust anchors, all of it is valid for some time, and the resolver passes it on.
-/
namespace Verif.DnssecSpec
open Verif Verif.Dnssec

/-- RFC 4035 5.3.1: a signature with the key on the set, good all the time from `lo` to `hi` -/
structure Genuine (C : Crypto) (s : Sig) (k : Key) (rrset : List Rec) (lo hi : Int) : Prop where
  period : ∀ t : Int, lo ≤ t → t ≤ hi → C.inPeriod s t = true
  crypto : C.check s k rrset = true
  tag : C.keyTag k = s.keyTag
  alg : k.alg = s.alg
  cls : k.hdr.cls = s.hdr.cls
  protocol : k.protocol = 3
  signer : lower k.hdr.name = canonicalName s.signer
  nonempty : rrset ≠ []
  covered : ∀ r ∈ rrset, r.rtype = s.covered ∧ r.hdr.cls = s.hdr.cls
  owner : ∀ r ∈ rrset, ∀ r' ∈ rrset, r.hdr.name = r'.hdr.name
  below : ∀ r ∈ rrset, canonicalName s.signer <:+ canonicalName r.hdr.name

/-- The keys, and the DS records, of a section -/
def keysIn (l : List Rec) : List Key := l.filterMap fun r => match r with
  | .dnskey k => some k
  | _ => none
def dsIn (l : List Rec) : List Ds := l.filterMap fun r => match r with
  | .ds d => some d
  | _ => none

/-- Not a signature -/
def isRecord : Rec → Bool
  | .rrsig _ => false
  | _ => true

/-- The set a record belongs to: the records of the section with its name and type -/
def setIn (l : List Rec) (r : Rec) : List Rec :=
  l.filter fun x => isRecord x && decide (canonicalName x.hdr.name = canonicalName r.hdr.name) && decide (x.rtype = r.rtype)

/-- The signature is meant for the set of the record. -/
def SigFor (l : List Rec) (r : Rec) (s : Sig) : Prop := Rec.rrsig s ∈ l ∧ canonicalName s.hdr.name = canonicalName r.hdr.name ∧ s.covered = r.rtype

structure World where
  lo : Int
  hi : Int
  /-- zones that are signed -/
  signed : Name → Prop
  /-- zones that a signed zone delegates to without DS records -/
  unsigned : Name → Prop
  /-- the keys of signed zones -/
  keys : Name → List Key
  /-- their DS records; for the root these are the trust anchors -/
  ds : Name → List Ds
  /-- what the resolver may say -/
  reply : Str → Nat → Reply → Prop

/-- The set is signed with a zone signing key of the zone. -/
def World.SignedFrom (W : World) (C : Crypto) (z : Name) (l : List Rec) (s : Sig) (rrset : List Rec) : Prop :=
  Rec.rrsig s ∈ l ∧ ∃ k ∈ W.keys z, k.flags = 256 ∧ Genuine C s k rrset W.lo W.hi

/-- The resolver passes on the keys of the zone and a signature on them, made with a key signing key that has a DS record. -/
def World.KeyReply (W : World) (C : Crypto) (z : Name) (m : SMsg) : Prop :=
  m.rcode = 0 ∧ (keysIn m.answer).Perm (W.keys z) ∧ ∃ (s : Sig) (k : Key), Rec.rrsig s ∈ m.answer ∧ s.covered = 48 ∧ canonicalName s.signer = present z ∧
    k ∈ W.keys z ∧ k.flags = 257 ∧ HasDs C k (W.ds z) ∧ Genuine C s k ((W.keys z).map .dnskey) W.lo W.hi

/-- The resolver passes on the DS records of a zone and a signature of the zone above. -/
def World.DsReply (W : World) (C : Crypto) (z parent : Name) (m : SMsg) : Prop :=
  m.rcode = 0 ∧ (dsIn m.answer).Perm (W.ds z) ∧ ∃ s : Sig, s.covered = 43 ∧ W.SignedFrom C parent m.answer s ((W.ds z).map .ds)

/-- The record says that the name is a delegation without DS records: it is an NSEC record of the name that lists NS, but neither DS nor SOA; or an NSEC3
record of a zone above with its hash and such a list; or an NSEC3 record with the opt-out flag that covers its hash. -/
def NoDs (C : Crypto) (z : Name) (r : Rec) : Prop :=
  (∃ n : Nsec, r = .nsec n ∧ canonicalName n.hdr.name = present z ∧ 2 ∈ n.types ∧ 43 ∉ n.types ∧ 6 ∉ n.types) ∨
  (∃ (n : Nsec3) (h o : Str) (a : Name), r = .nsec3 n ∧ n.hdr.name = present (h :: a) ∧ WfName (h :: a) ∧ a ≠ [] ∧ Spec.InCapitals o h ∧ escLabel o = o ∧ AncestorOrSelf a z ∧
    ((o = C.lib.hashName (present z) n.hash n.iterations n.salt ∧ 2 ∈ n.types ∧ 43 ∉ n.types ∧ 6 ∉ n.types) ∨
     (n.flags % 2 = 1 ∧ Between o (C.lib.hashName (present z) n.hash n.iterations n.salt) n.next)))

/-- The resolver passes on that there are no DS records, with a record signed by the zone above that says so. -/
def World.NoDsReply (W : World) (C : Crypto) (z parent : Name) (m : SMsg) : Prop :=
  (m.rcode ≠ 0 ∨ dsIn m.answer = []) ∧ ∃ (r : Rec) (s : Sig), r ∈ m.ns ∧ NoDs C z r ∧ SigFor m.ns r s ∧ W.SignedFrom C parent m.ns s (setIn m.ns r)

structure Honest (C : Crypto) (W : World) : Prop where
  /-- a signature is on a set of records, in any order -/
  anyOrder : ∀ (s : Sig) (k : Key) (l l' : List Rec), l.Perm l' → C.check s k l = C.check s k l'
  /-- the resolver gives a message or an error -/
  given : ∀ n t, ¬ W.reply n t .none
  name : ∀ z, W.signed z → WfName z ∧ canon z = z
  /-- each zone is one label below a signed zone, or the root -/
  above : ∀ l z, W.signed (l :: z) → 46 ∉ l ∧ W.signed z
  /-- keys are zone signing or key signing keys -/
  flags : ∀ z, W.signed z → ∀ k ∈ W.keys z, k.flags = 256 ∨ k.flags = 257
  keys : ∀ z r, W.signed z → W.reply (present z) 48 r → ∃ m, r = .msg m ∧ W.KeyReply C z m
  ds : ∀ l z r, W.signed (l :: z) → W.reply (present (l :: z)) 43 r → ∃ m, r = .msg m ∧ W.DsReply C (l :: z) z m
  unsigned : ∀ u, W.unsigned u → ∃ l z, u = l :: z ∧ WfName u ∧ canon u = u ∧ 46 ∉ l ∧ W.signed z ∧
    ∀ r, W.reply (present u) 43 r → ∃ m, r = .msg m ∧ W.NoDsReply C u z m

/-- The validator has the trust anchors, and what it has kept of a signed zone is outdated or right. Of an unsigned zone it has kept nothing. -/
structure Ready (W : World) (s : Sys) : Prop where
  calls : s.calls = []
  time : W.lo ≤ s.now
  anchors : ∃ e : Int, W.hi ≤ e ∧ s.store.ds root = some ⟨e, W.ds []⟩
  kept : ∀ z ks, W.signed z → s.store.keys (present z) = some ks →
    ks.expiresAt < W.lo ∨ (ks.zsk.Perm ((W.keys z).filter fun k => k.flags = 256) ∧ ks.ksk.Perm ((W.keys z).filter fun k => k.flags = 257))
  keptUnsigned : ∀ u ks, W.unsigned u → s.store.keys (present u) = some ks → ks.expiresAt < W.lo

/-- The validator runs in this world: any number of calls at the same time, with messages read from the wire, as long as everything is valid. -/
inductive World.Reach (W : World) (C : Crypto) (s0 : Sys) : Sys → Prop where
  | refl : Reach W C s0 s0
  | call {s : Sys} {m : SMsg} {t : Int} : Reach W C s0 s → WireMsg m → s.now ≤ t → t ≤ W.hi → Reach W C s0 { s with now := t, calls := s.calls ++ [⟨t, m, validate C m⟩] }
  | step {s : Sys} {i : Nat} {c : Call} {st : Store} {t : Int} {p : Prog (Except VErr Unit)} : Reach W C s0 s → s.calls[i]? = some c →
      Dnssec.Step s.store s.now c.prog st t p → t ≤ W.hi → (∀ n ty k, c.prog = .query n ty k → ∃ r, W.reply n ty r ∧ p = k r) →
      Reach W C s0 { store := st, now := t, calls := s.calls.set i { c with prog := p } }

/-- The set of the record has a good signature, of a signed zone at or above its name. -/
def World.SignedSet (W : World) (C : Crypto) (l : List Rec) (r : Rec) : Prop :=
  ∃ (s : Sig) (z o : Name), SigFor l r s ∧ canonicalName s.signer = present z ∧ W.signed z ∧ WfName o ∧ r.hdr.name = present o ∧ AncestorOrSelf z o ∧
    W.SignedFrom C z l s (setIn l r)

/-- The set of the record in the authority section has a good signature, of a signed zone at or above the name in question. -/
def World.SignedDenial (W : World) (C : Crypto) (l : List Rec) (q : Name) (r : Rec) : Prop :=
  ∃ (s : Sig) (z : Name), SigFor l r s ∧ canonicalName s.signer = present z ∧ W.signed z ∧ AncestorOrSelf z q ∧ W.SignedFrom C z l s (setIn l r)

/-- The name is in an unsigned zone. -/
def World.BelowUnsigned (W : World) (n : Name) : Prop := ∃ u, W.unsigned u ∧ AncestorOrSelf u n

/-- The set of the record is in an unsigned zone. Either it has no signatures. Or they are of a zone that is signed by itself, with a key signing key, but
not known to be signed to the zone above. -/
def World.UnsignedSet (W : World) (l : List Rec) (r : Rec) : Prop :=
  ∃ o : Name, WfName o ∧ r.hdr.name = present o ∧
    (((∀ s, ¬ SigFor l r s) ∧ W.BelowUnsigned o) ∨
     ((∃ s, SigFor l r s) ∧ ∀ s, SigFor l r s → ∃ u, W.unsigned u ∧ canonicalName s.signer = present u ∧ AncestorOrSelf u o ∧
       ∀ x, W.reply (present u) 48 x → ∃ m, x = .msg m ∧ m.rcode = 0 ∧ ∃ k ∈ keysIn m.answer, k.flags = 257))

end Verif.DnssecSpec
