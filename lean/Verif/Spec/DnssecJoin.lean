import Verif.Model.DnssecJoin
import Verif.Spec.Dnssec
import Verif.Spec.DnssecResolver
/-
C90 in words: what a client behind a validating resolver gets.
-/
namespace Verif.Spec.DnssecJoin
open Verif Verif.Dnssec Verif.DnssecSpec

/-- The validator tells records apart as the pipeline does: same owner, same type; records of type 46 are its signatures. -/
structure Faithful (recOf : RR → Rec) : Prop where
  name : ∀ r : RR, (recOf r).hdr.name = r.name
  rtype : ∀ r : RR, (recOf r).rtype = r.rtype
  sig : ∀ r : RR, r.rtype = 46 → ∃ s, recOf r = .rrsig s

/-- The validator looks at the message `a`. -/
structure Sees (recOf : RR → Rec) (a : Msg) (m : SMsg) : Prop where
  rcode : m.rcode = a.rcode
  question : m.question = a.question.head?.map fun x => (x.name, x.qtype)
  answer : m.answer = a.answer.map recOf
  ns : m.ns = a.ns.map recOf

/-- The records with the name and type of `r`. -/
def setOf (l : List RR) (r : RR) : List RR := l.filter fun x => decide (canonicalName x.name = canonicalName r.name ∧ x.rtype = r.rtype)

/-- Between `t0` and `t1` a signature was checked on the set of `r` in `l`, made by a zone at or above its name that is linked to the anchors. -/
def Proven (C : Crypto) (A : List Ds) (recOf : RR → Rec) (l : List RR) (r : RR) (t0 t1 : Int) : Prop :=
  ∃ (sig : Sig) (z n : Name), Rec.rrsig sig ∈ l.map recOf ∧ WfName z ∧ WfName n ∧ r.name = present n ∧ AncestorOrSelf z n ∧
    SignedByZone C A (present (canon z)) sig ((setOf l r).map recOf) t0 t1

end Verif.Spec.DnssecJoin
