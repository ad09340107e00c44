import Verif.Spec.Edns
/-
What a client sees of DNSSEC.
-/
namespace Verif.DnssecView
open Verif

/-- The query that asks for DNSSEC data: the client's query with the DO bit set and a UDP size of 4096, nothing else changed -/
def Asks (q q' : Msg) : Prop :=
  (∃ e : Edns, q.edns? = some e ∧ Replaced q q' e { e with udpSize := 4096, dnssecOk := true }) ∨ Added q q' ⟨4096, true, []⟩

/-- The client set the DO bit -/
def WantsDnssec (q : Msg) : Prop := ∃ e : Edns, q.edns? = some e ∧ e.dnssecOk = true

/-- A signature or denial record the client did not ask for by type -/
def Hidden (asked : Nat) (r : RR) : Prop := (r.rtype = 46 ∨ r.rtype = 47 ∨ r.rtype = 50) ∧ r.rtype ≠ asked ∧ r.isOpt = false

/-- `l'` is `l` without the hidden records: order and number of the others are the same -/
inductive Without (P : RR → Prop) : List RR → List RR → Prop where
  | nil : Without P [] []
  | drop {r : RR} {l l' : List RR} : P r → Without P l l' → Without P (r :: l) l'
  | keep {r : RR} {l l' : List RR} : ¬ P r → Without P l l' → Without P (r :: l) (r :: l')

/-- The message `m` that a client that sent `q` should see of the upstream answer `a`, apart from the AD bit -/
structure View (q a m : Msg) : Prop where
  header : m.id = a.id ∧ m.response = a.response ∧ m.opcode = a.opcode ∧ m.aa = a.aa ∧ m.tc = a.tc ∧ m.rd = a.rd ∧ m.ra = a.ra ∧ m.cd = a.cd ∧ m.rcode = a.rcode
    ∧ m.question = a.question
  /-- with DO everything is there -/
  wanted : WantsDnssec q → m.answer = a.answer ∧ m.ns = a.ns ∧ m.extra = a.extra
  /-- without DO the DNSSEC records are not -/
  answer : ¬ WantsDnssec q → ∀ qu rest, q.question = qu :: rest → Without (Hidden qu.qtype) a.answer m.answer
  ns : ¬ WantsDnssec q → ∀ qu rest, q.question = qu :: rest → Without (Hidden qu.qtype) a.ns m.ns
  /-- no EDNS in the query, no OPT record in the answer -/
  plain : q.edns? = none → ∀ qu rest, q.question = qu :: rest → Without (fun r => Hidden qu.qtype r ∨ r.isOpt = true) a.extra m.extra
  /-- EDNS without DO: the DO bit is clear in the answer, all else in the OPT record is the same -/
  edns : ∀ e : Edns, q.edns? = some e → e.dnssecOk = false → ∀ qu rest, q.question = qu :: rest → ∃ b : Msg, Without (Hidden qu.qtype) a.extra b.extra ∧
      ((∃ e' : Edns, Replaced b m e' { e' with dnssecOk := false }) ∨ (b.edns? = none ∧ m.extra = b.extra))

end Verif.DnssecView
