import Verif.Model.Blocklist
/-
C33-C36 in words.
-/
namespace Verif.Spec.Blocklist
open Verif Verif.Net Verif.Lists Verif.Blocklist

/-- `m` is formally a reply to `q`. -/
def RepliesTo (q m : Msg) : Prop :=
  m.response = true ∧ m.id = q.id ∧ m.opcode = q.opcode ∧ m.question = q.question.take 1 ∧ m.ra = true

/-- `m` denies the existence of the name asked for and tells nothing else, except for an extended error. -/
def Denial (q m : Msg) : Prop :=
  RepliesTo q m ∧ m.rcode = rcodeNameError ∧ m.answer = [] ∧ m.ns = [] ∧
    (m.extra = [] ∨ ∃ (code : Nat) (text : Str) (r : RR), m.extra = [r] ∧ r.data = .opt 4096 false [.ede code text])

/-- The list has something to say about the message. -/
def On (db : Msg → Option Hit) (q : Msg) : Prop := ∃ h, db q = some h

/-- The record of the type asked for that an address of a list turns into -/
def SpoofRecord (qu : Question) (ip : Str) (r : RR) : Prop :=
  r.name = qu.name ∧ r.cls = qu.qclass ∧ r.rtype = qu.qtype ∧ r.ttl = 3600 ∧
    ((qu.qtype = typeA ∧ (to4 ip).isSome ∧ r.data = .a ip) ∨ (qu.qtype = typeAAAA ∧ ip.length = 16 ∧ r.data = .aaaa ip))

/-- The record holds an address that the list (inverted: only the list) objects to. -/
def BadAddress (db : Str → Option Match) (inverted : Bool) (r : RR) : Prop :=
  ∃ ip, (r.data = .a ip ∨ r.data = .aaaa ip) ∧ (if inverted then db ip = none else ∃ m, db ip = some m)

/-- The text of a record that a name list is asked about -/
inductive Text : RData → Str → Prop
  | cname (t : Str) : Text (.cname t) t
  | mx (t : Str) : Text (.mx t) t
  | ns (t : Str) : Text (.ns t) t
  | ptr (t : Str) : Text (.ptr t) t
  | srv (t : Str) : Text (.srv t) t
  | soa (t : Str) (n : Nat) : Text (.soa t n) t
  | txt (ps : List Str) : Text (.txt ps) (joinWith 32 ps)
  | svcb (https : Bool) (t : Str) (ps : List (Str × Str)) : Text (.svcb https t ps) (t ++ ps.flatMap fun p => [32] ++ p.1 ++ [61] ++ p.2)

/-- The record holds a name that the list (inverted: only the list) objects to. -/
def BadName (db : Str → Option Match) (inverted : Bool) (r : RR) : Prop :=
  ∃ n, Text r.data n ∧ (if inverted then db n = none else ∃ m, db n = some m)

/-- What a list says about a name in a response -/
def nameRule (db : Msg → Option Hit) (n : Str) : Option Match :=
  (db { rd := true, question := [⟨n, 0, classINET⟩] }).map (·.rule)

end Verif.Spec.Blocklist
