import Verif.Model.Dedup
/-
C22, C23 in words.
-/
namespace Verif.Spec.Dedup
open Verif Verif.Net Verif.Dedup

/-- The reply `res` is the upstream result `r` made out to the query `q`: same error, a message iff the upstream gave one, with the ID and
question of `q` and everything else as the upstream gave it. -/
def MadeOutTo (q : Msg) (r res : Res) : Prop :=
  res.err = r.err ∧
  match r.msg, res.msg with
  | none, none => True
  | some a, some b => b.id = q.id ∧ b.question = q.question ∧ b = { a with id := b.id, question := b.question }
  | _, _ => False

/-- The queries that arrived in a history, in order: caller `c` is the `c`-th of them. -/
def arrivals (evs : List Ev) : List Msg := evs.filterMap fun e => match e with
  | .arrive q => some q
  | _ => none

/-- Upstream calls made for callers in this state and not answered. -/
def outstanding (s : Sys) (c : Nat) : Prop := ∃ x, s.callers[c]? = some x ∧ x.ph = .calling

/-- The first client-subnet option of a query: family, address and prefix length. -/
def subnet (q : Msg) : Option (Nat × Str × Nat) := match q.edns? with
  | none => none
  | some e => e.options.findSome? fun o => match o with
    | .ecs f m _ a => some (f, a, m)
    | _ => none

/-- The DO bit -/
def wantsDnssec (q : Msg) : Bool := match q.edns? with
  | none => false
  | some e => e.dnssecOk

/-- A subnet option with a non-zero address that belongs to its family. -/
def Proper (e : Nat × Str × Nat) : Prop :=
  (e.1 = 1 ∧ ∃ b, to4 e.2.1 = some b ∧ b ≠ [0, 0, 0, 0]) ∨ (e.1 = 2 ∧ e.2.1.length = 16 ∧ e.2.1 ≠ List.replicate 16 0)

/-- The same network: family, address (4-byte and IPv4-mapped form are the same IPv4 address) and prefix length. -/
def SameNet (a b : Nat × Str × Nat) : Prop :=
  a.1 = b.1 ∧ a.2.2 = b.2.2 ∧ if a.1 = 1 then to4 a.2.1 = to4 b.2.1 else a.2.1 = b.2.1

end Verif.Spec.Dedup
