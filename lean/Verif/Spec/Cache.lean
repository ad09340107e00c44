import Verif.Model.Dns
/-
What a user expects of the cache, stated on DNS messages only.
-/
namespace Verif.Spec.Cache
open Verif

/-- Two lists related element by element. -/
def Pointwise {α β : Type} (R : α → β → Prop) : List α → List β → Prop
  | [], [] => True
  | a :: as, b :: bs => R a b ∧ Pointwise R as bs
  | _, _ => False

/-- The client subnet of a query: the last subnet option, as address text and prefix length. -/
def subnet (ipStr : Str → Str) (q : Msg) : Option (Str × Nat) :=
  q.edns?.bind fun e => e.options.reverse.findSome? fun o => match o with
    | .ecs _ mask _ addr => some (ipStr addr, mask)
    | _ => none

/-- The DO bit of a query. -/
def wantsDnssec (q : Msg) : Bool := match q.edns? with
  | some e => e.dnssecOk
  | none => false

/-- Two queries ask for the same thing: question (ignoring ASCII case), DO, CD, client subnet. -/
structure SameRequest (ipStr : Str → Str) (q q' : Msg) : Prop where
  question : ∃ a b, q.question.head? = some a ∧ q'.question.head? = some b ∧
    lower a.name = lower b.name ∧ a.qtype = b.qtype ∧ a.qclass = b.qclass
  cd : q.cd = q'.cd
  dnssec : wantsDnssec q = wantsDnssec q'
  subnet : subnet ipStr q = subnet ipStr q'

/-- Record `r'` is `r` after `secs` seconds: still alive, TTL lowered by exactly `secs`. OPT
pseudo-records are untouched. -/
def Lowered (secs : Nat) (r r' : RR) : Prop :=
  if r.isOpt = true then r' = r else secs < r.ttl ∧ r' = { r with ttl := r.ttl - secs }

/-- `a` is message `m` served `secs` seconds later to query `q`. -/
structure AgedCopy (secs : Nat) (q m a : Msg) : Prop where
  id : a.id = q.id
  question : a.question = q.question
  answer : Pointwise (Lowered secs) m.answer a.answer
  ns : Pointwise (Lowered secs) m.ns a.ns
  extra : Pointwise (Lowered secs) m.extra a.extra
  header : { a with id := m.id, question := m.question, answer := m.answer, ns := m.ns, extra := m.extra } = m

/-- Whole seconds between two instants in nanoseconds, zero if the clock went backwards. -/
def wholeSeconds (stored now : Int) : Nat := ((now - stored) / 1000000000).toNat

/-- Lowest TTL of the records that have one (OPT does not). -/
def lowestTTL (m : Msg) : Option Nat := ((m.records.filter (fun r => ! r.isOpt)).map (·.ttl)).min?

/-- Response codes that may be cached. -/
def cacheable (rcode : Nat) : Bool := [0, 1, 2, 3, 4, 5].contains rcode

/-- How many seconds a response may be kept: SERVFAIL the negative TTL but at most 300; other responses
the lowest TTL, or the negative TTL without records; never more than the limit for the code. -/
def keepFor (negativeTTL : Nat) (limit : Nat → Option Nat) (m : Msg) : Nat :=
  let base := if m.rcode = 2 then min negativeTTL 300 else (lowestTTL m).getD negativeTTL
  match limit m.rcode with
  | some l => min base l
  | none => base

/-- The names above `name`, nearest first, the top level being the last: leading labels removed at each dot. -/
def higherNames (name : Str) : List Str :=
  let parts := splitOn dot name
  (List.range' 1 (parts.length - 2)).map fun i => joinWith dot (parts.drop i)

/-- The same query for another name. -/
def withName (q : Msg) (n : Str) : Msg := match q.question with
  | [] => q
  | a :: rest => { q with question := { a with name := n } :: rest }

end Verif.Spec.Cache
