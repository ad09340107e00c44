import Verif.Model.Lists
import Verif.Model.Domain
/-
blocklist.go, client-blocklist.go, response-blocklist-ip.go, response-blocklist-name.go, edns0ede.go.

What one query leads to is an `Act`: either a result, or the query is handed to one of the resolvers behind the element and their result is returned
as it is. A list is the function `Match` of the interface; a `nil` list is `none`.
-/
namespace Verif.Blocklist
open Verif Verif.Net Verif.Lists

/-- The resolvers behind an element. blocklist.go:15-48, client-blocklist.go:15-38 and so on. -/
inductive Target where
  /-- the resolver of the element -/
  | upstream
  /-- `allowlist-resolver` -/
  | allow
  /-- `blocklist-resolver` -/
  | block
deriving DecidableEq, Repr

/-- blocklist.go:90-190 and the like: what one call of `Resolve` comes to -/
inductive Act where
  | forward (t : Target) (q : Msg)
  | done (r : Res)
deriving DecidableEq, Repr

/-! ### Extended errors -/

/-- template.go:33-40; class and type as numbers instead of their names -/
structure TemplateInput where
  id : Nat
  question : Str
  qclass : Nat
  qtype : Nat
  list : Str := []
  rule : Str := []
deriving DecidableEq, Repr

/-- edns0ede.go:7-10; the text template is a function that may fail -/
structure Ede where
  infoCode : Nat
  text : TemplateInput → Option Str

/-- edns0ede.go:36-66 `Apply` on a message made by this program (without OPT); a failing template leaves the message alone. -/
def applyEde (t : Option Ede) (msg q : Msg) (m : Option Match) : Msg := match t with
  | none => msg
  | some t =>
    let qu := q.question.head?.getD ⟨[], 0, 0⟩
    let mt := m.getD ⟨[], []⟩
    match t.text { id := q.id, question := qu.name, qclass := qu.qclass, qtype := qu.qtype, list := mt.list, rule := mt.rule } with
    | none => msg
    | some text => (msg.setEdns0 4096 false).mapEdns fun e => { e with options := e.options ++ [.ede t.infoCode text] }

/-! ### Blocklist -/

/-- blocklist.go:25-48, without the refresh times -/
structure Options where
  allowDB : Option (Msg → Option Hit) := none
  hasAllowResolver : Bool := false
  blockDB : Msg → Option Hit
  hasBlockResolver : Bool := false
  ede : Option Ede := none

/-- blocklist.go:59 -/
def maxPTRResponses : Nat := 10

/-- `dns.IsFqdn`. miekg/dns; called from `dns.Fqdn`, message.go:107. -/
def isFqdn (s : Str) : Bool := match s.reverse with
  | 46 :: rest => (rest.takeWhile (· = 92)).length % 2 = 0
  | _ => false
/-- `dns.Fqdn`. miekg/dns; used in message.go:107, dnssec/denial_existence.go:321 and dnssec/validator.go:123. -/
def fqdn (s : Str) : Str := if isFqdn s then s else s ++ [46]

/-- message.go:94-113 `ptr` -/
def ptrAnswer (q : Msg) (qu : Question) (names : List Str) : Msg :=
  { setReply q with ra := true
                    answer := names.map fun n => { name := qu.name, rtype := typePTR, cls := classINET, ttl := 3600, data := .ptr (fqdn n) } }

/-- blocklist.go:152-175: the records made from the addresses of a list -/
def spoof (qu : Question) (ips : List Str) : List RR := ips.filterMap fun ip =>
  if (to4 ip).isSome ∧ qu.qtype = typeA then some { name := qu.name, rtype := typeA, cls := qu.qclass, ttl := 3600, data := .a ip }
  else if ip.length = 16 ∧ qu.qtype = typeAAAA then some { name := qu.name, rtype := typeAAAA, cls := qu.qclass, ttl := 3600, data := .aaaa ip }
  else none

/-- blocklist.go:90-190 `Resolve`; `none` is the panic on a query without question -/
def resolve (o : Options) (q : Msg) : Option Act := match q.question with
  | [] => none
  | qu :: _ =>
    if (o.allowDB.bind fun db => db q).isSome then
      some (.forward (if o.hasAllowResolver then .allow else .upstream) q)
    else match o.blockDB q with
      | none => some (.forward .upstream q)
      | some hit =>
        if qu.qtype = typePTR ∧ hit.names.length > 0 then
          some (.done (.ok (ptrAnswer q qu (if hit.names.length > maxPTRResponses then hit.names.take maxPTRResponses else hit.names))))
        else if o.hasBlockResolver then some (.forward .block q)
        else if (spoof qu hit.ips).length > 0 then
          some (.done (.ok { setReply q with ra := true, answer := spoof qu hit.ips }))
        else some (.done (.ok { applyEde o.ede { setReply q with ra := true } q (some hit.rule) with rcode := rcodeNameError }))

/-- blocklistdb-domain.go:183-224 `Match` of a domain list -/
def domainMatch (h : Domain.Heap) (list : Str) (q : Msg) : Option Hit :=
  q.question.head?.bind fun qu => (Domain.lookupName h qu.name).map fun rule => { rule := ⟨list, rule⟩ }

/-! ### Client blocklist -/

/-- client-blocklist.go:61-72: the address to check -/
def clientIP (useECS : Bool) (q : Msg) (ci : ClientInfo) : Str :=
  if useECS then
    match q.edns? with
    | none => ci.sourceIP
    | some e => (e.options.findSome? fun o => match o with
        | .ecs _ _ _ addr => some addr
        | _ => none).getD ci.sourceIP
  else ci.sourceIP

/-- client-blocklist.go:58-103 `Resolve` -/
def resolveClient (useECS hasBlockResolver : Bool) (db : Str → Option Match) (q : Msg) (ci : ClientInfo) : Act :=
  let ip := clientIP useECS q ci
  if ip = [] then .forward .upstream q
  else match db ip with
    | some _ => if hasBlockResolver then .forward .block q else .done (.ok (refused q))
    | none => .forward .upstream q

/-! ### Response blocklist for addresses -/

/-- response-blocklist-ip.go:33-52 -/
structure IpOptions where
  db : Str → Option Match
  hasBlockResolver : Bool := false
  filter : Bool := false
  inverted : Bool := false
  ede : Option Ede := none

/-- response-blocklist-ip.go:119-127 -/
def addressOf (rr : RR) : Option Str := match rr.data with
  | .a ip => some ip
  | .aaaa ip => some ip
  | _ => none

/-- response-blocklist-ip.go:117-146: the first record that is to be blocked: what the list said about it -/
def firstBad {κ : Type} (key : RR → Option κ) (db : κ → Option Match) (inverted : Bool) : List RR → Option (Option Match)
  | [] => none
  | rr :: rest => match key rr with
    | none => firstBad key db inverted rest
    | some k => if (db k).isSome ≠ inverted then some (db k) else firstBad key db inverted rest

/-- response-blocklist-ip.go:116-148 `blockIfMatch`; the same with names instead of addresses in response-blocklist-name.go:89-133 -/
def blockIfMatch {κ : Type} (key : RR → Option κ) (db : κ → Option Match) (inverted hasBlockResolver : Bool) (ede : Option Ede) (q answer : Msg) : Act :=
  match firstBad key db inverted (answer.answer ++ answer.ns ++ answer.extra) with
  | none => .done (.ok answer)
  | some m => if hasBlockResolver then .forward .block q else .done (.ok (applyEde ede (nxdomain q) q m))

/-- response-blocklist-ip.go:167-192 `filterRR` -/
def filterRR (o : IpOptions) : List RR → List RR
  | [] => []
  | rr :: rest => match addressOf rr with
    | none => rr :: filterRR o rest
    | some ip => if (o.db ip).isSome ≠ o.inverted then filterRR o rest else rr :: filterRR o rest

/-- response-blocklist-ip.go:150-165 `filterMatch` -/
def filterMatch (o : IpOptions) (q answer : Msg) : Act :=
  if filterRR o answer.answer = [] then
    if o.hasBlockResolver then .forward .block q else .done (.ok (nxdomain q))
  else .done (.ok { answer with answer := filterRR o answer.answer, ns := filterRR o answer.ns, extra := filterRR o answer.extra })

/-- response-blocklist-ip.go:67-79 `Resolve`; `up` is what the resolver said. -/
def resolveIp (o : IpOptions) (up : Res) (q : Msg) : Act := match up.msg, up.err with
  | some answer, none =>
    if answer.rcode ≠ rcodeSuccess then .done up
    else if o.filter then filterMatch o q answer
    else blockIfMatch addressOf o.db o.inverted o.hasBlockResolver o.ede q answer
  | _, _ => .done up

/-! ### Response blocklist for names -/

/-- response-blocklist-name.go:22-37 -/
structure NameOptions where
  db : Msg → Option Hit
  hasBlockResolver : Bool := false
  inverted : Bool := false
  ede : Option Ede := none

/-- response-blocklist-name.go:137-147 `svcbString` -/
def svcbString (target : Str) (params : List (Str × Str)) : Str := target ++ params.flatMap fun p => [32] ++ p.1 ++ [61] ++ p.2

/-- response-blocklist-name.go:92-114 -/
def nameOf (rr : RR) : Option Str := match rr.data with
  | .cname t => some t
  | .mx t => some t
  | .ns t => some t
  | .ptr t => some t
  | .srv t => some t
  | .svcb _ t ps => some (svcbString t ps)
  | .txt parts => some (joinWith 32 parts)
  | .soa n _ => some n
  | _ => none

/-- response-blocklist-name.go:115-116: the message the list is asked about (its random id, which lists do not look at, is left out) -/
def askName (name : Str) : Msg := { rd := true, question := [⟨name, 0, classINET⟩] }

/-- response-blocklist-name.go:52-58 `Resolve` -/
def resolveName (o : NameOptions) (up : Res) (q : Msg) : Act := match up.msg, up.err with
  | some answer, none =>
    blockIfMatch nameOf (fun n => (o.db (askName n)).map (·.rule)) o.inverted o.hasBlockResolver o.ede q answer
  | _, _ => .done up

end Verif.Blocklist
