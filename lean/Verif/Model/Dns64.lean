import Verif.Model.Cidr
/-
dns64.go. The resolver behind the element is a function of the query (`ClientInfo` is passed on unchanged and left out).
-/
namespace Verif.Dns64
open Verif Verif.Net Verif.Cidr

/-- dns64.go:32-35 -/
structure Pfx where
  ip : Str
  len : Nat
deriving DecidableEq, Repr

/-- dns64.go:188-195 `hasAAAARecords` -/
def hasAAAA (m : Msg) : Bool := m.answer.any fun rr => rr.rtype = typeAAAA

/-- `copy(ipv6, prefix.ip)` into 16 zero bytes. dns64.go:203. -/
def copy16 (ip : Str) : Str := ip.take 16 ++ List.replicate (16 - ip.length) 0

/-- dns64.go:200-244 `synthesizeIPv6`; `none` is the panic on an address that is not IPv4 (dns64.go:163-166 leaves these out before) -/
def synthesize (p : Pfx) (ip : Str) : Option Str := match to4 ip with
  | some [a, b, c, d] =>
    let x := copy16 p.ip
    some <|
      if p.len = 96 then (((x.set 12 a).set 13 b).set 14 c).set 15 d
      else if p.len = 64 then ((((x.set 8 0).set 9 a).set 10 b).set 11 c).set 12 d
      else if p.len = 56 then ((((x.set 7 a).set 8 0).set 9 b).set 10 c).set 11 d
      else if p.len = 48 then ((((x.set 6 a).set 7 b).set 8 0).set 9 c).set 10 d
      else if p.len = 40 then ((((x.set 5 a).set 6 b).set 7 c).set 8 0).set 9 d
      else if p.len = 32 then ((((x.set 4 a).set 5 b).set 6 c).set 7 d).set 8 0
      else x
  | _ => none

/-- dns64.go:167-178: the records for one address -/
def synthesizeAll (prefixes : List Pfx) (qu : Question) (ttl : Nat) (ip4 : Str) : List RR := prefixes.filterMap fun p =>
  (synthesize p ip4).map fun ip6 => { name := qu.name, rtype := typeAAAA, cls := qu.qclass, ttl := ttl, data := .aaaa ip6 }

/-- dns64.go:155-185 `synthesizeAAAA` -/
def synthesizeAAAA (prefixes : List Pfx) (aAnswer : Msg) (qu : Question) : List RR :=
  let cnames := aAnswer.answer.filter fun rr => match rr.data with
    | .cname _ => true
    | _ => false
  let aaaa := aAnswer.answer.flatMap fun rr => match rr.data with
    | .a ip => match to4 ip with
      | some ip4 => synthesizeAll prefixes qu rr.ttl ip4
      | none => []
    | _ => []
  if aaaa = [] then [] else cnames ++ aaaa

/-- dns64.go:116-117 -/
def aQuery (q : Msg) : Msg := { q with question := match q.question with
  | [] => []
  | qu :: rest => { qu with qtype := typeA } :: rest }

/-- dns64.go:71-146 `Resolve`; `none` is the panic on a query without question -/
def resolve (prefixes : List Pfx) (up : Msg → Res) (q : Msg) : Option Res := match q.question with
  | [] => none
  | qu :: _ =>
    if qu.qtype ≠ typeAAAA then some (up q)
    else if (q.edns?.map (·.dnssecOk)).getD false then some (up q)
    else
      let r := up q
      if r.err.isSome then some r
      else match r.msg with
        | none => some r
        | some answer =>
          if answer.rcode ≠ rcodeSuccess then some r
          else if hasAAAA answer then some r
          else
            let ra := up (aQuery q)
            if ra.err.isSome then some r
            else match ra.msg with
              | none => some r
              | some aAnswer =>
                if aAnswer.rcode ≠ rcodeSuccess then some r
                else if synthesizeAAAA prefixes aAnswer qu = [] then some r
                else some (.ok { setReply q with ra := answer.ra, answer := synthesizeAAAA prefixes aAnswer qu, ns := aAnswer.ns, extra := aAnswer.extra })

/-- dns64.go:247-269 `parseDNS64Prefixes`; `parseCIDR` is `net.ParseCIDR` -/
def parsePrefixes (parseCIDR : Str → Option (Str × IPNet)) : List Str → Option (List Pfx)
  | [] => some []
  | s :: ss => match parseCIDR s with
    | none => none
    | some (_, n) =>
      if n.ip.length ≠ 16 then none
      else if ¬ n.ones ∈ [32, 40, 48, 56, 64, 96] then none
      else (parsePrefixes parseCIDR ss).map (⟨n.ip, n.ones⟩ :: ·)

/-- dns64.go:47-67 `NewDNS64` -/
def newDns64 (parseCIDR : Str → Option (Str × IPNet)) (ps : List Str) : Option (List Pfx) :=
  parsePrefixes parseCIDR (if ps = [] then [str "64:ff9b::/96"] else ps)

end Verif.Dns64
