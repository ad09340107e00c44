import Verif.Model.Dns
/-
dnssec.go: the resolver around the validator, and the choice of the trust anchors (dnssec-iana.go).
The validator itself is in Model/Dnssec.lean; here its verdict on a message is a parameter.
-/
namespace Verif.DnssecResolver
open Verif

/-- What `validator.Validate` returns (dnssec.go:133-146): nil, an error that is `ErrInsecureDelegation`, any other error -/
inductive Verdict where
  | valid
  | insecure
  | bogus
deriving DecidableEq, Repr

/-- dnssec.go:183-204 -/
def filterDNSSECRR (rrs : List RR) (qtype : Nat) : List RR :=
  rrs.filter fun rr =>
    if rr.isOpt then true
    else if rr.rtype = qtype then true
    else if rr.rtype = typeRRSIG ∨ rr.rtype = typeNSEC ∨ rr.rtype = typeNSEC3 then false
    else true

/-- dnssec.go:156-179. The slices are filtered in place: the message is changed, not copied. -/
def stripDNSSEC (answer : Msg) (clientSetDo clientHadEdns0 : Bool) (qtype : Nat) : Msg :=
  if clientSetDo then answer
  else
    let answer := { answer with answer := filterDNSSECRR answer.answer qtype, ns := filterDNSSECRR answer.ns qtype, extra := filterDNSSECRR answer.extra qtype }
    if clientHadEdns0 = false then { answer with extra := answer.extra.filter fun rr => !rr.isOpt }
    else answer.mapEdns fun e => { e with dnssecOk := false }

/-- dnssec.go:110-120: the query sent upstream -/
def upstreamQuery (q : Msg) : Msg := match q.edns? with
  | none => q.setEdns0 4096 true
  | some _ => q.mapEdns fun e => { e with udpSize := 4096, dnssecOk := true }

/-- dnssec.go:101-152. `none`: the query has no question and the index panics. Logging and metrics are left out. -/
def resolve (logOnly : Bool) (validate : Msg → Verdict) (up : Msg → ClientInfo → Res) (q : Msg) (ci : ClientInfo) : Option Res :=
  let clientHadEdns0 := q.edns?.isSome
  let clientSetDo := match q.edns? with | some e => e.dnssecOk | none => false
  match q.question with
  | [] => none
  | qu :: _ =>
    let r := up (upstreamQuery q) ci
    some (match r.err, r.msg with
    | some _, _ => r
    | none, none => r
    | none, some answer =>
      if answer.rcode ≠ rcodeSuccess ∧ answer.rcode ≠ rcodeNameError then .ok (stripDNSSEC answer clientSetDo clientHadEdns0 qu.qtype)
      else match validate answer with
        | .insecure => .ok (stripDNSSEC answer clientSetDo clientHadEdns0 qu.qtype)
        | .bogus => if logOnly = false then .ok (servfail q) else .ok (stripDNSSEC answer clientSetDo clientHadEdns0 qu.qtype)
        | .valid => .ok (stripDNSSEC { answer with ad := true } clientSetDo clientHadEdns0 qu.qtype))

/-! ### Trust anchors -/

/-- dnssec.go:30-36 -/
structure Anchor where
  owner : Str
  keyTag : Nat
  algorithm : Nat
  digestType : Nat
  digest : Str
deriving DecidableEq, Repr

/-- dnssec.go:47-62 -/
def defaultAnchors : List Anchor :=
  [⟨str ".", 20326, 8, 2, str "E06D44B80B8F1D39A95C0B0D7C65D08458E880409BBC683457104237C7F8EC8D"⟩,
   ⟨str ".", 38696, 8, 2, str "683D2D0ACB8C9B712A1948B27F741219298D0A450D612C483AF444A4C0FB2B16"⟩]

/-- dnssec-iana.go:21-28 -/
structure KeyDigest where
  validFrom : Str
  validUntil : Str
  keyTag : Nat
  algorithm : Nat
  digestType : Nat
  digest : Str
deriving DecidableEq, Repr

/-- dnssec-iana.go:85-95; `parse` is `time.Parse(time.RFC3339, _)` -/
def ianaValid (parse : Str → Option Int) (kd : KeyDigest) (now : Int) : Bool :=
  if kd.validUntil = [] then true
  else match parse kd.validUntil with
    | none => true
    | some t => now < t

/-- dnssec-iana.go:32-81. `body` is what the request and the XML decoder give: nothing on any error. -/
def fetch (parse : Str → Option Int) (body : Option (List KeyDigest)) (now : Int) : Option (List Anchor) := match body with
  | none => none
  | some kds =>
    let anchors := (kds.filter fun kd => ianaValid parse kd now).map fun kd => ⟨str ".", kd.keyTag, kd.algorithm, kd.digestType, kd.digest⟩
    if anchors.length = 0 then none else some anchors

/-- dnssec.go:72-86: the anchors that are set -/
def chooseAnchors (parse : Str → Option Int) (configured : List Anchor) (url : Str) (body : Option (List KeyDigest)) (now : Int) : List Anchor :=
  let anchors := if configured.length = 0 ∧ url ≠ [] then (fetch parse body now).getD [] else configured
  if anchors.length = 0 then defaultAnchors else anchors

end Verif.DnssecResolver
