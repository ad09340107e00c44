/-
Shared vocabulary: byte strings, DNS messages, resolver results.

`github.com/miekg/dns` itself is not part of the repository. The types below keep the parts of
`dns.Msg`, `dns.RR` and `dns.EDNS0` that the modelled code looks at.
-/
namespace Verif

/-- A Go `string` or `[]byte`: a list of bytes. A Go type, used everywhere in /repo (*.go). -/
abbrev Str := List UInt8

/-- ASCII literal as bytes; used in examples and for constants. Not part of the code (*.go). -/
def str (s : String) : Str := s.toList.map (fun c => c.toNat.toUInt8)

/-- ASCII lower case of one byte. Go's `strings.ToLower` on ASCII input. Used in lru-cache.go:290. -/
def lowerByte (c : UInt8) : UInt8 := if 65 ≤ c ∧ c ≤ 90 then c + 32 else c

/-- `strings.ToLower`, restricted to ASCII (names in presentation form are ASCII). Used in lru-cache.go:290, blocklistdb-domain.go:185 and others. -/
def lower (s : Str) : Str := s.map lowerByte

/-- `strings.EqualFold`, restricted to ASCII. Used in message.go:33. -/
def equalFold (a b : Str) : Bool := lower a == lower b

/-- `strings.TrimSpace`, restricted to ASCII white space. Used in blocklistdb-domain.go:71. -/
def isSpace (c : UInt8) : Bool := c = 32 || (9 ≤ c && c ≤ 13)
/-- `strings.TrimSpace`, restricted to ASCII white space; used in blocklistdb-domain.go:71 -/
def trimSpace (s : Str) : Str := ((s.dropWhile isSpace).reverse.dropWhile isSpace).reverse

/-- `strings.TrimSuffix(s, ".")`. Used in blocklistdb-domain.go:74, 185. -/
def trimDot (s : Str) : Str := if s.getLast? = some 46 then s.dropLast else s

/-- The byte `'.'`. As in blocklistdb-domain.go:88. -/
abbrev dot : UInt8 := 46

/-- `strings.Split(s, sep)` for a one byte separator: always at least one part. Used in blocklistdb-domain.go:88, 187, cache.go:306. -/
def splitOn (sep : UInt8) : Str → List Str
  | [] => [[]]
  | c :: cs =>
    if c = sep then [] :: splitOn sep cs
    else match splitOn sep cs with
      | [] => [[c]]
      | p :: ps => (c :: p) :: ps

/-- `strings.Join(parts, sep)` for a one byte separator. Used in blocklistdb-domain.go:236, cache.go:308. -/
def joinWith (sep : UInt8) : List Str → Str
  | [] => []
  | [p] => p
  | p :: q :: ps => p ++ sep :: joinWith sep (q :: ps)

/-! ### Record types, classes, response codes (constants of `miekg/dns`). `dns.TypeA` of miekg/dns; used in blocklist.go:154 -/
abbrev typeA : Nat := 1
/-- `dns.TypeNS` of miekg/dns; used in dnssec/denial.go:73 -/
abbrev typeNS : Nat := 2
/-- `dns.TypeCNAME` of miekg/dns; used in dnssec/denial_existence.go:121 -/
abbrev typeCNAME : Nat := 5
/-- `dns.TypeSOA` of miekg/dns; used in dnssec/denial.go:75 -/
abbrev typeSOA : Nat := 6
/-- `dns.TypePTR` of miekg/dns; used in blocklist.go:132 -/
abbrev typePTR : Nat := 12
/-- `dns.TypeHINFO` of miekg/dns; used in resolver.go:39 -/
abbrev typeHINFO : Nat := 13
/-- `dns.TypeMX` of miekg/dns; not named in the code (*.go), used in examples -/
abbrev typeMX : Nat := 15
/-- `dns.TypeAAAA` of miekg/dns; used in blocklist.go:164 -/
abbrev typeAAAA : Nat := 28
/-- `dns.TypeSRV` of miekg/dns; not named in the code (*.go), used in examples -/
abbrev typeSRV : Nat := 33
/-- `dns.TypeOPT` of miekg/dns; used in lua-opt.go:24 -/
abbrev typeOPT : Nat := 41
/-- `dns.TypeDS` of miekg/dns; used in dnssec/denial.go:74 -/
abbrev typeDS : Nat := 43
/-- `dns.TypeRRSIG` of miekg/dns; used in dnssec.go:198 -/
abbrev typeRRSIG : Nat := 46
/-- `dns.TypeNSEC` of miekg/dns; used in dnssec.go:198 -/
abbrev typeNSEC : Nat := 47
/-- `dns.TypeDNSKEY` of miekg/dns; used in dnssec/validator.go:283 -/
abbrev typeDNSKEY : Nat := 48
/-- `dns.TypeNSEC3` of miekg/dns; used in dnssec.go:198 -/
abbrev typeNSEC3 : Nat := 50
/-- `dns.TypeANY` of miekg/dns; used in resolver.go:38 -/
abbrev typeANY : Nat := 255
/-- `dns.ClassINET` of miekg/dns; used in message.go:104 -/
abbrev classINET : Nat := 1
/-- `dns.ClassANY` of miekg/dns; the number 255 in route.go:276-291 `classToString` and the parsing of classes -/
abbrev classANY : Nat := 255

/-- `dns.RcodeSuccess` of miekg/dns; used in cache.go:332 -/
abbrev rcodeSuccess : Nat := 0
/-- `dns.RcodeFormatError` of miekg/dns; used in cache.go:332 -/
abbrev rcodeFormatError : Nat := 1
/-- `dns.RcodeServerFailure` of miekg/dns; used in cache.go:339 -/
abbrev rcodeServerFailure : Nat := 2
/-- `dns.RcodeNameError` of miekg/dns; used in cache.go:310 -/
abbrev rcodeNameError : Nat := 3
/-- `dns.RcodeNotImplemented` of miekg/dns; used in cache.go:332 -/
abbrev rcodeNotImplemented : Nat := 4
/-- `dns.RcodeRefused` of miekg/dns; used in cache.go:332 -/
abbrev rcodeRefused : Nat := 5

/-- `dns.OpcodeQuery` of miekg/dns; used in message.go:59 -/
abbrev opcodeQuery : Nat := 0
/-- `dns.OpcodeNotify` of miekg/dns; used in message.go:59 -/
abbrev opcodeNotify : Nat := 4

/-- `math.MaxUint32`, cache.go:365 -/
abbrev maxUint32 : Nat := 4294967295
/-- `math.MaxUint16`, cache-blob.go:98 -/
abbrev maxUint16 : Nat := 65535

/-- An EDNS0 option (`dns.EDNS0`). Only the kinds the code inspects get a constructor. Inspected in ecs-modifier.go, edns0-modifier.go, edns0ede.go, mac-db.go and others. -/
inductive EOpt where
  /-- `*dns.EDNS0_SUBNET`: family, source netmask, scope, address bytes (`net.IP`). -/
  | ecs (family mask scope : Nat) (addr : Str)
  /-- `*dns.EDNS0_EDE` -/
  | ede (code : Nat) (text : Str)
  /-- `*dns.EDNS0_PADDING` -/
  | padding (len : Nat)
  /-- `*dns.EDNS0_TCP_KEEPALIVE` -/
  | keepalive
  /-- `*dns.EDNS0_LOCAL` -/
  | loc (code : Nat) (data : Str)
  /-- any other kind -/
  | other (code : Nat) (data : Str)
deriving DecidableEq, Repr

/-- `EDNS0.Option()`: the option code. miekg/dns; used in edns0-modifier.go. -/
def EOpt.code : EOpt → Nat
  | .ecs .. => 8
  | .ede .. => 15
  | .padding _ => 12
  | .keepalive => 11
  | .loc c _ => c
  | .other c _ => c

/-- Record data. The constructor is the dynamic Go type of the record (`*dns.A`, ...). The types that the code tells apart, for example in dns64.go and fastest-tcp.go. -/
inductive RData where
  | a (ip : Str)
  | aaaa (ip : Str)
  | cname (target : Str)
  | ns (target : Str)
  | ptr (target : Str)
  | mx (target : Str)
  | srv (target : Str)
  | soa (mname : Str) (minttl : Nat)
  | txt (parts : List Str)
  /-- `*dns.SVCB`, or `*dns.HTTPS` if `https`: target and parameters as text -/
  | svcb (https : Bool) (target : Str) (params : List (Str × Str))
  | opt (udpSize : Nat) (dnssecOk : Bool) (options : List EOpt)
  | other (data : Str)
deriving DecidableEq, Repr

/-- A resource record (`dns.RR`): header fields and data. miekg/dns; used in all elements, for example message.go:118-129. -/
structure RR where
  name : Str
  rtype : Nat
  cls : Nat
  ttl : Nat
  data : RData
deriving DecidableEq, Repr

/-- `_, ok := rr.(*dns.OPT)`. For example cache.go:123-141. -/
def RR.isOpt (r : RR) : Bool := match r.data with
  | .opt .. => true
  | _ => false

/-- `dns.Question`. miekg/dns; used for example in message.go:24-53. -/
structure Question where
  name : Str
  qtype : Nat
  qclass : Nat
deriving DecidableEq, Repr

/-- `dns.Msg`. miekg/dns; the argument and result of `Resolve`, resolver.go:10-13. -/
structure Msg where
  id : Nat := 0
  response : Bool := false
  opcode : Nat := 0
  aa : Bool := false
  tc : Bool := false
  rd : Bool := false
  ra : Bool := false
  ad : Bool := false
  cd : Bool := false
  rcode : Nat := 0
  question : List Question := []
  answer : List RR := []
  ns : List RR := []
  extra : List RR := []
deriving DecidableEq, Repr

/-- All records in section order, as iterated by the code (`Answer`, `Ns`, `Extra`). For example cache.go:363-383. -/
def Msg.records (m : Msg) : List RR := m.answer ++ m.ns ++ m.extra

/-- The OPT payload as returned by `dns.Msg.IsEdns0`. Used for example in client-blocklist.go:63, dns64.go:82. -/
structure Edns where
  udpSize : Nat
  dnssecOk : Bool
  options : List EOpt
deriving DecidableEq, Repr

/-- View of one record as an OPT record. Used for example in client-blocklist.go:63. -/
def RR.edns? (r : RR) : Option Edns := match r.data with
  | .opt s d o => some ⟨s, d, o⟩
  | _ => none

/-- `dns.Msg.IsEdns0` of `miekg/dns`: the last OPT record of the additional section. Called for example in client-blocklist.go:63, dns64.go:82. -/
def Msg.edns? (m : Msg) : Option Edns := m.extra.reverse.findSome? RR.edns?

/-- Replace the payload of the last OPT record in a list (in-place mutation through the pointer
returned by `IsEdns0`). For example ecs-modifier.go:97-110. -/
def setLastOpt (f : Edns → Edns) (l : List RR) : List RR :=
  let rec go : List RR → List RR
    | [] => []
    | r :: rs => match r.edns? with
      | some e => let e' := f e; { r with data := .opt e'.udpSize e'.dnssecOk e'.options } :: rs
      | none => r :: go rs
  (go l.reverse).reverse

/-- Mutate the message's EDNS0 payload in place. For example ecs-modifier.go:97-110. -/
def Msg.mapEdns (m : Msg) (f : Edns → Edns) : Msg := { m with extra := setLastOpt f m.extra }

/-- `dns.Msg.SetEdns0` of `miekg/dns`: append an OPT record to the additional section. Called in ecs-modifier.go:100, edns0-modifier.go:70, edns0ede.go:62. -/
def Msg.setEdns0 (m : Msg) (size : Nat) (dnssecOk : Bool) : Msg :=
  { m with extra := m.extra ++ [{ name := str ".", rtype := typeOPT, cls := size, ttl := 0,
                                  data := .opt size dnssecOk [] }] }

/-- `dns.Msg.SetReply` of `miekg/dns` applied to a fresh message. Called in message.go:71-96, blocklist.go:148 and others. -/
def setReply (q : Msg) : Msg :=
  { id := q.id, response := true, opcode := q.opcode,
    rd := if q.opcode = opcodeQuery then q.rd else false,
    cd := if q.opcode = opcodeQuery then q.cd else false,
    rcode := rcodeSuccess,
    question := q.question.take 1 }

/-- message.go:86-91 `responseWithCode`. -/
def responseWithCode (q : Msg) (rcode : Nat) : Msg := { setReply q with rcode := rcode, ra := true }

/-- message.go:71-73 -/
def nxdomain (q : Msg) : Msg := responseWithCode q rcodeNameError
/-- message.go:76-78 -/
def servfail (q : Msg) : Msg := responseWithCode q rcodeServerFailure
/-- message.go:81-83 -/
def refused (q : Msg) : Msg := responseWithCode q rcodeRefused

/-- Errors are opaque; the text is kept only to tell them apart. The second result of `Resolve`, resolver.go:10-13. -/
abbrev Err := String

/-- The result pair `(*dns.Msg, error)` of `Resolver.Resolve` (resolver.go:10-13). -/
structure Res where
  msg : Option Msg
  err : Option Err
deriving DecidableEq, Repr

/-- A response, resolver.go:10-13 -/
def Res.ok (m : Msg) : Res := ⟨some m, none⟩
/-- An error, resolver.go:10-13 -/
def Res.fail (e : Err) : Res := ⟨none, some e⟩
/-- `nil, nil`: the query is to be dropped silently. resolver.go:10-13. -/
def Res.drop : Res := ⟨none, none⟩

/-- `rdns.ClientInfo`. `SourceIP` is a `net.IP` (empty when nil). listener.go:18-38. -/
structure ClientInfo where
  sourceIP : Str := []
  dohPath : Str := []
  tlsServerName : Str := []
  listener : Str := []
deriving DecidableEq, Repr

end Verif
