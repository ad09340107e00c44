import Verif.Model.Listeners
import Verif.Spec.Edns
import Verif.Spec.Route
/-
C53, C54, C55 (listeners), C63, C65 in words.
-/
namespace Verif.Spec.Listeners
open Verif Verif.Net Verif.Listeners

/-- A list of networks that admits an address: it is empty, or the address lies in one of the networks. -/
def Admits (nets : List Cidr.IPNet) (ip : Str) : Prop := nets = [] ∨ ∃ n, n ∈ nets ∧ Spec.Route.Lies n ip

/-- Networks and addresses as Go's `net` package makes them -/
def WellFormed (nets : List Cidr.IPNet) (ip : Str) : Prop :=
  (∀ n, n ∈ nets → n.ip.length = 4 ∨ n.ip.length = 16) ∧ (ip.length = 0 ∨ ip.length = 4 ∨ ip.length = 16)

/-- A reply that says no more than that the query failed with `rcode`. -/
def Failure (req : Msg) (rcode : Nat) (m : Msg) : Prop :=
  m.id = req.id ∧ m.response = true ∧ m.opcode = req.opcode ∧ m.rcode = rcode ∧ m.question = req.question.take 1 ∧ m.answer = [] ∧ m.ns = [] ∧ m.extra = []

/-- `m` is `a` up to padding: only padding options of the OPT record differ, or there is an OPT record more that has nothing but padding. -/
def ButPadding (a m : Msg) : Prop :=
  m = a ∨
  (∃ (e : Edns) (os : List EOpt), a.edns? = some e ∧ Replaced a m e { e with options := os } ∧ os.filter (fun o => o.code ≠ 12) = e.options.filter (fun o => o.code ≠ 12)) ∨
  (∃ e : Edns, Added a m e ∧ ∀ o, o ∈ e.options → o.code = 12)

/-- No padding in the OPT record -/
def NoPadding (m : Msg) : Prop := ∀ e, m.edns? = some e → ∀ o, o ∈ e.options → o.code ≠ 12

/-- Options with the code of padding are padding. (A message from the wire is like that.) -/
def Decoded (m : Msg) : Prop := ∀ e, m.edns? = some e → ∀ o, o ∈ e.options → o.code = 12 → ∃ n, o = .padding n

/-- The bytes a client takes in a datagram -/
def limit (req : Msg) : Nat := match req.edns? with
  | some e => e.udpSize
  | none => 512

/-- The listeners of dnslistener.go, dotlistener.go and dtlslistener.go; UDP and TCP ones may be restricted to an IP version. -/
inductive Transport where
  | udp (ipVersion : Nat)
  | tcp (ipVersion : Nat)
  | dot
  | dtls

/-- The name the listener is told (cmd/routedns/main.go:318-361, dotlistener.go:42, dtlslistener.go:38) -/
def Transport.protocol : Transport → Str
  | .udp 4 => str "udp4"
  | .udp 6 => str "udp6"
  | .udp _ => str "udp"
  | .tcp 4 => str "tcp4"
  | .tcp 6 => str "tcp6"
  | .tcp _ => str "tcp"
  | .dot => str "dot"
  | .dtls => str "dtls"

/-- IP versions the configuration allows -/
def Transport.Valid : Transport → Prop
  | .udp v => v = 0 ∨ v = 4 ∨ v = 6
  | .tcp v => v = 0 ∨ v = 4 ∨ v = 6
  | _ => True

def Transport.Encrypted : Transport → Prop
  | .dot => True
  | .dtls => True
  | _ => False

/-- The client gets the message `a` over the transport: with padding at most if the transport is encrypted, cut to the client's size over UDP and DTLS. -/
def Shown (lib : Lib) (t : Transport) (req a : Msg) (w : Wire) : Prop := ∃ b, ButPadding a b ∧ match t with
  | .udp _ => NoPadding b ∧ w = .reply (lib.truncate b (limit req))
  | .tcp _ => NoPadding b ∧ w = .reply b
  | .dot => w = .reply b
  | .dtls => w = .reply (lib.truncate b (limit req))

/-- What is left of the message is part of it, and the rest is announced. -/
structure Cut (m m' : Msg) : Prop where
  id : m'.id = m.id
  rcode : m'.rcode = m.rcode
  response : m'.response = m.response
  question : m'.question = m.question
  answer : m'.answer <+: m.answer
  ns : m'.ns <+: m.ns
  extra : m'.extra.Sublist m.extra
  announced : m'.tc = true ∨ (m'.answer = m.answer ∧ m'.ns = m.ns ∧ ∀ r, r ∈ m.extra → r ∈ m'.extra)

/-- The documented behaviour of `dns.Msg.Truncate`. `small m n` says that the part of the message that is never cut (header, question, OPT record) fits into `n` bytes. -/
structure Truncates (lib : Lib) (small : Msg → Nat → Prop) : Prop where
  cut : ∀ m n, Cut m (lib.truncate m n)
  fits : ∀ m n, small m (max n 512) → lib.len (lib.truncate m n) ≤ max n 512

/-! ### DNS over HTTPS -/

/-- All addresses of all `X-Forwarded-For` lines, in order -/
def forwarded (lines : List Str) : List Str := lines.flatMap (splitOn 44)

/-- The loopback addresses -/
def Loopback (ip : Str) : Prop := (∃ b c d, to4 ip = some [127, b, c, d]) ∨ ip = [0, 0, 0, 0, 0, 0, 0, 0, 0, 0, 0, 0, 0, 0, 0, 1]

/-- The client of an HTTP request: the peer; or, if the peer is a trusted proxy, the last forwarded address, if it is one and is not a loopback address. -/
def Client (parseIP : Str → Option Str) (proxy : Option Cidr.IPNet) (peer : Option Str) (lines : List Str) (ip : Option Str) : Prop :=
  (∃ n p e f, proxy = some n ∧ peer = some p ∧ Spec.Route.Lies n p ∧ (forwarded lines).getLast? = some e ∧ parseIP (trimSpace e) = some f ∧ ¬ Loopback f ∧ ip = some f) ∨
  (ip = peer ∧ ¬ ∃ n p e f, proxy = some n ∧ peer = some p ∧ Spec.Route.Lies n p ∧ (forwarded lines).getLast? = some e ∧ parseIP (trimSpace e) = some f ∧ ¬ Loopback f)

/-- The bytes of the query a request carries. -/
def Carries (req : Req) (b : Str) : Prop :=
  (req.method = str "GET" ∧ ∃ more, req.dns = some (some b :: more)) ∨
  (req.method = str "POST" ∧ req.body = some b ∧ b.length ≤ 65535)

/-- Query and notify: an operation that may be repeated by anyone who recorded it -/
def MayReplay (q : Msg) : Prop := q.opcode = 0 ∨ q.opcode = 4

/-- The request was sent in early data. -/
def Early (req : Req) : Prop := ∃ name, req.tls = some (false, name)

/-- The response to an HTTP request shows the message `a`. -/
def ShownHttp (lib : Lib) (a : Msg) (out : Http) : Prop :=
  ∃ b, ButPadding a b ∧ ((∃ p, lib.pack b = some p ∧ out = .ok p) ∨ (lib.pack b = none ∧ out = .status 500))

/-- HTTP response without DNS answer -/
def NoAnswer (out : Http) : Prop := ∃ code, 400 ≤ code ∧ code < 500 ∧ out = .status code

/-! ### DNS over QUIC -/

/-- A message as sent on a stream: two bytes of length and the message -/
def Framed (b sent : Str) : Prop := ∃ h l : UInt8, sent = h :: l :: b ∧ b.length = 256 * h.toNat + l.toNat

/-- The query carries the TCP keep-alive option, which is forbidden on QUIC. -/
def KeepAlive (q : Msg) : Prop := ∃ e o, q.edns? = some e ∧ o ∈ e.options ∧ o.code = 11

/-- The stream shows the message `a`. -/
def ShownStream (lib : Lib) (a : Msg) (out : Stream) : Prop :=
  (∃ p, lib.pack a = some p ∧ ∃ sent, out = .written sent ∧ (p.length < 65536 → Framed p sent)) ∨ (lib.pack a = none ∧ out = .closed)

end Verif.Spec.Listeners
