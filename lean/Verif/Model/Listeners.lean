import Verif.Model.Route
import Verif.Model.Modifiers
/-
The listeners: what they do with one query, for every result of the pipeline behind them.

dnslistener.go (UDP, TCP), dotlistener.go, dtlslistener.go, dohlistener.go, doqlistener.go.

Parameters (`Lib`): `dns.Msg.Len`, `dns.Msg.Truncate`, `dns.Msg.Pack`, `dns.Msg.Unpack`, `net.ParseIP`. Logging and metrics are left out. The pipeline is a function
from the query and the client information to a result; it is taken not to change the query in place (the elements of the repository work on copies), so that the
query is the same before and after.
-/
namespace Verif.Listeners
open Verif Verif.Net

/-- Functions from outside the repository. Called in dnslistener.go:84-160, dohlistener.go:215-390, doqlistener.go:184-290. -/
structure Lib where
  /-- `dns.Msg.Len` -/
  len : Msg → Nat
  /-- `dns.Msg.Truncate(size)` -/
  truncate : Msg → Nat → Msg
  /-- `dns.Msg.Pack`; `none` is an error -/
  pack : Msg → Option Str
  /-- `dns.Msg.Unpack`; `none` is an error -/
  unpack : Str → Option Msg
  /-- `net.ParseIP`; `none` is nil -/
  parseIP : Str → Option Str

/-- A resolver as the listeners see it. resolver.go:10-13. -/
abbrev Pipeline := Msg → ClientInfo → Res

/-- dnslistener.go:162-172 `isAllowed` -/
def isAllowed (nets : List Cidr.IPNet) (ip : Str) : Bool := if nets.length = 0 then true else nets.any (Route.contains · ip)

/-- `dns.Msg.SetRcode` on a fresh message. miekg/dns; used in message.go:86-91. -/
def setRcode (q : Msg) (rcode : Nat) : Msg := { setReply q with rcode := rcode }

/-- What a handler of the DNS server does with its connection. dnslistener.go:84-160. -/
inductive Wire where
  /-- nothing at all -/
  | silent
  /-- `w.Close()` -/
  | closed
  /-- `w.WriteMsg` -/
  | reply (m : Msg)
  /-- a panic; nothing recovers it, the process ends -/
  | crash
deriving DecidableEq, Repr

/-- The calls of the pipeline and the outcome. dnslistener.go:84-160, dohlistener.go:314-390. -/
structure Handled (Out : Type) where
  calls : List (Msg × ClientInfo)
  out : Out
deriving DecidableEq, Repr

/-- cmd/routedns/main.go:1197-1202 `networkForIPVersion`; the versions allowed by cmd/routedns/main.go:301-303 are 0, 4 and 6 -/
def networkForIPVersion (base : Str) (ipVersion : Nat) : Str := if ipVersion = 0 then base else base ++ [UInt8.ofNat (48 + ipVersion)]

/-- dnslistener.go:149-155: the response is cut down to the size the client takes -/
def fitUDP (lib : Lib) (protocol : Str) (req a : Msg) : Msg :=
  if protocol = str "udp" ∨ protocol = str "dtls" then
    let maxSize := match req.edns? with
      | some e => e.udpSize
      | none => 512
    lib.truncate a maxSize
  else a

/-- dnslistener.go:142-158: padding, truncation, write -/
def finish (lib : Lib) (protocol : Str) (req a : Msg) : Wire :=
  if protocol = str "dot" ∨ protocol = str "dtls" then
    match Modifiers.padAnswer lib.len req a with
    | none => .crash
    | some a => .reply (fitUDP lib protocol req a)
  else .reply (fitUDP lib protocol req (Modifiers.stripPadding a))

/-- dnslistener.go:133-158: `a` after the resolver -/
def conclude (lib : Lib) (protocol : Str) (req : Msg) : Option Msg → Wire
  | none => .closed
  | some a => finish lib protocol req a

/-- dnslistener.go:121-126, dohlistener.go:365-370, doqlistener.go:264-269: the failure message takes the place of an error -/
def answerOr (failure : Msg) (res : Res) : Option Msg := match res.err with
  | some _ => some failure
  | none => res.msg

/-- dnslistener.go:84-160 `listenHandler`. `peer` is the IP of the remote address, `sni` the TLS server name. -/
def listenHandler (lib : Lib) (id protocol : Str) (r : Pipeline) (allowed : List Cidr.IPNet) (peer sni : Str) (req : Msg) : Handled Wire :=
  let ci : ClientInfo := { sourceIP := peer, tlsServerName := sni, listener := id }
  if req.question.length = 0 then { calls := [], out := .silent }
  else if isAllowed allowed peer then
    { calls := [(req, ci)], out := conclude lib protocol req (answerOr (servfail req) (r req ci)) }
  else { calls := [], out := conclude lib protocol req (some (setRcode req rcodeRefused)) }

/-! ### DNS over HTTPS -/

/-- A request as the HTTP server hands it on. net/http, as far as dohlistener.go:215-390 looks at it. -/
structure Req where
  method : Str
  path : Str
  /-- `r.URL.Query()["dns"]`, each value base64-decoded (`none`: does not decode); `none` without the parameter -/
  dns : Option (List (Option Str))
  /-- the body, or `none` if reading it fails -/
  body : Option Str
  /-- the host of `r.RemoteAddr` -/
  remoteHost : Str
  /-- the `X-Forwarded-For` header lines -/
  xff : List Str
  /-- `r.TLS`: handshake complete, server name; `none` without TLS -/
  tls : Option (Bool × Str)
deriving DecidableEq, Repr

/-- The HTTP response: status, and the body of a 200. dohlistener.go:215-390. -/
inductive Http where
  | status (code : Nat)
  | ok (body : Str)
  | crash
deriving DecidableEq, Repr

/-- `strings.Join(lines, ", ")`. Used in dohlistener.go:280. -/
def joinHeader : List Str → Str
  | [] => []
  | [p] => p
  | p :: q :: ps => p ++ 44 :: 32 :: joinHeader (q :: ps)

/-- dohlistener.go:294-297: what follows the last comma -/
def afterLastComma (s : Str) : Str := (s.reverse.takeWhile (· ≠ 44)).reverse

/-- `net.IP.IsLoopback`. Go library; used in dohlistener.go:268-312. -/
def isLoopback (ip : Str) : Bool := match to4 ip with
  | some ip4 => ip4.head? = some 127
  | none => ip = List.replicate 15 0 ++ [1]

/-- dohlistener.go:268-312 `extractClientAddress` -/
def extractClientAddress (parseIP : Str → Option Str) (proxyNet : Option Cidr.IPNet) (remoteHost : Str) (xff : List Str) : Option Str :=
  let clientIP := parseIP remoteHost
  let xForwardedFor := joinHeader xff
  match proxyNet with
  | none => clientIP
  | some net =>
    if xForwardedFor = [] then clientIP
    else
      let last := afterLastComma xForwardedFor
      match clientIP with
      | none => none
      | some ip =>
        if Route.contains net ip then
          match parseIP (trimSpace last) with
          | none => some ip
          | some fwd => if isLoopback fwd then some ip else some fwd
        else some ip

/-- message.go:58-60 `isReplayableOpcode` -/
def isReplayableOpcode (op : Nat) : Bool := op = opcodeQuery || op = opcodeNotify

/-- Options of the DoH listener. dohlistener.go:54-69. -/
structure DoHOpts where
  id : Str := []
  allowed : List Cidr.IPNet := []
  proxyNet : Option Cidr.IPNet := none

/-- dohlistener.go:383-394 -/
def respond (lib : Lib) (q a : Msg) : Http := match Modifiers.padAnswer lib.len q a with
  | none => .crash
  | some a => match lib.pack a with
    | none => .status 500
    | some out => .ok out

/-- dohlistener.go:376-394 -/
def concludeHttp (lib : Lib) (q : Msg) : Option Msg → Http
  | none => .status 403
  | some a => respond lib q a

/-- dohlistener.go:333: the request came before the end of the handshake -/
def earlyData (req : Req) : Bool := match req.tls with
  | some t => !t.1
  | none => false

/-- dohlistener.go:314-395 `parseAndRespond` -/
def parseAndRespond (lib : Lib) (opt : DoHOpts) (r : Pipeline) (b : Str) (req : Req) : Handled Http :=
  match lib.unpack b with
  | none => { calls := [], out := .status 400 }
  | some q =>
    if q.question.length = 0 then { calls := [], out := .status 400 }
    else if earlyData req && !isReplayableOpcode q.opcode then { calls := [], out := .status 425 }
    else match extractClientAddress lib.parseIP opt.proxyNet req.remoteHost req.xff with
      | none => { calls := [], out := .status 400 }
      | some clientIP =>
        let ci : ClientInfo := { sourceIP := clientIP, dohPath := req.path, tlsServerName := (req.tls.map (·.2)).getD [], listener := opt.id }
        if isAllowed opt.allowed clientIP then
          { calls := [(q, ci)], out := concludeHttp lib q (answerOr (setRcode q rcodeServerFailure) (r q ci)) }
        else { calls := [], out := concludeHttp lib q (some (setRcode q rcodeRefused)) }

/-- dohlistener.go: the bound of a request body (`maxDoHRequestSize`) -/
abbrev maxDoHRequestSize : Nat := 65535

/-- dohlistener.go:229-245 `getHandler` -/
def getHandler (lib : Lib) (opt : DoHOpts) (r : Pipeline) (req : Req) : Handled Http := match req.dns with
  | none => { calls := [], out := .status 400 }
  | some [] => { calls := [], out := .status 400 }
  | some (none :: _) => { calls := [], out := .status 400 }
  | some (some b :: _) => parseAndRespond lib opt r b req

/-- dohlistener.go:247-264 `postHandler` -/
def postHandler (lib : Lib) (opt : DoHOpts) (r : Pipeline) (req : Req) : Handled Http := match req.body with
  | none => { calls := [], out := .status 400 }
  | some b => if b.length > maxDoHRequestSize then { calls := [], out := .status 413 } else parseAndRespond lib opt r b req

/-- dohlistener.go:215-227 `dohHandler` -/
def dohHandler (lib : Lib) (opt : DoHOpts) (r : Pipeline) (req : Req) : Handled Http :=
  if req.method = str "GET" then getHandler lib opt r req
  else if req.method = str "POST" then postHandler lib opt r req
  else { calls := [], out := .status 405 }

/-! ### DNS over QUIC -/

/-- What is written to the stream before it is closed. doqlistener.go:184-290. -/
inductive Stream where
  | closed
  | written (b : Str)
  | crash
deriving DecidableEq, Repr

/-- How the wait for the end of the handshake ends (doqlistener.go:254-260): the handshake is complete, or the connection is gone. -/
inductive Handshake where
  | complete
  | failed
deriving DecidableEq, Repr

/-- What a stream handler does, in order. doqlistener.go:184-290. -/
inductive Act where
  /-- it has seen that the handshake is complete -/
  | handshakeDone
  /-- it calls the pipeline -/
  | resolve (q : Msg) (ci : ClientInfo)
deriving DecidableEq, Repr

/-- doqlistener.go:184-290: what one stream leads to -/
structure StreamRun where
  acts : List Act
  out : Stream
deriving DecidableEq, Repr

/-- `binary.BigEndian.PutUint16(uint16(n))`. doqlistener.go:184-290. -/
def be16 (n : Nat) : Str := [UInt8.ofNat (n / 256), UInt8.ofNat n]

/-- doqlistener.go:199-213: length prefix and body from what the client sends on the stream; `none` if the stream ends early -/
def readFrame : Str → Option Str
  | h :: l :: rest => if rest.length < h.toNat * 256 + l.toNat then none else some (rest.take (h.toNat * 256 + l.toNat))
  | _ => none

/-- doqlistener.go:271-288 -/
def writeStream (lib : Lib) : Option Msg → Stream
  | none => .crash
  | some a => match lib.pack a with
    | none => .closed
    | some p => .written (be16 p.length ++ p)

/-- doqlistener.go:235-244 -/
def hasKeepAlive (q : Msg) : Bool := match q.edns? with
  | some e => e.options.any (fun o => o.code = 11)
  | none => false

/-- doqlistener.go:253-261: queries that may not be replayed wait; `none` if the connection ends first -/
def awaitHandshake (q : Msg) (hs : Handshake) : Option (List Act) :=
  if isReplayableOpcode q.opcode then some []
  else match hs with
    | .complete => some [.handshakeDone]
    | .failed => none

/-- doqlistener.go:145-182 and 184-290: one stream of a connection, on which the client sends `sent` -/
def handleStream (lib : Lib) (id : Str) (allowed : List Cidr.IPNet) (r : Pipeline) (peer sni : Str) (hs : Handshake) (sent : Str) : StreamRun :=
  let ci : ClientInfo := { sourceIP := peer, tlsServerName := sni, listener := id }
  if !isAllowed allowed peer then { acts := [], out := .closed }
  else match readFrame sent with
    | none => { acts := [], out := .closed }
    | some b => match lib.unpack b with
      | none => { acts := [], out := .closed }
      | some q =>
        if q.question.length = 0 then { acts := [], out := .closed }
        else if hasKeepAlive q then { acts := [], out := .closed }
        else match awaitHandshake q hs with
          | none => { acts := [], out := .closed }
          | some waited =>
            { acts := waited ++ [.resolve q ci], out := writeStream lib (answerOr (setRcode q rcodeServerFailure) (r q ci)) }

/-! ### Reads of a DTLS connection -/

/-- dtlslistener.go:104-107 `dtlsConn`: what is left of the last record, and the records that are still to come (those after an error are not seen) -/
structure DtlsConn where
  buf : Str
  records : List Str
deriving DecidableEq, Repr

/-- dtlslistener.go:109-121 `Read` into a slice of `n` bytes: the bytes read and the connection afterwards; `none` is an error of the connection (here: it has ended).
A record of more than 4096 bytes is an error of `dtls.Conn.Read`; records here are at most that long. -/
def DtlsConn.read (c : DtlsConn) (n : Nat) : Option (Str × DtlsConn) :=
  if c.buf = [] then
    match c.records with
    | [] => none
    | r :: rs => some (r.take n, { buf := r.drop n, records := rs })
  else some (c.buf.take n, { c with buf := c.buf.drop n })

end Verif.Listeners
