import Verif.Model.Bytes
import Verif.Model.Net
import Verif.Model.Validate
/-
xsocket_linux.go, xsocketserver_linux.go, sockopts_linux.go: sockets from another network namespace.

The kernel is a parameter: what `socket`, `setsockopt`, `bind`, ... answer. The transport is an AF_UNIX/SOCK_SEQPACKET connection, that is, messages keep their
boundaries; what does not fit into the buffer of a read is lost. Numbers of protocol fields are `uint32`, here natural numbers below 2^32. Logging and peer
credentials are left out.
-/
namespace Verif.Xsocket
open Verif Verif.Net

/-- xsocket_linux.go:22 "XS01" -/
abbrev sigRequest : Nat := 0x58533031
/-- xsocket_linux.go:23 "XS02" -/
abbrev sigResponse : Nat := 0x58533032

/-- Linux constants. Used in xsocketserver_linux.go:195-206 and xsocket_linux.go:96-220. -/
abbrev afInet : Nat := 2
/-- Linux; used in xsocketserver_linux.go:195-206 and xsocket_linux.go:96-220 -/
abbrev afInet6 : Nat := 10
/-- Linux; used in xsocketserver_linux.go:195-206 and xsocket_linux.go:96-220 -/
abbrev sockStream : Nat := 1
/-- Linux; used in xsocketserver_linux.go:195-206 and xsocket_linux.go:96-220 -/
abbrev sockDgram : Nat := 2
/-- Linux; used in xsocketserver_linux.go:195-206 and xsocket_linux.go:96-220 -/
abbrev sockCloexec : Nat := 0x80000
/-- Linux; used in xsocketserver_linux.go:195-206 and xsocket_linux.go:96-220 -/
abbrev sockNonblock : Nat := 0x800
/-- Linux; used in xsocketserver_linux.go:195-206 and xsocket_linux.go:96-220 -/
abbrev protoTCP : Nat := 6
/-- Linux; used in xsocketserver_linux.go:195-206 and xsocket_linux.go:96-220 -/
abbrev protoUDP : Nat := 17
/-- Linux; used in xsocketserver_linux.go:126-176 -/
abbrev ePERM : Nat := 1

/-- `binary.BigEndian.Uint32(b[off:])`. Go library; used in xsocketserver_linux.go:126-176, xsocket_linux.go:31-94. -/
def u32 (b : Str) (off : Nat) : Nat := beVal ((b.drop off).take 4)

/-! ### Server -/

/-- Answer of the kernel to `socket`. xsocketserver_linux.go:126-176. -/
inductive Sock where
  | fd (n : Nat)
  | errno (e : Nat)
deriving DecidableEq, Repr

/-- xsocketserver_linux.go:195-206 `allowedSocket` -/
def allowedSocket (domain typ proto : Nat) : Bool :=
  if domain ≠ afInet ∧ domain ≠ afInet6 then false
  else
    let base := typ &&& ((2 ^ 32 - 1) ^^^ (sockCloexec ||| sockNonblock))
    if base = sockStream then proto = 0 ∨ proto = protoTCP
    else if base = sockDgram then proto = 0 ∨ proto = protoUDP
    else false

/-- What the server does for one request: the call of `socket` if there is one (type with flags), the response, the descriptor that goes with it, and the descriptors it
closes afterwards. xsocketserver_linux.go:126-176. -/
structure Served where
  asked : Option (Nat × Nat × Nat)
  response : Str
  fd : Option Nat
  closed : List Nat
deriving DecidableEq, Repr

/-- xsocketserver_linux.go:158-160 -/
def response (errno : Nat) : Str := beBytes 4 sigResponse ++ beBytes 4 errno

/-- xsocketserver_linux.go:151-169, after the call of `socket` -/
def answerSock (asked : Nat × Nat × Nat) : Sock → Served
  | .fd n => { asked := some asked, response := response 0, fd := some n, closed := [n] }
  | .errno e => { asked := some asked, response := response e, fd := none, closed := [] }

/-- xsocketserver_linux.go:140-169: one well-formed request -/
def serveOne (unrestricted : Bool) (socket : Nat → Nat → Nat → Sock) (req : Str) : Served :=
  let domain := u32 req 4
  let typ := u32 req 8
  let proto := u32 req 12
  if !unrestricted && !allowedSocket domain typ proto then { asked := none, response := response ePERM, fd := none, closed := [] }
  else answerSock (domain, typ ||| sockCloexec, proto) (socket domain (typ ||| sockCloexec) proto)

/-- The world at one request: the kernel, and whether the response can be written. The outside of xsocketserver_linux.go:126-176. -/
structure Env where
  socket : Nat → Nat → Nat → Sock
  writeOk : Bool := true

/-- xsocketserver_linux.go:126-174 `handle`: the messages of one connection, one after the other; the `k`th request sees `env k` -/
def handle (unrestricted : Bool) (env : Nat → Env) : Nat → List Str → List Served
  | _, [] => []
  | k, m :: ms =>
    let req := m.take 16
    if req.length < 16 ∨ u32 req 0 ≠ sigRequest then []
    else serveOne unrestricted (env k).socket req :: (if (env k).writeOk then handle unrestricted env (k + 1) ms else [])

/-! ### Client -/

/-- xsocket_linux.go:46-50 -/
def request (domain typ proto : Nat) : Str := beBytes 4 sigRequest ++ beBytes 4 domain ++ beBytes 4 typ ++ beBytes 4 proto

/-- Result of `xsocketGetFd`: the descriptor or an error, and the descriptors it closed. xsocket_linux.go:31-94. -/
structure Got where
  fd : Option Nat
  closed : List Nat
deriving DecidableEq, Repr

/-- xsocket_linux.go:76-91 -/
def pick (errno : Nat) (fds : List Nat) : Got :=
  if errno ≠ 0 then { fd := none, closed := fds }
  else match fds with
    | [] => { fd := none, closed := [] }
    | fd :: rest => { fd := some fd, closed := rest }

/-- xsocket_linux.go:55-91: what happens to the response, a message and the descriptors that came with it -/
def takeResponse (data : Str) (fds : List Nat) : Got :=
  let resp := data.take 8
  if resp.length < 8 then { fd := none, closed := [] }
  else if u32 resp 0 ≠ sigResponse then { fd := none, closed := [] }
  else pick (u32 resp 4) fds

/-- xsocket_linux.go:31-92 `xsocketGetFd`: `net` connects, sends, and gives the response, or `none` if one of these fails -/
def getFd (net : Str → Option (Str × List Nat)) (domain typ proto : Nat) : Got := match net (request domain typ proto) with
  | none => { fd := none, closed := [] }
  | some (data, fds) => takeResponse data fds

/-! ### Addresses -/

/-- A socket address. unix.Sockaddr, xsocket_linux.go:288-350. -/
inductive Addr where
  | inet4 (ip : Str) (port : Int)
  | inet6 (ip : Str) (port : Int)
deriving DecidableEq, Repr

/-- xsocket_linux.go:352-361 `networkIPVersion` -/
def networkIPVersion (network : Str) : Nat := if network.getLast? = some 52 then 4 else if network.getLast? = some 54 then 6 else 0

/-- `copy` into an array of 16 bytes. xsocket_linux.go:339-350. -/
def in16 (b : Str) : Str := (b ++ List.replicate 16 0).take 16

/-- xsocket_linux.go:339-348 `sockaddrFromIP` -/
def sockaddrFromIP (ip : Str) (port : Int) : Nat × Addr := match to4 ip with
  | some ip4 => (afInet, .inet4 ip4 port)
  | none => (afInet6, .inet6 (in16 ((to16 ip).getD [])) port)

/-- Functions from outside. Go library; used in xsocket_linux.go:288-350. -/
structure NetLib where
  /-- `strconv.Atoi` -/
  atoi : Str → Option Int
  /-- `net.ParseIP` -/
  parseIP : Str → Option Str
  /-- `net.DefaultResolver.LookupIP(lookupNet, host)`; `none` is an error -/
  lookup : Str → Str → Option (List Str)

/-- xsocket_linux.go:303-324: the address of the host -/
def hostIP (lib : NetLib) (ipVersion : Nat) (host : Str) : Option Str :=
  if host = [] then some (if ipVersion = 4 then v4Prefix ++ [0, 0, 0, 0] else List.replicate 16 0)
  else match lib.parseIP host with
    | some ip => some ip
    | none => match lib.lookup (if ipVersion = 4 then str "ip4" else if ipVersion = 6 then str "ip6" else str "ip") host with
      | none => none
      | some [] => none
      | some (ip :: _) => some ip

/-- xsocket_linux.go:288-336 `sockaddrFor` -/
def sockaddrFor (lib : NetLib) (network address : Str) : Option (Nat × Addr) := match Validate.splitHostPort address with
  | none => none
  | some (host, portStr) => match lib.atoi portStr with
    | none => none
    | some port => match hostIP lib (networkIPVersion network) host with
      | none => none
      | some ip =>
        if networkIPVersion network = 4 ∧ (to4 ip).isNone then none
        else if networkIPVersion network = 6 ∧ (to4 ip).isSome then none
        else some (sockaddrFromIP ip port)

/-! ### Sockets made from the descriptors -/

/-- System calls on a descriptor. xsocket_linux.go:96-281. -/
inductive Call where
  /-- SO_MARK -/
  | mark (v : Nat)
  /-- SO_BINDTODEVICE -/
  | device (name : Str)
  | reuseAddr
  | v6only (on : Bool)
  | bind (a : Addr)
  | listen
  /-- `connect`, with the wait for its end -/
  | connect (a : Addr)
  /-- `net.FileListener`, `net.FilePacketConn`, `net.FileConn`: makes a duplicate -/
  | wrap
  | close
deriving DecidableEq, Repr

/-- sockopts.go:6-13 -/
structure SocketOptions where
  mark : Nat := 0
  device : Str := []

/-- sockopts_linux.go:13-25 `applyToFd` -/
def optionCalls (o : SocketOptions) : List Call := (if o.mark > 0 then [.mark o.mark] else []) ++ (if o.device ≠ [] then [.device o.device] else [])

/-- xsocket_linux.go:221-238 `setupListenSocket` -/
def setupCalls (o : SocketOptions) (domain : Nat) (network : Str) : List Call :=
  optionCalls o ++ [.reuseAddr] ++ (if domain = afInet6 then [.v6only (networkIPVersion network = 6)] else [])

/-- What was called on the descriptor, and whether a usable socket came out. xsocket_linux.go:96-220. -/
structure Made where
  calls : List Call
  ok : Bool
deriving DecidableEq, Repr

/-- Calls one after the other; the descriptor is closed at the first failure. xsocket_linux.go:96-220. -/
def runCalls (ok : Call → Bool) : List Call → Made → Made
  | [], last => last
  | c :: cs, last => if ok c then let m := runCalls ok cs last; { m with calls := c :: m.calls } else { calls := [c, .close], ok := false }

/-- `os.NewFile`, `net.File…`, `f.Close()` (xsocket_linux.go:116-122, 142-147, 207-212) -/
def wrapUp (ok : Call → Bool) : Made := { calls := [.wrap, .close], ok := ok .wrap }

/-- xsocket_linux.go:96-123 `listenXSocket`, after the descriptor has come -/
def listenStream (ok : Call → Bool) (o : SocketOptions) (network : Str) (domain : Nat) (a : Addr) : Made :=
  runCalls ok (setupCalls o domain network ++ [.bind a, .listen]) (wrapUp ok)

/-- xsocket_linux.go:127-148 `listenPacketXSocket` -/
def listenPacket (ok : Call → Bool) (o : SocketOptions) (network : Str) (domain : Nat) (a : Addr) : Made :=
  runCalls ok (setupCalls o domain network ++ [.bind a]) (wrapUp ok)

/-- `net.IP.IsUnspecified`. Go library; used in xsocket_linux.go:176-219. -/
def isUnspecified (ip : Str) : Bool := match to4 ip with
  | some ip4 => ip4 = [0, 0, 0, 0]
  | none => ip = List.replicate 16 0

/-- xsocket_linux.go:195-201 -/
def localCalls : Option Str → List Call
  | none => []
  | some ip => if isUnspecified ip then [] else [.bind (sockaddrFromIP ip 0).2]

/-- xsocket_linux.go:175-213 `dialXSocket`, after the descriptor has come -/
def dialConn (ok : Call → Bool) (o : SocketOptions) (localAddr : Option Str) (a : Addr) : Made :=
  runCalls ok (optionCalls o ++ localCalls localAddr ++ [.connect a]) (wrapUp ok)

/-- xsocket_linux.go:175-190: the type of socket for a network; `none` is an error -/
def dialType (network : Str) : Option Nat :=
  if (str "tcp").isPrefixOf network then some sockStream
  else if (str "udp").isPrefixOf network then some sockDgram
  else none

end Verif.Xsocket
