import Verif.Model.Validate
import Verif.Model.Listeners
import Verif.Model.Xsocket
/-
The sockets listeners open: cmd/routedns/main.go:282-428, the `Start` methods of the listeners, netns_linux.go:83-137.

The address is the one after the default port was added (C66). Certificates and options of TLS are not modelled (C73). The answers of the operating
system are not: the result is what the library or the kernel is asked for.
-/
namespace Verif.ListenSock
open Verif

/-- cmd/routedns/config.go:28-54 `listener`, the part about sockets -/
structure Lis where
  protocol : Str
  address : Str
  ipVersion : Nat := 0
  transport : Str := []
  netns : Str := []
  xsocket : Str := []
  opts : Xsocket.SocketOptions := {}

/-- Where the socket is made: `NetNS` (netns_linux.go:23-26) -/
inductive Place where
  | here
  /-- in the namespace with that name or path -/
  | named (name : Str)
  /-- by the server at that path, in its namespace -/
  | server (path : Str)
deriving DecidableEq, Repr

/-- What it is bound to. The arguments of netns_linux.go:86-141. -/
inductive Bound where
  /-- the text, which the library makes sense of -/
  | text (address : Str)
  /-- an address and a port; `none` is every address -/
  | at (ip : Option Str) (port : Int)
deriving DecidableEq, Repr

/-- A listening socket, or a socket for datagrams, that is asked for. The arguments of netns_linux.go:86-141. -/
structure Sock where
  network : Str
  bound : Bound
  place : Place
  mark : Nat
  device : Str
deriving DecidableEq, Repr

/-- cmd/routedns/main.go:1352-1360 `buildNetNS`; `none` is the error -/
def buildNetNS (name xsocket : Str) : Option Place :=
  if name ≠ [] ∧ xsocket ≠ [] then none
  else if name = [] ∧ xsocket = [] then some .here
  else if xsocket ≠ [] then some (.server xsocket) else some (.named name)

/-- netns_linux.go:29-31 `isSet` -/
def Place.isSet : Place → Bool
  | .here => false
  | _ => true

/-- sockopts.go:16-18 `active` -/
def active (o : Xsocket.SocketOptions) : Bool := o.mark > 0 || o.device ≠ []

/-- netns_linux.go:86-137 `ListenInNetNS`, `ListenPacketInNetNS`, `ListenUDPInNetNS` -/
def listenIn (p : Place) (network address : Str) (o : Xsocket.SocketOptions) : Sock :=
  { network := network, bound := .text address, place := p, mark := o.mark, device := o.device }

/-- miekg/dns `Server.ListenAndServe`: the networks it knows, and the socket it opens. Called in dnslistener.go:47-53 and dotlistener.go:49-64. -/
def listenAndServe (net address : Str) : Option Sock :=
  if net = str "tcp" ∨ net = str "tcp4" ∨ net = str "tcp6" ∨ net = str "udp" ∨ net = str "udp4" ∨ net = str "udp6" then
    some { network := net, bound := .text address, place := .here, mark := 0, device := [] }
  else if net = str "tcp-tls" ∨ net = str "tcp4-tls" ∨ net = str "tcp6-tls" then
    some { network := net.take (net.length - 4), bound := .text address, place := .here, mark := 0, device := [] }
  else none

/-- `strings.HasPrefix`. Used in dnslistener.go:55-73. -/
def hasPrefix (s p : Str) : Bool := s.take p.length == p

/-- dnslistener.go:47-73 `Start`, `startWithSocketSetup` -/
def startDNS (net address : Str) (p : Place) (o : Xsocket.SocketOptions) : Option Sock :=
  if p.isSet || active o then
    if hasPrefix net (str "tcp") then some (listenIn p net address o)
    else if hasPrefix net (str "udp") then some (listenIn p net address o)
    else none
  else listenAndServe net address

/-- dotlistener.go:28-35 -/
def dotNet (network : Str) : Str :=
  if network = [] ∨ network = str "tcp" then str "tcp-tls"
  else if network = str "tcp4" then str "tcp4-tls"
  else if network = str "tcp6" then str "tcp6-tls"
  else network

/-- dotlistener.go:49-63 `Start` -/
def startDoT (network address : Str) (p : Place) (o : Xsocket.SocketOptions) : Option Sock :=
  if p.isSet || active o then some (listenIn p (str "tcp") address o)
  else listenAndServe (dotNet network) address

/-- dtlslistener.go:45-76 `Start`; `none` is an error -/
def startDTLS (lib : Xsocket.NetLib) (address : Str) (p : Place) : Option Sock :=
  match p with
  | .server _ => none
  | p => match Validate.splitHostPort address with
    | none => none
    | some (host, port) => match lib.atoi port with
      | none => none
      | some n => some { network := str "udp", bound := .at (lib.parseIP host) n, place := p, mark := 0, device := [] }

/-- dohlistener.go:120-165 and adminlistener.go:72-124 `Start` -/
def startHTTP (transport address : Str) (p : Place) (o : Xsocket.SocketOptions) : Sock :=
  if transport = str "quic" then listenIn p (str "udp") address o else listenIn p (str "tcp") address o

/-- cmd/routedns/main.go:301-428 and `Start`: the socket of a listener; `none`: an error, no socket. The ODoH listener (odohlistener.go:90-95) is a DoH listener over TCP. -/
def opens (lib : Xsocket.NetLib) (l : Lis) : Option Sock :=
  if l.ipVersion ≠ 4 ∧ l.ipVersion ≠ 6 ∧ l.ipVersion ≠ 0 then none
  else match buildNetNS l.netns l.xsocket with
  | none => none
  | some p =>
    if l.protocol = str "tcp" then startDNS (Listeners.networkForIPVersion (str "tcp") l.ipVersion) l.address p l.opts
    else if l.protocol = str "udp" then startDNS (Listeners.networkForIPVersion (str "udp") l.ipVersion) l.address p l.opts
    else if l.protocol = str "admin" ∨ l.protocol = str "doh" then
      (if l.transport = str "tcp" ∨ l.transport = [] ∨ l.transport = str "quic" then some (startHTTP l.transport l.address p l.opts) else none)
    else if l.protocol = str "dot" then startDoT (Listeners.networkForIPVersion (str "tcp") l.ipVersion) l.address p l.opts
    else if l.protocol = str "dtls" then startDTLS lib l.address p
    else if l.protocol = str "doq" then some (listenIn p (str "udp") l.address l.opts)
    else if l.protocol = str "odoh" then some (startHTTP [] l.address p l.opts)
    else none

end Verif.ListenSock
