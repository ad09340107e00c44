import Verif.Model.Dialing
import Verif.Model.ListenSock
/-
The sockets that resolvers open towards their servers: cmd/routedns/resolver.go, dnsclient.go (Dial), dotclient.go, dtlsclient.go, dohclient.go
(transports), doqclient.go, socks5.go, sockopts_linux.go, netns_linux.go, xsocket_linux.go:95-219.

A socket is followed up to its first uses, `bind` and `connect`: no packet leaves before them. Certificates, time-outs and what is
sent later are not modelled, nor is the closing of sockets. An error in another part of the section means that no socket is opened at all; the
model is about sections without one.

Go's `net.Dialer` is modelled after its documented behaviour (RFC 6555, "Happy Eyeballs"): for network "tcp" and a name with addresses of both
families the attempts are made by goroutines of their own, else one after the other by the calling goroutine. A goroutine that is locked to its
thread does not share it, so goroutines it starts run on threads in the namespace the program was started in.
-/
namespace Verif.DialSock
open Verif
open Verif.Dialing (NetLib Locals)
open Verif.ListenSock (Place buildNetNS active)
open Verif.Validate (splitHostPort joinHostPort)

/-- A socket: where it was made, SO_MARK (0: not set) and SO_BINDTODEVICE (empty: not set). sockopts_linux.go:13-25. -/
structure Fd where
  place : Place
  mark : Nat := 0
  device : Str := []
deriving DecidableEq, Repr

/-- A use of a socket: `bind` (`none`) or `connect`, with the text of the address that was asked for. dnsclient.go:120-170, socks5.go:60-105 and others. -/
structure Use where
  fd : Fd
  to : Option Str
deriving DecidableEq, Repr

variable (lib : NetLib)

/-- What the operating system, the name service and the proxy answer during one dial. The calls of netns_linux.go:53-80, sockopts_linux.go:13-25,
xsocket_linux.go:126-217, dnsclient.go:227-240 and of the libraries. -/
structure Env where
  /-- opening and entering the namespace with that name -/
  enter : Str → Bool
  /-- the server at that path hands out a socket -/
  handsOut : Str → Bool
  socket : Place → Bool
  setMark : Fd → Bool
  setDevice : Fd → Bool
  canBind : Fd → lib.IP → Bool
  connects : Fd → lib.IP → Bool
  /-- the look-up by `resolveEndpointAddr` (`none`: error) -/
  first : Str → Option (List lib.IP)
  /-- the later look-up by the library that dials -/
  look : Str → Option (List lib.IP)
  /-- which address is taken by libraries that take one -/
  pick : List lib.IP → Option lib.IP
  unspecified : lib.IP → Bool
  /-- attempts for the second family are started, too (after 300 ms, or when the first has failed) -/
  second : Bool
  /-- where the SOCKS5 proxy takes datagrams (`none`: the proxy does not answer, or refuses) -/
  relay : Option Str
  /-- the address kept by the SOCKS5 dialer (`Dialing.socksDial`) -/
  kept : Str

variable {lib}

/-- sockopts_linux.go:13-25 `applyToFd`; `none` is an error -/
def applyToFd (e : Env lib) (o : Xsocket.SocketOptions) (fd : Fd) : Option Fd :=
  let marked := if o.mark > 0 then (if e.setMark fd then some { fd with mark := o.mark } else none) else some fd
  match marked with
  | none => none
  | some fd => if o.device ≠ [] then (if e.setDevice fd then some { fd with device := o.device } else none) else some fd

/-- sockopts_linux.go:30-45 `dialerControl`, called by the library on each new socket before it is used -/
def control (e : Env lib) (o : Xsocket.SocketOptions) (fd : Fd) : Option Fd := if active o then applyToFd e o fd else some fd

/-- netns_linux.go:50-80 `RunInNetNS`: `f` is given the namespace of its thread -/
def runIn (e : Env lib) (p : Place) (f : Place → List Use × Bool) : List Use × Bool := match p with
  | .server _ => ([], false)
  | .here => f .here
  | .named n => if e.enter n then f (.named n) else ([], false)

/-- Go `net`: one attempt to connect, from a thread in namespace `th`. Called through dnsclient.go:126, dohclient.go:374, socks5.go:89. -/
def attempt (e : Env lib) (th : Place) (o : Xsocket.SocketOptions) (bind : Option lib.IP) (to : Str) (ip : lib.IP) : List Use × Bool :=
  if e.socket th then
    match control e o { place := th } with
    | none => ([], false)
    | some fd => match bind with
      | none => ([⟨fd, some to⟩], e.connects fd ip)
      | some b => if e.canBind fd b then ([⟨fd, none⟩, ⟨fd, some to⟩], e.connects fd ip) else ([⟨fd, none⟩], false)
  else ([], false)

/-- Go `net`, `dialSerial`: one address after the other. Called through dnsclient.go:126, dohclient.go:374, socks5.go:89. -/
def serial (e : Env lib) (th : Place) (o : Xsocket.SocketOptions) (bind : Option lib.IP) (to : Str) : List lib.IP → List Use × Bool
  | [] => ([], false)
  | ip :: ips =>
    let r := attempt e th o bind to ip
    if r.2 then r else
      let rest := serial e th o bind to ips
      (r.1 ++ rest.1, rest.2)

/-- Go `net`, `resolveAddrList`: the addresses of a name; with a local address only those of its family. Called through dnsclient.go:126, dohclient.go:374, socks5.go:89. -/
def addrs (e : Env lib) (bind : Option lib.IP) (address : Str) : List lib.IP := match splitHostPort address with
  | none => []
  | some (host, _) =>
    let ips := match lib.parseIP host with
      | some ip => [ip]
      | none => (e.look host).getD []
    match bind with
    | none => ips
    | some b => if e.unspecified b then ips else ips.filter fun ip => lib.is4 ip == lib.is4 b

/-- Go `net`, `addrList.partition`: the addresses of the family of the first, and the others. Called through dnsclient.go:126, dohclient.go:374, socks5.go:89. -/
def families : List lib.IP → List lib.IP × List lib.IP
  | [] => ([], [])
  | ip :: ips => ((ip :: ips).filter fun x => lib.is4 x == lib.is4 ip, (ip :: ips).filter fun x => !(lib.is4 x == lib.is4 ip))

/-- Go `net`, `Dialer.DialContext` called by a thread in namespace `th`. The attempts of the two families overlap in time; the model lists
those of the first family first. Called in dnsclient.go:159-169, dohclient.go:374-381, socks5.go:89-101. -/
def goDial (e : Env lib) (th : Place) (o : Xsocket.SocketOptions) (network : Str) (bind : Option lib.IP) (address : Str) : List Use × Bool :=
  let ips := addrs e bind address
  if network = str "tcp" ∧ (families ips).2 ≠ [] then
    let a := serial e .here o bind address (families ips).1
    if e.second then
      let b := serial e .here o bind address (families ips).2
      (a.1 ++ b.1, a.2 || b.2)
    else a
  else serial e th o bind address ips

/-- A library that resolves a name to one address and connects to it: `net.ResolveTCPAddr` and `net.DialTCP` in the default hooks of the SOCKS5 library
(kept by socks5.go:59-80 when nothing is configured) -/
def dialOne (e : Env lib) (th : Place) (bind : Option lib.IP) (address : Str) : List Use × Bool :=
  match Dialing.resolveUDP { lib with lookup := e.look } e.pick address with
  | none => ([], false)
  | some (ip, _) => attempt e th {} bind address ip

/-- xsocket_linux.go:175-217 `dialXSocket`; `sockaddrFor` (283-336) takes one address of a name -/
def dialX (e : Env lib) (path : Str) (o : Xsocket.SocketOptions) (network : Str) (bind : Option lib.IP) (address : Str) : List Use × Bool :=
  match Dialing.resolveUDP { lib with lookup := e.look } e.pick address with
  | none => ([], false)
  | some (ip, _) => match Xsocket.dialType network with
    | none => ([], false)
    | some _ =>
      if e.handsOut path then
        match applyToFd e o { place := .server path } with
        | none => ([], false)
        | some fd => match bind with
          | none => ([⟨fd, some address⟩], e.connects fd ip)
          | some b =>
            if e.unspecified b then ([⟨fd, some address⟩], e.connects fd ip)
            else if e.canBind fd b then ([⟨fd, none⟩, ⟨fd, some address⟩], e.connects fd ip)
            else ([⟨fd, none⟩], false)
      else ([], false)

/-- netns_linux.go:100-137 `ListenPacketInNetNS`, `ListenUDPInNetNS` and xsocket_linux.go:127-171, for a local address (`none`: any). The setting of SO_REUSEADDR and
IPV6_V6ONLY is left out (Model/Xsocket.lean). -/
def listenUDP (e : Env lib) (p : Place) (o : Xsocket.SocketOptions) (ip : lib.IP) : List Use × Bool := match p with
  | .server path =>
    if e.handsOut path then
      match applyToFd e o { place := .server path } with
      | none => ([], false)
      | some fd => ([⟨fd, none⟩], e.canBind fd ip)
    else ([], false)
  | p => runIn e p fun th =>
    if e.socket th then
      match control e o { place := th } with
      | none => ([], false)
      | some fd => ([⟨fd, none⟩], e.canBind fd ip)
    else ([], false)

/-- A resolver's section, the part about sockets. cmd/routedns/config.go:50-84. The address has its port. -/
structure Sec (lib : NetLib) where
  protocol : Str
  address : Str
  transport : Str := []
  bootstrap : Str := []
  locals : Locals lib := ⟨none, none, none⟩
  netns : Str := []
  xsocket : Str := []
  opts : Xsocket.SocketOptions := {}
  socks5 : Str := []

/-- socks5.go:52-80 `NewSocks5Dialer`: what the library calls for a new socket. `p` is the configured namespace, `th` that of the calling thread. -/
def hook (e : Env lib) (p th : Place) (o : Xsocket.SocketOptions) (network : Str) (bind : Option lib.IP) (address : Str) : List Use × Bool := match p with
  | .server path => dialX e path o network bind address
  | _ => if active o then goDial e th o network bind address else dialOne e th bind address

/-- socks5.go:105-158 `Socks5Dialer.Dial`, after its look-up, and the library: a TCP connection to the proxy, and for UDP then a socket to where
the proxy takes datagrams -/
def socksDial (e : Env lib) (s : Sec lib) (p th : Place) (network : Str) : List Use × Bool :=
  let bind := Dialing.selectLocalAddr lib e.kept s.locals
  let r := hook e p th s.opts (str "tcp") bind s.socks5
  if network = str "udp" ∧ r.2 then
    match e.relay with
    | none => (r.1, false)
    | some a =>
      let u := hook e p th s.opts (str "udp") bind a
      (r.1 ++ u.1, u.2)
  else r

/-- dnsclient.go:114-175 `GenericDNSClient.Dial`, up to the connection -/
def genericDial (e : Env lib) (s : Sec lib) (p : Place) (network address : Str) : List Use × Bool :=
  if s.socks5 ≠ [] then
    match p with
    | .here => socksDial e s p .here network
    | .server _ => socksDial e s p .here network
    | .named _ => runIn e p fun th => socksDial e s p th network
  else
    let address := Dialing.resolveEndpointAddr { lib with lookup := e.first } address
    let bind := Dialing.selectLocalAddr lib address s.locals
    match p with
    | .here => goDial e .here s.opts network bind address
    | .server path => dialX e path s.opts network bind address
    | .named _ => runIn e p fun th => goDial e th s.opts network bind address

/-- dohclient.go:321-387 `dohTcpTransport`: a connection to `addr`, which net/http asks for. `proxy` is the configured SOCKS5 proxy: none for ODoH
(cmd/routedns/resolver.go:124-136). Without any option net/http dials itself. -/
def dohTcp (e : Env lib) (s : Sec lib) (p : Place) (addr : Str) : List Use × Bool :=
  if s.bootstrap ≠ [] ∨ s.locals.any.isSome ∨ s.locals.v4.isSome ∨ s.locals.v6.isSome ∨ s.socks5 ≠ [] ∨ p.isSet ∨ active s.opts then
    match Dialing.dohTarget s.bootstrap addr with
    | none => ([], false)
    | some addr =>
      if s.socks5 ≠ [] then
        match p with
        | .server _ => socksDial e s p .here (str "tcp")
        | p => runIn e p fun th => socksDial e s p th (str "tcp")
      else
        let addr := Dialing.resolveEndpointAddr { lib with lookup := e.first } addr
        let bind := Dialing.selectLocalAddr lib addr s.locals
        match p with
        | .server path => dialX e path s.opts (str "tcp") bind addr
        | p => runIn e p fun th => goDial e th s.opts (str "tcp") bind addr
  else goDial e .here {} (str "tcp") none addr

/-- doqclient.go:114-145 and dohclient.go:409-432, 466-476: the sockets of a client over QUIC, opened when it is made -/
def quicStart (e : Env lib) (s : Sec lib) (p : Place) : List Use :=
  match s.locals.v4, s.locals.v6 with
  | some a, some b =>
    let r := listenUDP e p s.opts a
    if r.2 then r.1 ++ (listenUDP e p s.opts b).1 else r.1
  | v4, v6 => (listenUDP e p s.opts (v6.getD (v4.getD (s.locals.any.getD lib.zero4)))).1

/-- dtlsclient.go:141-159 `dtlsDialer.Dial`; without a local address it is bound to any -/
def dtlsDial (e : Env lib) (s : Sec lib) (p : Place) (local_ : Option lib.IP) : List Use := (listenUDP e p s.opts (local_.getD lib.zero4)).1

/-- One dial: the answers given meanwhile, and for DoH and ODoH the address net/http wants to reach, for DTLS the chosen local address (`Dialing.localFor`). Pipeline and net/http dial when
they like. dnsclient.go:114, dtlsclient.go:141, dohclient.go:344. -/
structure Dial (lib : NetLib) where
  env : Env lib
  addr : Str
  local_ : Option lib.IP

/-- dotclient.go:66-74 -/
def dotAddress (s : Sec lib) : Option Str :=
  if s.bootstrap ≠ [] then (splitHostPort s.address).map fun hp => joinHostPort s.bootstrap hp.2 else some s.address

/-- cmd/routedns/resolver.go:12-162 `instantiateResolver` and the clients: every use of a new socket, at the start and by any dials afterwards -/
def opens (s : Sec lib) (start : Env lib) (dials : List (Dial lib)) : List Use := match buildNetNS s.netns s.xsocket with
  | none => []
  | some p =>
    if s.protocol = str "doq" then quicStart start s p
    else if s.protocol = str "dot" then
      (match dotAddress s with
       | none => []
       | some a => dials.flatMap fun d => (genericDial d.env s p (str "tcp") a).1)
    else if s.protocol = str "dtls" then dials.flatMap fun d => dtlsDial d.env s p d.local_
    else if s.protocol = str "doh" then
      (if s.transport = str "tcp" ∨ s.transport = [] then dials.flatMap fun d => (dohTcp d.env s p d.addr).1
       else if s.transport = str "quic" then quicStart start s p else [])
    else if s.protocol = str "odoh" then
      (if s.transport = str "tcp" ∨ s.transport = [] then dials.flatMap fun d => (dohTcp d.env { s with socks5 := [] } p d.addr).1
       else if s.transport = str "quic" then quicStart start s p else [])
    else if s.protocol = str "tcp" ∨ s.protocol = str "udp" then dials.flatMap fun d => (genericDial d.env s p s.protocol s.address).1
    else []

/-- netns_other.go:14-75, sockopts_other.go:10-17, xsocket_other.go:14-16: on other systems than Linux namespaces, socket servers and options are refused. That this happens before a socket is made makes no difference here. -/
structure OtherSystem (e : Env lib) : Prop where
  enter : ∀ n, e.enter n = false
  handsOut : ∀ p, e.handsOut p = false
  setMark : ∀ fd, e.setMark fd = false
  setDevice : ∀ fd, e.setDevice fd = false

end Verif.DialSock
