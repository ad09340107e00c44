import Verif.Model.Validate
/-
Opening connections to upstream servers: dnsclient.go (Dial, resolveEndpointAddr, selectLocalAddr), dotclient.go, dtlsclient.go,
doqclient.go, dohclient.go (transports), socks5.go, tls.go, dtls.go and the options taken from the configuration in
cmd/routedns/resolver.go.

Modelled: where a connection goes to, from which local address, and which name the server's certificate is checked for. The
connections themselves, network namespaces, socket options and time-outs are not.
-/
namespace Verif.Dialing
open Verif
open Verif.Validate (splitHostPort joinHostPort)

/-- The parts of Go's `net` used here. `IP` are addresses. Used in socks5.go:105-159, dohclient.go:320-500 and others. -/
structure NetLib where
  IP : Type
  /-- `net.ParseIP` -/
  parseIP : Str → Option IP
  /-- `ip.To4() != nil` -/
  is4 : IP → Bool
  /-- `ip.String()` -/
  text : IP → Str
  /-- `net.LookupIP` (`none`: error); the answer comes from the system's resolver or the bootstrap resolver -/
  lookup : Str → Option (List IP)
  /-- `net.IPv4zero` -/
  zero4 : IP

variable (lib : NetLib)

/-- dnsclient.go:227-240 `resolveEndpointAddr` -/
def resolveEndpointAddr (address : Str) : Str := match splitHostPort address with
  | none => address
  | some (host, port) =>
    if (lib.parseIP host).isSome then address
    else match lib.lookup host with
      | none => address
      | some [] => address
      | some (ip :: _) => joinHostPort (lib.text ip) port

/-- The local addresses configured for an upstream server. The fields LocalAddr, LocalAddrV4, LocalAddrV6, for example socks5.go:26-28. -/
structure Locals where
  any : Option lib.IP
  v4 : Option lib.IP
  v6 : Option lib.IP

/-- dnsclient.go:247-254: the choice for a parsed address; also dtlsclient.go:85-90 -/
def localFor (l : Locals lib) (ip : lib.IP) : Option lib.IP :=
  if lib.is4 ip ∧ l.v4.isSome then l.v4
  else if ¬ lib.is4 ip ∧ l.v6.isSome then l.v6
  else l.any

/-- dnsclient.go:244-256 `selectLocalAddr`; on an error `SplitHostPort` gives an empty host, which is no address -/
def selectLocalAddr (target : Str) (l : Locals lib) : Option lib.IP := match splitHostPort target with
  | none => l.any
  | some (host, _) => match lib.parseIP host with
    | none => l.any
    | some ip => localFor lib l ip

/-- cmd/routedns/resolver.go:36-38 and the like: a configured local address that cannot be parsed is `nil` -/
def localsOf (any v4 v6 : Str) : Locals lib := ⟨lib.parseIP any, lib.parseIP v4, lib.parseIP v6⟩

/-- A connection that was asked for: the address given to the dialer, the local address bound to, and for encrypted ones the
server name in the TLS configuration (the name the certificate is checked for). What dnsclient.go, dotclient.go, dtlsclient.go, doqclient.go and dohclient.go ask for. -/
structure Conn where
  to : Str
  viaProxy : Bool
  bind : Option lib.IP
  name : Option Str

/-- dnsclient.go:114-203 `GenericDNSClient.Dial` for `Net` "udp", "tcp" and "tcp-tls" (`tls`). With a custom dialer the
local address is that dialer's business (see `socksDial`). `none`: the error of line 190. -/
def genericDial (tls : Bool) (serverName : Str) (proxy : Bool) (l : Locals lib) (address : Str) : Option (Conn lib) :=
  let address := if proxy then address else resolveEndpointAddr lib address
  let bind := if proxy then none else selectLocalAddr lib address l
  if tls then
    match splitHostPort address with
    | none => none
    | some (hostname, _) => some ⟨address, proxy, bind, some (if serverName = [] then hostname else serverName)⟩
  else some ⟨address, proxy, bind, none⟩

/-- What the configuration says about an upstream server. `address` has its port already (`AddressWithDefault`). cmd/routedns/config.go:50-82, as far as it is used here. -/
structure Upstream where
  address : Str
  bootstrap : Str
  serverName : Str
  proxy : Bool
  locals : Locals lib

/-- dotclient.go:46-80 `NewDoTClient` and the dialing by its pipeline: the TLS configuration comes from `TLSClientConfig` with the
configured server name (cmd/routedns/resolver.go:52) -/
def dotDial (u : Upstream lib) : Option (Conn lib) :=
  if u.bootstrap ≠ [] then
    match splitHostPort u.address with
    | none => none
    | some (host, port) => genericDial lib true host u.proxy u.locals (joinHostPort u.bootstrap port)
  else genericDial lib true u.serverName u.proxy u.locals u.address

/-- dnsclient.go:52-75 `NewDNSClient`: no bootstrap address -/
def plainDial (u : Upstream lib) : Option (Conn lib) := genericDial lib false [] u.proxy u.locals u.address

/-- Atoi and back: the port is printed as a number in a `net.UDPAddr`; the model keeps its text. dohclient.go:387-500, doqclient.go:378-394, dtlsclient.go:141-159. -/
def udpTarget (ip : lib.IP) (port : Str) : Str := joinHostPort (lib.text ip) port

/-- dtlsclient.go:67-81: the server's address and the server name put in the DTLS configuration, which is otherwise without
(cmd/routedns/resolver.go:74, dtls.go:49-74) -/
def dtlsTarget (u : Upstream lib) (host : Str) : Option (lib.IP × Str) :=
  if u.bootstrap ≠ [] then (lib.parseIP u.bootstrap).map fun ip => (ip, host)
  else match lib.lookup host with
    | none => none
    | some [] => none
    | some (ip :: _) => some (ip, [])

/-- dtlsclient.go:50-111 `NewDTLSClient`; `LookupIP` of a literal address gives that address -/
def dtlsDial (u : Upstream lib) : Option (Conn lib) := match splitHostPort u.address with
  | none => none
  | some (host, port) => match dtlsTarget lib u host with
    | none => none
    | some (ip, name) => some ⟨udpTarget lib ip port, false, localFor lib u.locals ip, some name⟩

/-- doqclient.go:114-145, dohclient.go:410-425: the local address of the socket used towards `remote` -/
def quicBind (l : Locals lib) (remote : lib.IP) : Option lib.IP :=
  if l.v4.isSome ∧ l.v6.isSome then
    (if lib.is4 remote then l.v4 else l.v6)
  else
    let a := some lib.zero4
    let a := if l.any.isSome then l.any else a
    let a := if l.v4.isSome then l.v4 else a
    if l.v6.isSome then l.v6 else a

/-- `net.ResolveUDPAddr("udp", addr)`: the address of the host, which is looked up if it is a name (`none`: error). Go prefers
an IPv4 address; which of the addresses is taken is left to `pick`. Go library; used in dtlsclient.go:141-159, doqclient.go:315-394. -/
def resolveUDP (pick : List lib.IP → Option lib.IP) (addr : Str) : Option (lib.IP × Str) := match splitHostPort addr with
  | none => none
  | some (host, port) => match lib.parseIP host with
    | some ip => some (ip, port)
    | none => match lib.lookup host with
      | none => none
      | some ips => (pick ips).map fun ip => (ip, port)

/-- doqclient.go:62-148 `NewDoQClient` and 190-203, 288-..: the remote address is resolved for each connection -/
def doqDial (pick : List lib.IP → Option lib.IP) (u : Upstream lib) : Option (Conn lib) := match splitHostPort u.address with
  | none => none
  | some (host, port) =>
    let endpoint := if u.bootstrap ≠ [] then joinHostPort u.bootstrap port else u.address
    match resolveUDP lib pick endpoint with
    | none => none
    | some (ip, port) => some ⟨udpTarget lib ip port, false, quicBind lib u.locals ip, some host⟩

/-- The address to dial for a bootstrap address: dohclient.go:345-351 and 440-446 -/
def dohTarget (bootstrap addr : Str) : Option Str :=
  if bootstrap ≠ [] then (splitHostPort addr).map fun hp => joinHostPort bootstrap hp.2 else some addr

/-- dohclient.go:321-389 `dohTcpTransport` with Go's net/http on top: a request for `hostname` at `port` dials
`hostname:port`, and the certificate is checked for the server name of the TLS configuration, or for the request's host name
if that is empty. Without any of the options (line 343) net/http dials by itself, resolving the name and binding to nothing. -/
def dohTcpDial (u : Upstream lib) (hostname port : Str) : Option (Conn lib) :=
  match dohTarget u.bootstrap (joinHostPort hostname port) with
  | none => none
  | some addr =>
    let addr := if u.proxy then addr else resolveEndpointAddr lib addr
    let bind := if u.proxy then none else selectLocalAddr lib addr u.locals
    some ⟨addr, u.proxy, bind, some (if u.serverName = [] then hostname else u.serverName)⟩

/-- dohclient.go:391-511 `dohQuicTransport`: `urlHost` is the host name of the configured URL, `hostname` that of the request -/
def dohQuicDial (pick : List lib.IP → Option lib.IP) (u : Upstream lib) (urlHost hostname port : Str) : Option (Conn lib) :=
  match dohTarget u.bootstrap (joinHostPort hostname port) with
  | none => none
  | some addr => match resolveUDP lib pick addr with
    | none => none
    | some (ip, port) => some ⟨udpTarget lib ip port, false, quicBind lib u.locals ip, some urlHost⟩

/-- socks5.go:106-146: the address kept at the first use. `look` is `net.DefaultResolver.LookupIP(ctx, "ip4", ·)` at the time of that use
(`none`: error). -/
def socksAddr (resolveLocal : Bool) (look : Str → Option (List lib.IP)) (address : Str) : Str :=
  if resolveLocal then
    match splitHostPort address with
    | none => address
    | some (host, port) =>
      if (lib.parseIP host).isSome then address
      else match look host with
        | none => address
        | some [] => address
        | some (ip :: _) => joinHostPort (lib.text ip) port
  else address

/-- What the proxy is asked for: the destination, and the local address bound to for reaching the proxy. socks5.go:105-159. -/
structure ProxyReq where
  to : Str
  bind : Option lib.IP

/-- socks5.go:105-158 `Socks5Dialer.Dial`: `kept` is the address remembered by `once`; the requested network is left out -/
def socksDial (resolveLocal : Bool) (l : Locals lib) (kept : Option Str) (look : Str → Option (List lib.IP)) (address : Str) :
    Option Str × ProxyReq lib :=
  let addr := match kept with
    | some a => a
    | none => socksAddr lib resolveLocal look address
  (some addr, ⟨addr, selectLocalAddr lib addr l⟩)

/-- Requests made to the proxy by a sequence of dials with one dialer, each with what look-ups give at its time. Concurrent first dials
wait for each other (`sync.Once`). socks5.go:105-159. -/
def socksRun (resolveLocal : Bool) (l : Locals lib) : Option Str → List ((Str → Option (List lib.IP)) × Str) → List (ProxyReq lib)
  | _, [] => []
  | kept, (look, a) :: as =>
    (socksDial lib resolveLocal l kept look a).2 :: socksRun resolveLocal l (socksDial lib resolveLocal l kept look a).1 as

end Verif.Dialing

namespace Verif.TlsConfig
open Verif

/-- Reading the files given in the configuration. `pool` makes a set of CA certificates of a file (`none`: it cannot be read, or
holds no certificate), `pair` loads certificate and key. tls.go:13-76, dtls.go:15-74. -/
structure Files where
  Pool : Type
  Cert : Type
  pool : Str → Option Pool
  pair : Str → Str → Option Cert

/-- The parts of a `tls.Config` or `dtls.Config` of a server that are set; `tls12`: TLS 1.2 is the lowest version accepted (else the library's default). tls.go:13-46, dtls.go:15-46. -/
structure Server (fs : Files) where
  requireClientCert : Bool := false
  clientCAs : Option fs.Pool := none
  certs : List fs.Cert := []
  tls12 : Bool := false

/-- The parts of the configuration of a client that tls.go:48-76 and dtls.go:48-74 set -/
structure Client (fs : Files) where
  serverName : Str := []
  rootCAs : Option fs.Pool := none
  certs : List fs.Cert := []
  tls12 : Bool := false

variable (fs : Files)

/-- tls.go:24-34, 57-69 and dtls.go:23-33, 62-72: the CA set; the outer `none` is an error -/
def loadPool (caFile : Str) : Option (Option fs.Pool) := if caFile = [] then some none else (fs.pool caFile).map some

/-- tls.go:36-43, 49-55: the certificates -/
def loadCerts (crt key : Str) : Option (List fs.Cert) := if crt ≠ [] ∧ key ≠ [] then (fs.pair crt key).map fun c => [c] else some []

/-- tls.go:13-45 `TLSServerConfig` (`tls`) and dtls.go:14-46 `DTLSServerConfig` -/
def serverConfig (tls : Bool) (ca crt key : Str) (mtls : Bool) : Option (Server fs) :=
  if mtls ∧ ca = [] then none
  else match loadPool fs ca with
    | none => none
    | some p => match loadCerts fs crt key with
      | none => none
      | some cs => some { requireClientCert := mtls, clientCAs := p, certs := cs, tls12 := tls }

/-- tls.go:49-76 `TLSClientConfig` (`tls`) and dtls.go:50-75 `DTLSClientConfig` (without a server name) -/
def clientConfig (tls : Bool) (ca crt key serverName : Str) : Option (Client fs) := match loadCerts fs crt key with
  | none => none
  | some cs => match loadPool fs ca with
    | none => none
    | some p => some { serverName := if tls then serverName else [], rootCAs := p, certs := cs, tls12 := tls }

end Verif.TlsConfig
