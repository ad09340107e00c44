import Verif.Model.DialSock
/-
What a resolver's section says about the sockets towards its server.
-/
namespace Verif.Spec.DialSock
open Verif Verif.DialSock
open Verif.Dialing (NetLib)
open Verif.ListenSock (Place)
open Verif.Validate (splitHostPort joinHostPort)

variable {lib : NetLib}

/-- `netns`, `xsocket` -/
def placeAsked (s : Sec lib) : Place := if s.netns ≠ [] then .named s.netns else if s.xsocket ≠ [] then .server s.xsocket else .here

/-- `fwmark`, `bind-if`: they are set on the socket before it is used -/
def OptionsSet (s : Sec lib) (u : Use) : Prop := u.fd.mark = s.opts.mark ∧ u.fd.device = s.opts.device

/-- DoH or ODoH over TCP -/
def plainTransport (s : Sec lib) : Prop := s.transport = str "tcp" ∨ s.transport = []

/-- Connections over TCP -/
def OverTCP (s : Sec lib) : Prop := s.protocol = str "tcp" ∨ s.protocol = str "dot" ∨ ((s.protocol = str "doh" ∨ s.protocol = str "odoh") ∧ plainTransport s)

/-- The kinds of resolvers that reach their server through a SOCKS5 proxy -/
def CanProxy (s : Sec lib) : Prop := s.protocol = str "tcp" ∨ s.protocol = str "udp" ∨ s.protocol = str "dot" ∨ (s.protocol = str "doh" ∧ plainTransport s)

/-- The address, as text, to which TCP connections are opened in a dial: the proxy's; else the server's, with the bootstrap address in place of the name -/
inductive Reaches (s : Sec lib) (d : Dial lib) : Str → Prop
  | proxy : CanProxy s → s.socks5 ≠ [] → Reaches s d s.socks5
  | tcp : s.protocol = str "tcp" → s.socks5 = [] → Reaches s d s.address
  | dot : s.protocol = str "dot" → s.socks5 = [] → s.bootstrap = [] → Reaches s d s.address
  | dotBoot (h p : Str) : s.protocol = str "dot" → s.socks5 = [] → s.bootstrap ≠ [] → splitHostPort s.address = some (h, p) → Reaches s d (joinHostPort s.bootstrap p)
  | doh : ((s.protocol = str "doh" ∧ s.socks5 = []) ∨ s.protocol = str "odoh") → s.bootstrap = [] → Reaches s d d.addr
  | dohBoot (h p : Str) : ((s.protocol = str "doh" ∧ s.socks5 = []) ∨ s.protocol = str "odoh") → s.bootstrap ≠ [] → splitHostPort d.addr = some (h, p) →
      Reaches s d (joinHostPort s.bootstrap p)

/-- A name that stands for addresses of both families -/
def BothFamilies (is4 : α → Bool) (look : Str → Option (List α)) (name : Str) : Prop :=
  ∃ ips, look name = some ips ∧ (∃ a ∈ ips, is4 a = true) ∧ (∃ b ∈ ips, is4 b = false)

/-- During this dial the library itself looks up a name, and gets addresses of both families. For the proxy's name this happens when socket options
are configured; for the server's when the look-up made before has not given an address. -/
def Raced (s : Sec lib) (d : Dial lib) : Prop := ∃ a host port, Reaches s d a ∧ splitHostPort a = some (host, port) ∧ lib.parseIP host = none ∧
  BothFamilies lib.is4 d.env.look host ∧
  (((CanProxy s ∧ s.socks5 ≠ []) ∧ (s.opts.mark > 0 ∨ s.opts.device ≠ [])) ∨
   (¬ (CanProxy s ∧ s.socks5 ≠ []) ∧ (d.env.first host = none ∨ d.env.first host = some [])))

/-- What the section asks for is refused: its namespace cannot be entered, the server that hands out sockets does not, or an option cannot be set. -/
def Refuses (s : Sec lib) (e : Env lib) : Prop :=
  (s.netns ≠ [] ∧ e.enter s.netns = false) ∨ (s.xsocket ≠ [] ∧ e.handsOut s.xsocket = false) ∨
  (s.opts.mark > 0 ∧ ∀ fd, e.setMark fd = false) ∨ (s.opts.device ≠ [] ∧ ∀ fd, e.setDevice fd = false)

end Verif.Spec.DialSock
