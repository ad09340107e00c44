import Verif.Model.ListenSock
/-
What the section of a listener says about its socket.
-/
namespace Verif.Spec.ListenSock
open Verif Verif.ListenSock

/-- The protocols whose clients come over TCP, and over UDP -/
def overTCP (l : Lis) : Prop := l.protocol = str "tcp" ∨ l.protocol = str "dot" ∨ l.protocol = str "odoh" ∨
  ((l.protocol = str "doh" ∨ l.protocol = str "admin") ∧ (l.transport = [] ∨ l.transport = str "tcp"))
def overUDP (l : Lis) : Prop := l.protocol = str "udp" ∨ l.protocol = str "dtls" ∨ l.protocol = str "doq" ∨
  ((l.protocol = str "doh" ∨ l.protocol = str "admin") ∧ l.transport = str "quic")

/-- A network of Go's net package is for TCP, UDP, and restricted to one version of IP -/
def forTCP (network : Str) : Prop := network = str "tcp" ∨ network = str "tcp4" ∨ network = str "tcp6"
def forUDP (network : Str) : Prop := network = str "udp" ∨ network = str "udp4" ∨ network = str "udp6"
def onlyVersion (network : Str) : Option Nat :=
  if network = str "tcp4" ∨ network = str "udp4" then some 4
  else if network = str "tcp6" ∨ network = str "udp6" then some 6 else none

/-- `ip-version`: 0 is both -/
def versionAsked (l : Lis) : Option Nat := if l.ipVersion = 0 then none else some l.ipVersion

/-- `netns`, `xsocket` -/
def placeAsked (l : Lis) : Place := if l.netns ≠ [] then .named l.netns else if l.xsocket ≠ [] then .server l.xsocket else .here

/-- A section that makes sense: a known protocol and transport, a known version of IP, not both ways of reaching a namespace -/
def Sound (l : Lis) : Prop := (overTCP l ∨ overUDP l) ∧ (l.ipVersion = 0 ∨ l.ipVersion = 4 ∨ l.ipVersion = 6) ∧ (l.netns = [] ∨ l.xsocket = [])

/-- The socket is made elsewhere, or with `fwmark` or `bind-if`. -/
def Special (l : Lis) : Prop := l.netns ≠ [] ∨ l.xsocket ≠ [] ∨ 0 < l.opts.mark ∨ l.opts.device ≠ []

end Verif.Spec.ListenSock
