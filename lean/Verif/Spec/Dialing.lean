import Verif.Model.Dns
/-
What is expected of connections to upstream servers.
-/
namespace Verif.Spec.Dialing
open Verif

/-- The local address to use towards a server: that of the server's address family if there is one, else the general one. -/
def Source {α : Type} (any v4 v6 : Option α) (remoteIs4 : Bool) : Option α := match remoteIs4, v4, v6 with
  | true, some a, _ => some a
  | false, _, some a => some a
  | _, _, _ => any

/-- The name the certificate of a server is to be checked for: the one configured, else the host in the server's address. -/
def Expected (serverName host : Str) : Str := if serverName = [] then host else serverName

/-- `h` is what is connected to for `host`: literal addresses are used as they are, names are looked up and the first address is
taken; a name that cannot be looked up stays (and connecting will fail unless a later look-up works). -/
inductive Reached {α : Type} (parseIP : Str → Option α) (text : α → Str) (lookup : Str → Option (List α)) (host : Str) : Str → Prop
  | literal (ip : α) : parseIP host = some ip → Reached parseIP text lookup host host
  | found (ip : α) (more : List α) : parseIP host = none → lookup host = some (ip :: more) → Reached parseIP text lookup host (text ip)
  | unknown : parseIP host = none → (lookup host = none ∨ lookup host = some []) → Reached parseIP text lookup host host

end Verif.Spec.Dialing
