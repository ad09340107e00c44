import Verif.Model.Xsocket
/-
C58 in words.
-/
namespace Verif.Spec.Xsocket
open Verif Verif.Xsocket

/-- A request on the wire: the signature and three numbers of 32 bits in network byte order, in 16 bytes; more bytes in the same message are ignored. -/
def Asks (m : Str) (domain typ proto : Nat) : Prop :=
  domain < 2 ^ 32 ∧ typ < 2 ^ 32 ∧ proto < 2 ^ 32 ∧ ∃ rest, m = str "XS01" ++ beBytes 4 domain ++ beBytes 4 typ ++ beBytes 4 proto ++ rest

/-- A response on the wire -/
def Says (m : Str) (errno : Nat) : Prop := m = str "XS02" ++ beBytes 4 errno

/-- IPv4 or IPv6, TCP or UDP: the type is stream or datagram, with or without the flags for close-on-exec and non-blocking -/
def Harmless (domain typ proto : Nat) : Prop :=
  (domain = 2 ∨ domain = 10) ∧
  ((∃ f, f ∈ [0, 0x800, 0x80000, 0x80800] ∧ typ = 1 + f) ∧ (proto = 0 ∨ proto = 6) ∨ (∃ f, f ∈ [0, 0x800, 0x80000, 0x80800] ∧ typ = 2 + f) ∧ (proto = 0 ∨ proto = 17))

end Verif.Spec.Xsocket
