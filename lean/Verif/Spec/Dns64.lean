import Verif.Model.Dns64
/-
C42 in words.
-/
namespace Verif.Spec.Dns64
open Verif Verif.Net Verif.Dns64

/-- RFC 6052, 2.2: the address made from prefix `p` of length `n` and the IPv4 address `v4`: the prefix, then the IPv4 address, leaving out byte 8 (which is zero)
unless the prefix has 96 bits, then zeros. -/
def Embeds (p : Str) (n : Nat) (v4 addr : Str) : Prop :=
  addr.length = 16 ∧ (bits addr).take n = (bits p).take n ∧
  (n = 96 → addr.drop 12 = v4) ∧
  (n < 96 → addr[8]? = some 0 ∧ addr.take 8 ++ addr.drop 9 = p.take (n / 8) ++ v4 ++ List.replicate (11 - n / 8) 0)

/-- An AAAA record for `name` with time to live `ttl` and the address made from `p` and `v4` -/
def Synthetic (qu : Question) (ttl : Nat) (p : Pfx) (v4 : Str) (rr : RR) : Prop :=
  ∃ addr, Embeds p.ip p.len v4 addr ∧ rr = { name := qu.name, rtype := typeAAAA, cls := qu.qclass, ttl := ttl, data := .aaaa addr }

/-- `out` has one synthetic record per prefix for one IPv4 address, in order -/
inductive ForAddress (qu : Question) (ttl : Nat) (v4 : Str) : List Pfx → List RR → Prop
  | nil : ForAddress qu ttl v4 [] []
  | cons {p ps rr out} : Synthetic qu ttl p v4 rr → ForAddress qu ttl v4 ps out → ForAddress qu ttl v4 (p :: ps) (rr :: out)

/-- `out` has the synthetic records for all A records among `rrs`, in order -/
inductive ForAll (ps : List Pfx) (qu : Question) : List RR → List RR → Prop
  | nil : ForAll ps qu [] []
  | addr {rr rrs ip v4 o out} : rr.data = .a ip → (ip = v4 ∨ ip = v4Prefix ++ v4) → v4.length = 4 → ForAddress qu rr.ttl v4 ps o → ForAll ps qu rrs out → ForAll ps qu (rr :: rrs) (o ++ out)
  | other {rr rrs out} : (∀ ip, rr.data = .a ip → to4 ip = none) → ForAll ps qu rrs out → ForAll ps qu (rr :: rrs) out

/-- A usable response: no error, success code -/
def Success (r : Res) (m : Msg) : Prop := r = .ok m ∧ m.rcode = rcodeSuccess

end Verif.Spec.Dns64
