import Verif.Model.Cidr
/-
C30 in words.
-/
namespace Verif.Spec.Cidr
open Verif Verif.Net Verif.Cidr

/-- The address lies in the network: same IP version, and the leading bits agree. -/
def InNet (n : IPNet) (ip : Str) : Prop := match to4 ip with
  | some b => n.ip.length = 4 ∧ (bits b).take n.ones = (bits n.ip).take n.ones
  | none => n.ip.length = 16 ∧ (bits ip).take n.ones = (bits n.ip).take n.ones

/-- A network as `net.ParseCIDR` gives it for IPv4 text and for IPv6 text that is not an IPv4-mapped address: `ip` is the 16-byte address, and the
network has the length of its version. -/
def Regular (ip : Str) (n : IPNet) : Prop :=
  ((to4 ip).isSome ∧ n.ip.length = 4 ∧ n.ones ≤ 32) ∨ (to4 ip = none ∧ n.ip.length = 16 ∧ n.ones ≤ 128)

/-- The text of the network a line names, if any: comments (`#`) and blank lines name none; an address without a prefix length is the network of
this address alone. -/
def text (line : Str) : Option Str :=
  if trimSpace line = [] ∨ [35] <+: trimSpace line then none
  else some (trimSpace line ++
    if (47 : UInt8) ∈ trimSpace line then [] else if (46 : UInt8) ∈ trimSpace line then str "/32"
    else if (58 : UInt8) ∈ trimSpace line then str "/128" else [])

/-- The networks a list names: its lines without comments and empty ones, in order. -/
def networks (parseCIDR : Str → Option (Str × IPNet)) (rules : List Str) : List (Str × IPNet) :=
  (rules.filterMap text).filterMap parseCIDR

end Verif.Spec.Cidr
