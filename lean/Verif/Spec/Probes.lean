import Verif.Model.Dns
/-
What a connection attempt to an address of the answer is, in words.
-/
namespace Verif.Spec.Probes
open Verif

/-- `ep` is host `h` and port `p` as one writes them: `h:p`, and `[h]:p` when there are colons in `h`. -/
structure Endpoint (h p ep : Str) : Prop where
  plain : 58 ∉ h → 37 ∉ h → ep = h ++ str ":" ++ p
  bracketed : 58 ∈ h → ep = str "[" ++ h ++ str "]:" ++ p

/-- A connection over `network` to `ep` goes to the address in `r`, at this port. -/
structure GoesTo (text : Str → Str) (port : Str) (r : RR) (network ep : Str) : Prop where
  addr : ∃ ip, ((r.data = .a ip ∧ network = str "tcp4") ∨ (r.data = .aaaa ip ∧ network = str "tcp6")) ∧ Endpoint (text ip) port ep

end Verif.Spec.Probes
