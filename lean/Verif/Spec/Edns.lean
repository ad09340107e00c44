import Verif.Model.Dns
/-
Changes of the EDNS data of a message.
-/
namespace Verif

/-- A message and the same message with the EDNS data `e'` instead of `e`: nothing else differs. -/
def Replaced (m m' : Msg) (e e' : Edns) : Prop :=
  ∃ (pre : List RR) (r : RR) (post : List RR), m.extra = pre ++ r :: post ∧ r.edns? = some e ∧ (∀ x, x ∈ post → x.edns? = none) ∧
    m' = { m with extra := pre ++ { r with data := .opt e'.udpSize e'.dnssecOk e'.options } :: post }

/-- The message has no OPT record and `m'` is the message with one at the end. -/
def Added (m m' : Msg) (e : Edns) : Prop :=
  m.edns? = none ∧ m' = { m with extra := m.extra ++ [{ name := str ".", rtype := typeOPT, cls := e.udpSize, ttl := 0, data := .opt e.udpSize e.dnssecOk e.options }] }

end Verif
