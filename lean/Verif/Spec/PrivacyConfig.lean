import Verif.Spec.Privacy
import Verif.Spec.AsksConfig
/-
Specification for C123: the ways in a configuration file, and the modifiers on them.
-/
namespace Verif.Spec.PrivacyConfig
open Verif Verif.Assemble Verif.Composition Verif.Spec.Asks

/-- The section asks for this change to queries. -/
inductive Modifies (g : Group) : Modifier → Prop
  | ecs {m} : g.type = str "ecs-modifier" → Assemble.EcsOp g m → Modifies g m
  | edns0 {m} : g.type = str "edns0-modifier" → Assemble.Edns0Op g m → Modifies g m

/-- `Path c id ms`: in the file there is a way from the section `id` to a server (or to a script or Redis cache), on which queries are changed like this, in this order. -/
inductive Path (c : Cfg) : Str → List Modifier → Prop
  | resolver {id r} : (id, r) ∈ c.resolvers → Path c id []
  | bootstrap {r} : c.bootstrap = some r → Path c (str "bootstrap-resolver") []
  | closed {id g} : (id, g) ∈ c.groups → Opaque g → Path c id []
  | modifier {id g m x ms} : (id, g) ∈ c.groups → Modifies g m → x ∈ g.resolvers → Path c x ms → Path c id (m :: ms)
  | group {id g x ms} : (id, g) ∈ c.groups → g.type ≠ str "ecs-modifier" → g.type ≠ str "edns0-modifier" → Refers g x → Path c x ms → Path c id ms
  | router {id rs r ms} : (id, rs) ∈ c.routers → r ∈ rs → Path c r.resolver ms → Path c id ms

end Verif.Spec.PrivacyConfig
