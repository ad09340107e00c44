import Verif.Spec.Split
import Verif.Spec.AsksConfig
import Verif.Spec.Route
/-
Specification for C124: configuration files that keep names, or clients, away from some of the servers.
-/
namespace Verif.Spec.SplitConfig
open Verif Verif.Assemble Verif.Spec.Asks

/-- A route with an expression for names that matches all of these, and no other condition. (The empty expression is the default route.) -/
def TakesNames {H : Type} (env : Env H) (r : RouteCfg) (bad : Str → Prop) : Prop :=
  r.type = [] ∧ ∃ e f, r.route = { name := e } ∧ env.compile e = some f ∧ ∀ n, bad n → f n = true

/-- A route with a network all these clients are in, or an expression for the listener they come in at, and no other condition. -/
inductive TakesClients {H : Type} (env : Env H) (r : RouteCfg) (who : ClientInfo → Prop) : Prop
  | source {e a net} : r.type = [] → r.route = { source := e } → e ≠ [] → env.parseCIDR e = some (a, net) → (net.ip.length = 4 ∨ net.ip.length = 16) →
      (∀ ci, who ci → (ci.sourceIP.length = 4 ∨ ci.sourceIP.length = 16) ∧ Route.Lies net ci.sourceIP) → TakesClients env r who
  | listener {e f} : r.type = [] → r.route = { listenerID := e } → env.compile e = some f → (∀ ci, who ci → f ci.listener = true) → TakesClients env r who

/-- Among these routes is one like that; it, and those before it, lead to sections in `A`. -/
def SplitsAt (rs : List RouteCfg) (takes : RouteCfg → Prop) (A : Str → Prop) : Prop :=
  ∃ k r, rs[k]? = some r ∧ takes r ∧ ∀ (j : Nat) (x : RouteCfg), j ≤ k → rs[j]? = some x → A x.resolver

/-- From sections in `N` there is no way to the servers. -/
structure Away (c : Cfg) (servers N : Str → Prop) : Prop where
  resolver : ∀ id r, N id → (id, r) ∈ c.resolvers → ¬ servers id
  bootstrap : N (str "bootstrap-resolver") → c.bootstrap ≠ none → ¬ servers (str "bootstrap-resolver")
  group : ∀ id g, N id → (id, g) ∈ c.groups → ¬ Opaque g ∧ ∀ x, Refers g x → N x
  router : ∀ id rs, N id → (id, rs) ∈ c.routers → ∀ r ∈ rs, N r.resolver

/-- Every way from sections in `A` to the servers goes through a router that sends the names elsewhere, or a blocklist for them, behind which there are only sections in `K`. -/
structure KeepsNames {H : Type} (env : Env H) (c : Cfg) (servers : Str → Prop) (bad : Str → Prop) (K A : Str → Prop) : Prop where
  resolver : ∀ id r, A id → (id, r) ∈ c.resolvers → ¬ servers id
  bootstrap : A (str "bootstrap-resolver") → c.bootstrap ≠ none → ¬ servers (str "bootstrap-resolver")
  group : ∀ id g, A id → (id, g) ∈ c.groups → ¬ Opaque g ∧
    ((∀ x, Refers g x → A x) ∨
      Lists env g bad ∧ (∀ x ∈ g.resolvers, K x ∨ A x) ∧ (g.allowListResolver ≠ [] → K g.allowListResolver ∨ A g.allowListResolver) ∧ (g.blockListResolver ≠ [] → A g.blockListResolver))
  router : ∀ id rs, A id → (id, rs) ∈ c.routers →
    (∀ r ∈ rs, A r.resolver) ∨ SplitsAt rs (TakesNames env · bad) A ∧ ∀ r ∈ rs, K r.resolver ∨ A r.resolver
  /-- scripts and Redis caches are left out behind them, too -/
  behind : ∀ id g, K id → (id, g) ∈ c.groups → ¬ Opaque g

/-- Every way from sections in `A` to the servers goes through a router that sends the clients elsewhere. Sections that ask by themselves have no way to the servers at all. -/
structure KeepsClients {H : Type} (env : Env H) (c : Cfg) (servers : Str → Prop) (who : ClientInfo → Prop) (N A : Str → Prop) : Prop where
  resolver : ∀ id r, A id → (id, r) ∈ c.resolvers → ¬ servers id
  bootstrap : A (str "bootstrap-resolver") → c.bootstrap ≠ none → ¬ servers (str "bootstrap-resolver")
  group : ∀ id g, A id → (id, g) ∈ c.groups → ¬ Opaque g ∧ (∀ x, Refers g x → A x) ∧ (g.type = str "prefetch" ∨ g.type = str "dnssec-validator" → ∀ x ∈ g.resolvers, N x)
  router : ∀ id rs, A id → (id, rs) ∈ c.routers → (∀ r ∈ rs, A r.resolver) ∨ SplitsAt rs (TakesClients env · who) A

end Verif.Spec.SplitConfig
