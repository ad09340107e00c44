import Verif.Spec.Asks
/-
C113 in words: configurations that keep names, or clients, away from some of the servers.
-/
namespace Verif.Spec.Split
open Verif Verif.Composition Verif.Spec.Asks

/-- The route takes all queries about these names, whoever asks, whatever else is asked for, and at any time. -/
def Catches (r : Route.Route) (bad : Str → Prop) : Prop := ∀ q qu ci now, bad qu.name → Route.matches' r q qu ci now = true

/-- The route takes all queries of these clients. -/
def CatchesFrom (r : Route.Route) (who : ClientInfo → Prop) : Prop := ∀ q qu ci now, who ci → Route.matches' r q qu ci now = true

/-- One of the routes is like that, and where it leads, and where those before it lead, is fine. -/
def Splits (routes : List Route.Route) (takes : Route.Route → Prop) (fine : Nat → Prop) : Prop := ∃ k r, routes[k]? = some r ∧ takes r ∧ ∀ j, j ≤ k → fine j

/-- None of the servers `S` is in the configuration. -/
def NoWay {H : Type} (S : Nat → Prop) : Tree H → Prop
  | .client i => ¬ S i
  | .drop => True
  | .static _ => True
  | .template _ _ => True
  | .ttl _ t => NoWay S t
  | .collapse _ t => NoWay S t
  | .minimize t => NoWay S t
  | .modify _ t => NoWay S t
  | .syslog _ t => NoWay S t
  | .queryLog t => NoWay S t
  | .dns64 _ t => NoWay S t
  | .fastestTcp _ _ t => NoWay S t
  | .dedup t => NoWay S t
  | .cache _ _ _ t => NoWay S t
  | .replace _ t => NoWay S t
  | .prefetch t => NoWay S t
  | .dnssec _ t => NoWay S t
  | .truncateRetry t u => NoWay S t ∧ NoWay S u
  | .clientBlocklist _ t b => NoWay S t ∧ NoWay S b
  | .responseIp _ t b => NoWay S t ∧ NoWay S b
  | .responseName _ t b => NoWay S t ∧ NoWay S b
  | .rateLimit _ t l => NoWay S t ∧ NoWay S l
  | .blocklist _ t a b => NoWay S t ∧ NoWay S a ∧ NoWay S b
  | .failRotate _ _ member => ∀ m, NoWay S (member m)
  | .failBack _ _ member => ∀ m, NoWay S (member m)
  | .failBackEach _ _ member => ∀ m, NoWay S (member m)
  | .roundRobin _ member => ∀ m, NoWay S (member m)
  | .random _ _ member => ∀ m, NoWay S (member m)
  | .loadBalance _ _ member => ∀ m, NoWay S (member m)
  | .fastest _ member => ∀ m, NoWay S (member m)
  | .router _ member => ∀ m, NoWay S (member m)

/-- Each way to a server in `S` leads through a router that sends these names elsewhere, or a blocklist for them, behind which names stay as they are. Before it anything may happen. -/
def Apart {H : Type} (S : Nat → Prop) (bad : Str → Prop) : Tree H → Prop
  | .client i => ¬ S i
  | .router routes member => (∀ m, Apart S bad (member m)) ∨
    (Splits routes (Catches · bad) (fun m => Apart S bad (member m)) ∧ ∀ m, Keeps (member m) ∨ Apart S bad (member m))
  | .blocklist L t a b => (Blocks L bad ∧ (Keeps t ∨ Apart S bad t) ∧ (Keeps a ∨ Apart S bad a) ∧ Apart S bad b) ∨ (Apart S bad t ∧ Apart S bad a ∧ Apart S bad b)
  | .drop => True
  | .static _ => True
  | .template _ _ => True
  | .ttl _ t => Apart S bad t
  | .collapse _ t => Apart S bad t
  | .minimize t => Apart S bad t
  | .modify _ t => Apart S bad t
  | .syslog _ t => Apart S bad t
  | .queryLog t => Apart S bad t
  | .dns64 _ t => Apart S bad t
  | .fastestTcp _ _ t => Apart S bad t
  | .dedup t => Apart S bad t
  | .cache _ _ _ t => Apart S bad t
  | .replace _ t => Apart S bad t
  | .prefetch t => Apart S bad t
  | .dnssec _ t => Apart S bad t
  | .truncateRetry t u => Apart S bad t ∧ Apart S bad u
  | .clientBlocklist _ t b => Apart S bad t ∧ Apart S bad b
  | .responseIp _ t b => Apart S bad t ∧ Apart S bad b
  | .responseName _ t b => Apart S bad t ∧ Apart S bad b
  | .rateLimit _ t l => Apart S bad t ∧ Apart S bad l
  | .failRotate _ _ member => ∀ m, Apart S bad (member m)
  | .failBack _ _ member => ∀ m, Apart S bad (member m)
  | .failBackEach _ _ member => ∀ m, Apart S bad (member m)
  | .roundRobin _ member => ∀ m, Apart S bad (member m)
  | .random _ _ member => ∀ m, Apart S bad (member m)
  | .loadBalance _ _ member => ∀ m, Apart S bad (member m)
  | .fastest _ member => ∀ m, Apart S bad (member m)

/-- Each way to a server in `S` leads through a router that sends these clients elsewhere, and no element asks by itself before it. -/
def ApartFrom {H : Type} (S : Nat → Prop) (who : ClientInfo → Prop) : Tree H → Prop
  | .client i => ¬ S i
  | .router routes member => (∀ m, ApartFrom S who (member m)) ∨ Splits routes (CatchesFrom · who) (fun m => ApartFrom S who (member m))
  | .prefetch t => NoWay S t
  | .dnssec _ t => NoWay S t
  | .drop => True
  | .static _ => True
  | .template _ _ => True
  | .ttl _ t => ApartFrom S who t
  | .collapse _ t => ApartFrom S who t
  | .minimize t => ApartFrom S who t
  | .modify _ t => ApartFrom S who t
  | .syslog _ t => ApartFrom S who t
  | .queryLog t => ApartFrom S who t
  | .dns64 _ t => ApartFrom S who t
  | .fastestTcp _ _ t => ApartFrom S who t
  | .dedup t => ApartFrom S who t
  | .cache _ _ _ t => ApartFrom S who t
  | .replace _ t => ApartFrom S who t
  | .truncateRetry t u => ApartFrom S who t ∧ ApartFrom S who u
  | .clientBlocklist _ t b => ApartFrom S who t ∧ ApartFrom S who b
  | .responseIp _ t b => ApartFrom S who t ∧ ApartFrom S who b
  | .responseName _ t b => ApartFrom S who t ∧ ApartFrom S who b
  | .rateLimit _ t l => ApartFrom S who t ∧ ApartFrom S who l
  | .blocklist _ t a b => ApartFrom S who t ∧ ApartFrom S who a ∧ ApartFrom S who b
  | .failRotate _ _ member => ∀ m, ApartFrom S who (member m)
  | .failBack _ _ member => ∀ m, ApartFrom S who (member m)
  | .failBackEach _ _ member => ∀ m, ApartFrom S who (member m)
  | .roundRobin _ member => ∀ m, ApartFrom S who (member m)
  | .random _ _ member => ∀ m, ApartFrom S who (member m)
  | .loadBalance _ _ member => ∀ m, ApartFrom S who (member m)
  | .fastest _ member => ∀ m, ApartFrom S who (member m)

end Verif.Spec.Split
