import Verif.Model.Composition
import Verif.Spec.Blocklist
/-
C85 in words: configurations in which lists stand before the servers.
-/
namespace Verif.Spec.Asks
open Verif Verif.Composition

/-- The name a query is about -/
def Named (q : Msg) (n : Str) : Prop := ∃ qu rest, q.question = qu :: rest ∧ qu.name = n

/-- No element replaces names or asks by itself. -/
def Keeps {H : Type} : Tree H → Prop
  | .replace _ _ => False
  | .prefetch _ => False
  | .dnssec _ _ => False
  | .client _ => True
  | .drop => True
  | .static _ => True
  | .template _ _ => True
  | .ttl _ t => Keeps t
  | .truncateRetry t u => Keeps t ∧ Keeps u
  | .collapse _ t => Keeps t
  | .minimize t => Keeps t
  | .modify _ t => Keeps t
  | .blocklist _ t a b => Keeps t ∧ Keeps a ∧ Keeps b
  | .clientBlocklist _ t b => Keeps t ∧ Keeps b
  | .responseIp _ t b => Keeps t ∧ Keeps b
  | .responseName _ t b => Keeps t ∧ Keeps b
  | .rateLimit _ t l => Keeps t ∧ Keeps l
  | .syslog _ t => Keeps t
  | .queryLog t => Keeps t
  | .dns64 _ t => Keeps t
  | .failRotate _ _ member => ∀ m, Keeps (member m)
  | .failBack _ _ member => ∀ m, Keeps (member m)
  | .failBackEach _ _ member => ∀ m, Keeps (member m)
  | .roundRobin _ member => ∀ m, Keeps (member m)
  | .random _ _ member => ∀ m, Keeps (member m)
  | .loadBalance _ _ member => ∀ m, Keeps (member m)
  | .fastest _ member => ∀ m, Keeps (member m)
  | .fastestTcp _ _ t => Keeps t
  | .router _ member => ∀ m, Keeps (member m)
  | .dedup t => Keeps t
  | .cache _ _ _ t => Keeps t

/-- Whatever the lists become, they block these names and do not allow them. -/
def Blocks (L : Blocklist.Options → Prop) (bad : Str → Prop) : Prop :=
  ∀ opt, L opt → ∀ q n, Named q n → bad n → Blocklist.On opt.blockDB q ∧ ∀ db, opt.allowDB = some db → ¬ Blocklist.On db q

/-- Each way to a server leads through a blocklist for these names, behind which names stay as they are. Before the blocklist anything may happen. -/
def Guarded {H : Type} (bad : Str → Prop) : Tree H → Prop
  | .client _ => False
  | .blocklist L t a b => (Blocks L bad ∧ Keeps t ∧ Keeps a ∧ Guarded bad b) ∨ (Guarded bad t ∧ Guarded bad a ∧ Guarded bad b)
  | .drop => True
  | .static _ => True
  | .template _ _ => True
  | .replace _ t => Guarded bad t
  | .prefetch t => Guarded bad t
  | .dnssec _ t => Guarded bad t
  | .ttl _ t => Guarded bad t
  | .truncateRetry t u => Guarded bad t ∧ Guarded bad u
  | .collapse _ t => Guarded bad t
  | .minimize t => Guarded bad t
  | .modify _ t => Guarded bad t
  | .clientBlocklist _ t b => Guarded bad t ∧ Guarded bad b
  | .responseIp _ t b => Guarded bad t ∧ Guarded bad b
  | .responseName _ t b => Guarded bad t ∧ Guarded bad b
  | .rateLimit _ t l => Guarded bad t ∧ Guarded bad l
  | .syslog _ t => Guarded bad t
  | .queryLog t => Guarded bad t
  | .dns64 _ t => Guarded bad t
  | .failRotate _ _ member => ∀ m, Guarded bad (member m)
  | .failBack _ _ member => ∀ m, Guarded bad (member m)
  | .failBackEach _ _ member => ∀ m, Guarded bad (member m)
  | .roundRobin _ member => ∀ m, Guarded bad (member m)
  | .random _ _ member => ∀ m, Guarded bad (member m)
  | .loadBalance _ _ member => ∀ m, Guarded bad (member m)
  | .fastest _ member => ∀ m, Guarded bad (member m)
  | .fastestTcp _ _ t => Guarded bad t
  | .router _ member => ∀ m, Guarded bad (member m)
  | .dedup t => Guarded bad t
  | .cache _ _ _ t => Guarded bad t

/-- Whatever the list becomes, this address is on it, and it is the address of the client that counts. -/
def BlocksClient (L : Bool → Bool → (Str → Option Lists.Match) → Prop) (ip : Str) : Prop :=
  ∀ useECS hasBlock db, L useECS hasBlock db → useECS = false ∧ ∃ m, db ip = some m

/-- Each way to a server leads through a list with this address of a client, and no element asks by itself before it. -/
def GuardedFrom {H : Type} (ip : Str) : Tree H → Prop
  | .client _ => False
  | .clientBlocklist L t b => (BlocksClient L ip ∨ GuardedFrom ip t) ∧ GuardedFrom ip b
  | .drop => True
  | .static _ => True
  | .template _ _ => True
  | .prefetch _ => False
  | .dnssec _ _ => False
  | .blocklist _ t a b => GuardedFrom ip t ∧ GuardedFrom ip a ∧ GuardedFrom ip b
  | .replace _ t => GuardedFrom ip t
  | .ttl _ t => GuardedFrom ip t
  | .truncateRetry t u => GuardedFrom ip t ∧ GuardedFrom ip u
  | .collapse _ t => GuardedFrom ip t
  | .minimize t => GuardedFrom ip t
  | .modify _ t => GuardedFrom ip t
  | .responseIp _ t b => GuardedFrom ip t ∧ GuardedFrom ip b
  | .responseName _ t b => GuardedFrom ip t ∧ GuardedFrom ip b
  | .rateLimit _ t l => GuardedFrom ip t ∧ GuardedFrom ip l
  | .syslog _ t => GuardedFrom ip t
  | .queryLog t => GuardedFrom ip t
  | .dns64 _ t => GuardedFrom ip t
  | .failRotate _ _ member => ∀ m, GuardedFrom ip (member m)
  | .failBack _ _ member => ∀ m, GuardedFrom ip (member m)
  | .failBackEach _ _ member => ∀ m, GuardedFrom ip (member m)
  | .roundRobin _ member => ∀ m, GuardedFrom ip (member m)
  | .random _ _ member => ∀ m, GuardedFrom ip (member m)
  | .loadBalance _ _ member => ∀ m, GuardedFrom ip (member m)
  | .fastest _ member => ∀ m, GuardedFrom ip (member m)
  | .fastestTcp _ _ t => GuardedFrom ip t
  | .router _ member => ∀ m, GuardedFrom ip (member m)
  | .dedup t => GuardedFrom ip t
  | .cache _ _ _ t => GuardedFrom ip t

end Verif.Spec.Asks
