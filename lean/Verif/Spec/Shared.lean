import Verif.Model.Composition
/-
C93, C94: configurations in which what servers are asked does not depend on who is faster, and in which each query ends.
-/
namespace Verif.Spec.Shared
open Verif Verif.Composition

/-- `u` is one of the elements that `t` has in its configuration. -/
def Child {H : Type} : Tree H → Tree H → Prop
  | .ttl _ t, u | .collapse _ t, u | .minimize t, u | .modify _ t, u | .replace _ t, u | .syslog _ t, u | .queryLog t, u | .dns64 _ t, u | .fastestTcp _ _ t, u
  | .dedup t, u | .cache _ _ _ t, u | .prefetch t, u | .dnssec _ t, u => u = t
  | .truncateRetry t r, u => u = t ∨ u = r
  | .blocklist _ t a b, u => u = t ∨ u = a ∨ u = b
  | .clientBlocklist _ t b, u | .responseIp _ t b, u | .responseName _ t b, u | .rateLimit _ t b, u => u = t ∨ u = b
  | .failRotate _ _ member, u | .failBack _ _ member, u | .failBackEach _ _ member, u | .roundRobin _ member, u | .random _ _ member, u
  | .loadBalance _ _ member, u | .fastest _ member, u | .router _ member, u => ∃ i, u = member i
  | .client _, _ | .drop, _ | .static _, _ | .template _ _, _ => False

/-- `u` is `t` or anywhere below it. -/
inductive Within {H : Type} : Tree H → Tree H → Prop
  | self {t} : Within t t
  | deeper {t c u} : Child t c → Within c u → Within t u

def isFastest {H : Type} : Tree H → Bool
  | .fastest _ _ => true
  | _ => false

/-- De-duplication and caches: elements whose replies have the question section of the query, the same memory. -/
def isKeeper {H : Type} : Tree H → Bool
  | .dedup _ | .cache _ _ _ _ => true
  | _ => false

/-- Below any replace element there is either no `fastest` group, or neither de-duplication nor cache. -/
def Apart {H : Type} (t : Tree H) : Prop :=
  ∀ exps c, Within t (.replace exps c) → (∀ u, Within c u → isFastest u = false) ∨ (∀ u, Within c u → isKeeper u = false)

/-- A `fastest` group has a member, and what a list says of a query is one thing or another. -/
def Sound {H : Type} : Tree H → Prop
  | .fastest n _ => 0 < n
  | .blocklist L _ _ _ => ∃ o, L o
  | .clientBlocklist L _ _ => ∃ a b c, L a b c
  | .responseIp L _ _ => ∃ o, L o
  | .responseName L _ _ => ∃ o, L o
  | _ => True

/-- All elements are sound. -/
def Tended {H : Type} (t : Tree H) : Prop := ∀ u, Within t u → Sound u

end Verif.Spec.Shared
