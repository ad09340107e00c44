import Verif.Model.LimitsConfig
import Verif.Spec.LimitsConfig
import Verif.Props.Limits
import Verif.Props.SplitConfig
/-
C126: rate limits, from the configuration file on.
-/
namespace Verif.Props.LimitsConfig
open Verif Verif.Composition Verif.Shared Verif.Limits Verif.LimitsConfig Verif.Spec.Assemble Verif.Spec.Asks Verif.Spec.Limits Verif.Spec.LimitsConfig
open Verif.Assemble hiding Kind
open Verif.Props.Limits (asked passed within)
open Verif.Props.SplitConfig (Numbered)
variable {H : Type}

private theorem ne_of_some {x : Option (Tree H)} {s : Str} (h : x = none ↔ s = []) {t : Tree H} (ht : x = some t) : s ≠ [] := by
  intro e
  rw [h.2 e] at ht
  cases ht

private def special : List Str := [str "rate-limiter", str "fail-rotate", str "fail-back", str "random", str "load-balance", str "fastest", str "truncate-retry", str "response-blocklist-ip",
  str "response-blocklist-cidr", str "response-blocklist-name", str "dns64", str "prefetch", str "dnssec-validator"]

section
variable {g : Group} {cost : Str → Nat} {n : Nat}

private theorem pays_one (h : Pays g cost n) {s : Str} (hs : g.type = s) (hn : s ∉ special := by decide) : ∀ x, Refers g x → cost x ≤ n := by
  subst hs
  cases h with
  | one _ h => exact h
  | limiter h => rw [h] at hn; exact absurd hn (by decide)
  | fastest h => rw [h] at hn; exact absurd hn (by decide)
  | retry h => rw [h] at hn; exact absurd hn (by decide)
  | dns64 h => rw [h] at hn; exact absurd hn (by decide)
  | group h => exact absurd (by revert h; simp only [special, List.mem_cons, List.not_mem_nil, or_false]; grind) hn
  | response h => exact absurd (by revert h; simp only [special, List.mem_cons, List.not_mem_nil, or_false]; grind) hn
  | itself h => exact absurd (by revert h; simp only [special, List.mem_cons, List.not_mem_nil, or_false]; grind) hn

private theorem pays_limiter (h : Pays g cost n) (hs : g.type = str "rate-limiter") : g.limitResolver ≠ [] → cost g.limitResolver ≤ n := by
  cases h with
  | limiter _ h => exact h
  | group h => rw [hs] at h; exact absurd h (by decide)
  | fastest h => rw [hs] at h; exact absurd h (by decide)
  | retry h => rw [hs] at h; exact absurd h (by decide)
  | response h => rw [hs] at h; exact absurd h (by decide)
  | dns64 h => rw [hs] at h; exact absurd h (by decide)
  | itself h => rw [hs] at h; exact absurd h (by decide)
  | one h => rw [hs] at h; exact absurd h (by decide)

private theorem pays_group (h : Pays g cost n) {s : Str} (hs : g.type = s) (hm : s ∈ [str "fail-rotate", str "fail-back", str "random", str "load-balance"] := by decide) :
    ∀ x ∈ g.resolvers, g.resolvers.length * cost x ≤ n := by
  subst hs
  cases h with
  | group _ h => exact h
  | limiter h => rw [h] at hm; exact absurd hm (by decide)
  | fastest h => rw [h] at hm; exact absurd hm (by decide)
  | retry h => rw [h] at hm; exact absurd hm (by decide)
  | dns64 h => rw [h] at hm; exact absurd hm (by decide)
  | response h =>
    simp only [List.mem_cons, List.not_mem_nil, or_false] at h
    rcases h with h | h | h <;> (rw [h] at hm; exact absurd hm (by decide))
  | itself h =>
    simp only [List.mem_cons, List.not_mem_nil, or_false] at h
    rcases h with h | h <;> (rw [h] at hm; exact absurd hm (by decide))
  | one h => exact absurd (by revert hm; simp only [List.mem_cons, List.not_mem_nil, or_false]; grind) h

private theorem pays_fastest (h : Pays g cost n) (hs : g.type = str "fastest") : (g.resolvers.map cost).sum ≤ n := by
  cases h with
  | fastest _ h => exact h
  | limiter h => rw [hs] at h; exact absurd h (by decide)
  | group h => rw [hs] at h; exact absurd h (by decide)
  | retry h => rw [hs] at h; exact absurd h (by decide)
  | response h => rw [hs] at h; exact absurd h (by decide)
  | dns64 h => rw [hs] at h; exact absurd h (by decide)
  | itself h => rw [hs] at h; exact absurd h (by decide)
  | one h => rw [hs] at h; exact absurd h (by decide)

private theorem pays_retry (h : Pays g cost n) (hs : g.type = str "truncate-retry") : ∀ x ∈ g.resolvers, cost x + cost g.retryResolver ≤ n := by
  cases h with
  | retry _ h => exact h
  | limiter h => rw [hs] at h; exact absurd h (by decide)
  | group h => rw [hs] at h; exact absurd h (by decide)
  | fastest h => rw [hs] at h; exact absurd h (by decide)
  | response h => rw [hs] at h; exact absurd h (by decide)
  | dns64 h => rw [hs] at h; exact absurd h (by decide)
  | itself h => rw [hs] at h; exact absurd h (by decide)
  | one h => rw [hs] at h; exact absurd h (by decide)

private theorem pays_response (h : Pays g cost n) {s : Str} (hs : g.type = s)
    (hm : s ∈ [str "response-blocklist-ip", str "response-blocklist-cidr", str "response-blocklist-name"] := by decide) :
    ∀ x ∈ g.resolvers, cost x + (if g.blockListResolver = [] then 0 else cost g.blockListResolver) ≤ n := by
  subst hs
  cases h with
  | response _ h => exact h
  | limiter h => rw [h] at hm; exact absurd hm (by decide)
  | fastest h => rw [h] at hm; exact absurd hm (by decide)
  | retry h => rw [h] at hm; exact absurd hm (by decide)
  | dns64 h => rw [h] at hm; exact absurd hm (by decide)
  | group h =>
    simp only [List.mem_cons, List.not_mem_nil, or_false] at h
    rcases h with h | h | h | h <;> (rw [h] at hm; exact absurd hm (by decide))
  | itself h =>
    simp only [List.mem_cons, List.not_mem_nil, or_false] at h
    rcases h with h | h <;> (rw [h] at hm; exact absurd hm (by decide))
  | one h => exact absurd (by revert hm; simp only [List.mem_cons, List.not_mem_nil, or_false]; grind) h

private theorem pays_dns64 (h : Pays g cost n) (hs : g.type = str "dns64") : ∀ x ∈ g.resolvers, 2 * cost x ≤ n := by
  cases h with
  | dns64 _ h => exact h
  | limiter h => rw [hs] at h; exact absurd h (by decide)
  | group h => rw [hs] at h; exact absurd h (by decide)
  | fastest h => rw [hs] at h; exact absurd h (by decide)
  | retry h => rw [hs] at h; exact absurd h (by decide)
  | response h => rw [hs] at h; exact absurd h (by decide)
  | itself h => rw [hs] at h; exact absurd h (by decide)
  | one h => rw [hs] at h; exact absurd h (by decide)

private theorem pays_itself (h : Pays g cost n) {s : Str} (hs : g.type = s) (hm : s ∈ [str "prefetch", str "dnssec-validator"] := by decide) : ∀ x ∈ g.resolvers, cost x = 0 := by
  subst hs
  cases h with
  | itself _ h => exact h
  | limiter h => rw [h] at hm; exact absurd hm (by decide)
  | fastest h => rw [h] at hm; exact absurd hm (by decide)
  | retry h => rw [h] at hm; exact absurd hm (by decide)
  | dns64 h => rw [h] at hm; exact absurd hm (by decide)
  | group h =>
    simp only [List.mem_cons, List.not_mem_nil, or_false] at h
    rcases h with h | h | h | h <;> (rw [h] at hm; exact absurd hm (by decide))
  | response h =>
    simp only [List.mem_cons, List.not_mem_nil, or_false] at h
    rcases h with h | h | h <;> (rw [h] at hm; exact absurd hm (by decide))
  | one h => exact absurd (by revert hm; simp only [List.mem_cons, List.not_mem_nil, or_false]; grind) h

end

/-- What is written next to the sections bounds what their elements cause. -/
theorem costs_of_file (w : World H) (c : Cfg) (servers : Str → Prop) (lim : Str) (R : Str → Prop) (cost : Str → Nat) (hB : Budget c servers lim R cost) (L : Tree H)
    (hL : ∀ t, Denotes w c lim t → t = L) (id : Str) (t : Tree H) (h : Denotes w c id t) (hR : R id) : Causes (Numbered c servers) L t (cost id) := by
  have leaf : ∀ id, (servers id → 1 ≤ cost id) → id ∈ names c → Causes (Numbered c servers) L (.client (number c id) : Tree H) (cost id) := by
    intro id h1 h2
    by_cases hs : servers id
    · exact .weaken (.server ⟨id, hs, rfl⟩) (h1 hs)
    · exact .weaken (.other (SplitConfig.not_numbered h2 hs)) (Nat.zero_le _)
  have dropC : ∀ n, Causes (Numbered c servers) L (.drop : Tree H) n := fun n => .weaken .drop (Nat.zero_le _)
  induction h with
  | resolver h1 => exact leaf _ (hB.resolver _ _ hR h1) (SplitConfig.number_resolver h1)
  | bootstrap h1 => exact leaf _ (hB.bootstrap hR (by rw [h1]; exact Option.some_ne_none _)) SplitConfig.number_bootstrap
  | @router id rs gr routes h1 h2 h3 h4 ih =>
    refine .router fun i => ?_
    unfold nth
    cases hi : gr[i]? with
    | none => exact dropC _
    | some t =>
      have hlt := (List.getElem?_eq_some_iff.1 hi).1
      rw [h2] at hlt
      have h5 := hB.router _ _ hR h1 _ (List.getElem_mem hlt)
      exact .weaken (ih i _ t (List.getElem?_eq_getElem hlt) hi h5.1) h5.2
  | @group id g gr o b h1 h2 h3 a1 a2 b1 b2 l1 l2 r1 r2 hb ih ia ib il ir =>
    obtain ⟨hop, href, hsole, hpay⟩ := hB.group _ _ hR h1
    -- a member, with the id it has
    have hm : ∀ (i : Nat) (t : Tree H), gr[i]? = some t → ∃ x ∈ g.resolvers, g.resolvers[i]? = some x ∧ Causes (Numbered c servers) L t (cost x) := by
      intro i t ht
      have hi : i < gr.length := (List.getElem?_eq_some_iff.1 ht).1
      rw [h2] at hi
      exact ⟨_, List.getElem_mem hi, List.getElem?_eq_getElem hi, ih i _ t (List.getElem?_eq_getElem hi) ht (href _ <| .inl <| (List.getElem_mem hi))⟩
    have ho : ∀ {t}, gr = [t] → ∃ x ∈ g.resolvers, Causes (Numbered c servers) L t (cost x) := by
      intro t ht
      obtain ⟨x, h1, _, h2⟩ := hm 0 t (by rw [ht]; rfl)
      exact ⟨x, h1, h2⟩
    have pa : ∀ t, o.allow = some t → Refers g g.allowListResolver ∧ Causes (Numbered c servers) L t (cost g.allowListResolver) := fun t ht =>
      have hr : Refers g g.allowListResolver := .inr ⟨ne_of_some a1 ht, .inl rfl⟩
      ⟨hr, ia t ht (href _ hr)⟩
    have pb : ∀ t, o.block = some t → Refers g g.blockListResolver ∧ Causes (Numbered c servers) L t (cost g.blockListResolver) := fun t ht =>
      have hr : Refers g g.blockListResolver := .inr ⟨ne_of_some b1 ht, .inr (.inl rfl)⟩
      ⟨hr, ib t ht (href _ hr)⟩
    have pl : ∀ t, o.limit = some t → Causes (Numbered c servers) L t (cost g.limitResolver) := fun t ht =>
      il t ht (href _ (.inr ⟨ne_of_some l1 ht, .inr (.inr (.inl rfl))⟩))
    have pr : ∀ t, o.retry = some t → Causes (Numbered c servers) L t (cost g.retryResolver) := fun t ht =>
      ir t ht (href _ (.inr ⟨ne_of_some r1 ht, .inr (.inr (.inr rfl))⟩))
    -- one member, in a group of those that send a query to one place
    have po : ∀ {t}, gr = [t] → (∀ x, Refers g x → cost x ≤ cost id) → Causes (Numbered c servers) L t (cost id) := by
      intro t ht hp
      obtain ⟨x, hx, hc⟩ := ho ht
      exact .weaken hc (hp x (.inl hx))
    have pob : (∀ x, Refers g x → cost x ≤ cost id) → Causes (Numbered c servers) L (o.block.getD .drop) (cost id) := by
      intro hp
      cases hx : o.block with
      | none => exact dropC _
      | some t => exact .weaken (pb t hx).2 (hp _ (pb t hx).1)
    have pbn : ∀ {n}, n = (if g.blockListResolver = [] then 0 else cost g.blockListResolver) → Causes (Numbered c servers) L (o.block.getD .drop) n := by
      intro n hn
      cases hx : o.block with
      | none => exact dropC _
      | some t => rw [hn, if_neg (ne_of_some b1 hx)]; exact (pb t hx).2
    -- groups that try one after the other
    have many : (∀ x ∈ g.resolvers, g.resolvers.length * cost x ≤ cost id) → ∃ k, gr.length * k ≤ cost id ∧ ∀ i, Causes (Numbered c servers) L (nth gr i) k := by
      intro hp
      refine ⟨cost id / gr.length, Nat.mul_div_le _ _, fun i => ?_⟩
      unfold nth
      cases hi : gr[i]? with
      | none => exact dropC _
      | some t =>
        obtain ⟨x, h3, _, h4⟩ := hm i t hi
        have h5 := (List.getElem?_eq_some_iff.1 hi).1
        have h6 := hp x h3
        rw [← h2] at h6
        exact .weaken h4 ((Nat.le_div_iff_mul_le (by omega)).2 (by rw [Nat.mul_comm]; exact h6))
    have hden : Denotes w c id b.tree := .group h1 h2 h3 a1 a2 b1 b2 l1 l2 r1 r2 hb
    cases hb with
    | roundRobin h =>
      refine .roundRobin fun i => ?_
      unfold nth
      cases hi : gr[i]? with
      | none => exact dropC _
      | some t =>
        obtain ⟨x, h3, _, h4⟩ := hm i t hi
        exact .weaken h4 ((pays_one hpay h) _ (.inl h3))
    | failRotate h => obtain ⟨k, hk, hm⟩ := many (pays_group hpay h); exact .weaken (.failRotate hm) hk
    | failBackEach h => obtain ⟨k, hk, hm⟩ := many (pays_group hpay h); exact .weaken (.failBackEach hm) hk
    | failBack h => obtain ⟨k, hk, hm⟩ := many (pays_group hpay h); exact .weaken (.failBack hm) hk
    | loadBalance h => obtain ⟨k, hk, hm⟩ := many (pays_group hpay h); exact .weaken (.loadBalance hm) hk
    | random h => obtain ⟨k, hk, hm⟩ := many (pays_group hpay h); exact .weaken (.random hm) hk
    | fastest h =>
      refine .weaken (.fastest (c := fun i => (g.resolvers[i]?.map cost).getD 0) fun i => ?_) (Nat.le_trans (Nat.le_of_eq ?_) (pays_fastest hpay h))
      · unfold nth
        cases hi : gr[i]? with
        | none => exact dropC _
        | some t =>
          obtain ⟨x, _, h3, h4⟩ := hm i t hi
          rw [h3]
          exact h4
      · congr 1
        rw [h2]
        apply List.ext_getElem?
        intro i
        by_cases hi : i < g.resolvers.length
        · simp [hi]
        · simp [hi]
    | ttlModifier h ht => exact .ttl (po ht (pays_one hpay h))
    | requestDedup h ht => exact .dedup (po ht (pays_one hpay h))
    | fastestTcp h ht => exact .fastestTcp (po ht (pays_one hpay h))
    | ecsModifier h ht => exact .modify (po ht (pays_one hpay h))
    | edns0Modifier h ht => exact .modify (po ht (pays_one hpay h))
    | syslog h ht => exact .syslog (po ht (pays_one hpay h))
    | cache h ht => exact .cache (po ht (pays_one hpay h))
    | minimize h ht => exact .minimize (po ht (pays_one hpay h))
    | collapse h ht => exact .collapse (po ht (pays_one hpay h))
    | queryLog h ht => exact .queryLog (po ht (pays_one hpay h))
    | replace h ht => exact .replace (po ht (pays_one hpay h))
    | dns64 h ht =>
      obtain ⟨x, hx, hc⟩ := ho ht
      exact .weaken (.dns64 hc) (pays_dns64 hpay h x hx)
    | blocklist h ht => exact .weaken (.blocklist (po ht (pays_one hpay h)) (po ht (pays_one hpay h)) (dropC (cost id))) (by simp)
    | blocklistV2 h ht =>
      have hp := pays_one hpay h
      refine .weaken (.blocklist (po ht hp) (d := cost id) ?_ (pob hp)) (by simp)
      cases hx : o.allow with
      | none => exact po ht hp
      | some t => exact .weaken (pa t hx).2 (hp _ (pa t hx).1)
    | truncateRetry h ht hr =>
      obtain ⟨x, hx, hc⟩ := ho ht
      exact .weaken (.truncateRetry hc (pr _ hr)) (pays_retry hpay h x hx)
    | responseIp h ht =>
      obtain ⟨x, hx, hc⟩ := ho ht
      rcases h with h | h
      · exact .weaken (.responseIp hc (pbn rfl)) ((pays_response hpay h) x hx)
      · exact .weaken (.responseIp hc (pbn rfl)) ((pays_response hpay h) x hx)
    | responseName h ht =>
      obtain ⟨x, hx, hc⟩ := ho ht
      exact .weaken (.responseName hc (pbn rfl)) ((pays_response hpay h) x hx)
    | clientBlocklist h ht => exact .weaken (.clientBlocklist (po ht (pays_one hpay h)) (pob (pays_one hpay h))) (by simp)
    | rateLimiter h ht hl' =>
      have he := hsole h
      subst he
      have hE := hL _ hden
      rw [hE]
      exact .limiter hE.symm (.weaken (pl _ hl') (pays_limiter hpay h (ne_of_some l1 hl')))
    | rateLimiterDrop h ht =>
      have he := hsole h
      subst he
      have hE := hL _ hden
      rw [hE]
      exact .limiter hE.symm (dropC _)
    | prefetch h ht =>
      obtain ⟨x, hx, hc⟩ := ho ht
      rw [(pays_itself hpay h) x hx] at hc
      exact .weaken (.prefetch hc) (Nat.zero_le _)
    | dnssec h ht =>
      obtain ⟨x, hx, hc⟩ := ho ht
      rw [(pays_itself hpay h) x hx] at hc
      exact .weaken (.dnssec hc) (Nat.zero_le _)
    | redis h ht _ _ hbk hbt => exact absurd (.inr ⟨h, _, hbk, hbt⟩) hop
    | lua h => exact absurd (.inl h) hop
    | staticResponder => exact .weaken .static (Nat.zero_le _)
    | staticTemplate => exact .weaken .template (Nat.zero_le _)
    | drop => exact dropC _

/-! ### The program -/

private theorem one_element (w : World H) (o : Config.Orders) (ho : Spec.Config.AnyOrder o) (c : Cfg) (ts : List (Option (Tree H))) (hs : start w o c = some ts) (id : Str) (t u : Tree H)
    (ht : Denotes w c id t) (hu : Denotes w c id u) : t = u :=
  Assemble.denotes_unique w o ho c ((Assemble.program_accepts w o ho c).1 ⟨ts, hs⟩).2.1 id t u ht hu

/-- A query that came in at a listener for the section `x` -/
def CameIn (c : Cfg) (ts : List (Option (Tree H))) (r : Root H) (x : Str) : Prop := ∃ (i : Nat) (id : Str) (l : Listener), c.listeners[i]? = some (id, l) ∧ ts[i]? = some (some r.tree) ∧ l.resolver = x

section
variable (w : World H) (o : Config.Orders) (ho : Spec.Config.AnyOrder o) (c : Cfg) (ts : List (Option (Tree H))) (hs : start w o c = some ts)
variable (servers : Str → Prop) [DecidablePred (Numbered c servers)] (lim : Str) (R : Str → Prop) (cost : Str → Nat) (hB : Budget c servers lim R cost)
variable (hlim : R lim) (d : Nat) (hd : ∀ g, (lim, g) ∈ c.groups → ∀ x ∈ g.resolvers, cost x ≤ d)
variable (hl : Bool) (t0 l0 : Tree H) (hL : Denotes w c lim (.rateLimit hl t0 l0))
include ho hs hB hlim hd hL

private theorem behind : Causes (Numbered c servers) (.rateLimit hl t0 l0) t0 d := by
  have hone : ∀ t, Denotes w c lim t → t = .rateLimit hl t0 l0 := fun t ht => one_element w o ho c ts hs lim t _ ht hL
  have hall := costs_of_file w c servers lim R cost hB _ hone
  have h := hL
  generalize hT : Tree.rateLimit hl t0 l0 = T at h
  cases h with
  | resolver => cases hT
  | bootstrap => cases hT
  | router => cases hT
  | @group id g gr op b h1 h2 h3 a1 a2 b1 b2 l1 l2 r1 r2 hb =>
    have one : gr = [t0] → Causes (Numbered c servers) (.rateLimit hl t0 l0) t0 d := by
      intro ht
      have hi : 0 < g.resolvers.length := by rw [← h2, ht]; exact Nat.one_pos
      have hx := h3 0 _ t0 (List.getElem?_eq_getElem hi) (by rw [ht]; rfl)
      have hm := List.getElem_mem hi
      exact .weaken (hall _ _ hx ((hB.group _ _ hlim h1).2.1 _ (.inl hm))) (hd g h1 _ hm)
    cases hb with
    | rateLimiter _ ht => cases hT; exact one ht
    | rateLimiterDrop _ ht => cases hT; exact one ht
    | _ => cases hT

/-- C126: the clients in `K` have caused no more queries to the servers than what is written next to the sections their queries came in at, and what is written behind the limiter for each query of theirs it let through. -/
theorem program_asked (K : ClientInfo → Bool) (roots : List (Root H)) (sec : Root H → Str) (hr : ∀ r ∈ roots, CameIn c ts r (sec r) ∧ R (sec r)) (log : List Verdict) (s : St H)
    (h : Logged hl t0 l0 (init roots) log s) : asked (Numbered c servers) K s ≤ ((roots.filter fun r => K r.ci).map fun r => cost (sec r)).sum + d * passed K log := by
  refine Limits.asked_passed roots (fun r => cost (sec r)) d (fun r hm => ?_) (behind w o ho c ts hs servers lim R cost hB hlim d hd hl t0 l0 hL) log s h
  obtain ⟨⟨i, id, l, h1, h2, h3⟩, h4⟩ := hr r hm
  rw [← h3] at h4 ⊢
  exact costs_of_file w c servers lim R cost hB _ (fun t ht => one_element w o ho c ts hs lim t _ ht hL) _ _ ((((Assemble.program_start w o ho c ts hs).2 i id l _ h1 h2).2.1 _).1 rfl) h4

variable (g : Group) (hg : (lim, g) ∈ c.groups) (h4 : g.prefix4 ≤ 32) (h6 : g.prefix6 ≤ 128)
include hg h4 h6

private theorem prefixes : (options g).prefix4 ≤ 32 ∧ (options g).prefix6 ≤ 128 := by
  constructor
  · simp only [options, Settings.rateLimiter, Rate.Options.withDefaults]; split <;> omega
  · simp only [options, Settings.rateLimiter, Rate.Options.withDefaults]; split <;> omega

/-- C126: if nothing is written next to the sections listeners lead to, then all clients of one network together have caused at most so many queries to the servers: what is written behind the limiter, times the limit
in the file, for each stretch of time the limiter has been in one window. -/
theorem program_limit (roots : List (Root H)) (hr : ∀ r ∈ roots, ∃ x, CameIn c ts r x ∧ R x ∧ cost x = 0) (log : List Verdict) (s : St H)
    (h : Logged hl t0 l0 (init roots) log s) (hdec : Decided (options g) log) (h0 : ∀ v ∈ log, 0 ≤ v.now) (net : Option (Bool × List Bool)) :
    asked (Numbered c servers) (within (options g) net) s ≤ d * (g.requests * stretches (if g.window = 0 then 60 else g.window) (log.map (·.now))) := by
  have hp := prefixes w o ho c ts hs servers lim R cost hB hlim d hd hl t0 l0 hL g hg h4 h6
  refine Limits.limit_holds (options g) hp.1 hp.2 roots d (fun r hm => ?_) (behind w o ho c ts hs servers lim R cost hB hlim d hd hl t0 l0 hL) log s h hdec h0 net
  obtain ⟨x, ⟨i, id, l, h1, h2, rfl⟩, hx, hz⟩ := hr r hm
  rw [← hz]
  exact costs_of_file w c servers lim R cost hB _ (fun t ht => one_element w o ho c ts hs lim t _ ht hL) _ _ ((((Assemble.program_start w o ho c ts hs).2 i id l _ h1 h2).2.1 _).1 rfl) hx

/-- C126: and as long as queries get to the lock in the order in which they read the clock, that is so many in each window. -/
theorem program_limit_per_window (roots : List (Root H)) (hr : ∀ r ∈ roots, ∃ x, CameIn c ts r x ∧ R x ∧ cost x = 0) (log : List Verdict) (s : St H)
    (h : Logged hl t0 l0 (init roots) log s) (hdec : Decided (options g) log) (h0 : ∀ v ∈ log, 0 ≤ v.now) (net : Option (Bool × List Bool)) (hp : (log.map (·.now)).Pairwise (· ≤ ·))
    (a : Int) (n : Nat) (hab : ∀ v ∈ log, a ≤ v.now / (if g.window = 0 then 60 else g.window : Nat) ∧ v.now / (if g.window = 0 then 60 else g.window : Nat) < a + n) :
    asked (Numbered c servers) (within (options g) net) s ≤ d * (g.requests * n) := by
  have hpre := prefixes w o ho c ts hs servers lim R cost hB hlim d hd hl t0 l0 hL g hg h4 h6
  refine Limits.limit_per_window (options g) hpre.1 hpre.2 roots d (fun r hm => ?_) (behind w o ho c ts hs servers lim R cost hB hlim d hd hl t0 l0 hL) log s h hdec h0 net hp a n hab
  obtain ⟨x, ⟨i, id, l, h1, h2, rfl⟩, hx, hz⟩ := hr r hm
  rw [← hz]
  exact costs_of_file w c servers lim R cost hB _ (fun t ht => one_element w o ho c ts hs lim t _ ht hL) _ _ ((((Assemble.program_start w o ho c ts hs).2 i id l _ h1 h2).2.1 _).1 rfl) hx

end

/-! ### A configuration: a log, then the limiter, then a server, with another one for replies that are truncated; queries over the limit go elsewhere -/

open _root_.Verif.Props.Assemble (toy someOrder)

private def office : Cfg :=
  { resolvers := [(str "a", { protocol := str "udp" }), (str "b", { protocol := str "tcp" }), (str "slow", { protocol := str "udp" })]
    groups := [(str "log", { type := str "query-log", resolvers := [str "limit"] }),
               (str "limit", { type := str "rate-limiter", resolvers := [str "pair"], requests := 100, limitResolver := str "slow" }),
               (str "pair", { type := str "truncate-retry", resolvers := [str "a"], retryResolver := str "b" })]
    listeners := [(str "l", { protocol := str "udp", resolver := str "log" })] }

example : (start toy someOrder office).map (·.map (·.isSome)) = some [true] := by decide +kernel

private def price (s : Str) : Nat := if s = str "a" ∨ s = str "b" then 1 else if s = str "pair" then 2 else 0

private theorem office_budget : Budget office (fun s => s = str "a" ∨ s = str "b") (str "limit") (fun _ => True) price where
  resolver := by
    intro id r _ _ hx
    rcases hx with rfl | rfl <;> decide
  bootstrap := by intro _ h; exact absurd rfl h
  group := by
    intro id g _ hg
    simp only [office, List.mem_cons, List.not_mem_nil, or_false, Prod.mk.injEq] at hg
    rcases hg with ⟨rfl, rfl⟩ | ⟨rfl, rfl⟩ | ⟨rfl, rfl⟩
    · refine ⟨?_, fun _ _ => trivial, fun h => absurd h (by decide), .one (by decide) ?_⟩
      · rintro (h | ⟨h, b, h', _⟩)
        · exact absurd h (by decide)
        · cases h'
      · rintro x (hx | ⟨h1, rfl | rfl | rfl | rfl⟩)
        · cases List.mem_singleton.1 hx
          decide
        all_goals exact absurd rfl h1
    · refine ⟨?_, fun _ _ => trivial, fun _ => rfl, .limiter rfl fun _ => by decide⟩
      rintro (h | ⟨h, b, h', _⟩)
      · exact absurd h (by decide)
      · cases h'
    · refine ⟨?_, fun _ _ => trivial, fun h => absurd h (by decide), .retry rfl ?_⟩
      · rintro (h | ⟨h, b, h', _⟩)
        · exact absurd h (by decide)
        · cases h'
      · intro x hx
        cases List.mem_singleton.1 hx
        decide
  router := by intro id rs _ h; cases h

/-- All clients of one /24 network together: 200 queries in a minute at most. -/
example (ts : List (Option (Tree Nat))) (hs : start toy someOrder office = some ts) [DecidablePred (Numbered office fun s => s = str "a" ∨ s = str "b")] (ho : Spec.Config.AnyOrder someOrder)
    (hl : Bool) (t0 l0 : Tree Nat) (hL : Denotes toy office (str "limit") (.rateLimit hl t0 l0)) (roots : List (Root Nat)) (hr : ∀ r ∈ roots, CameIn office ts r (str "log")) (log : List Verdict) (s : St Nat)
    (h : Logged hl t0 l0 (init roots) log s) (hdec : Decided ⟨100, 60, 24, 56⟩ log) (a : ClientInfo) (hp : (log.map (·.now)).Pairwise (· ≤ ·)) (hab : ∀ v ∈ log, 600 ≤ v.now ∧ v.now < 660) :
    asked (Numbered office fun s => s = str "a" ∨ s = str "b") (within ⟨100, 60, 24, 56⟩ (Spec.Rate.network 24 56 a.sourceIP)) s ≤ 200 :=
  program_limit_per_window toy someOrder ho office ts hs _ _ _ _ office_budget trivial 2
    (by
      intro g hg x hx
      simp only [office, List.mem_cons, List.not_mem_nil, or_false, Prod.mk.injEq] at hg
      rcases hg with ⟨h, rfl⟩ | ⟨-, rfl⟩ | ⟨h, rfl⟩
      · exact absurd h (by decide)
      · cases List.mem_singleton.1 hx
        decide
      · exact absurd h (by decide))
    hl t0 l0 hL _ (.tail _ (.head _)) (by decide) (by decide) roots (fun r h => ⟨_, hr r h, trivial, by decide⟩) log s h hdec (fun v hv => by have := hab v hv; omega) _ hp 10 1
    (fun v hv => by have := hab v hv; simp only [if_true]; omega)

end Verif.Props.LimitsConfig
