import Verif.Spec.TimedConfig
import Verif.Props.Timed
import Verif.Props.Effort
import Verif.Props.Exist
import Verif.Props.SharedEnds
import Verif.Props.LimitsConfig
/-
C127: times and numbers of queries, from the configuration file on.
-/
namespace Verif.Props.TimedConfig
open Verif Verif.Composition Verif.Shared Verif.Timed Verif.Spec.Assemble Verif.Spec.Asks Verif.Spec.Shared Verif.Spec.Timed Verif.Spec.Effort Verif.Spec.TimedConfig
open Verif.Assemble hiding Kind
open Verif.Exist (Ready Loads Whole)
open Verif.Props.LimitsConfig (CameIn)
variable {H : Type}

private theorem ne_of_some {x : Option (Tree H)} {s : Str} (h : x = none ↔ s = []) {t : Tree H} (ht : x = some t) : s ≠ [] := by
  intro e
  rw [h.2 e] at ht
  cases ht

/-- the one constructor that has to do with this type -/
local macro "by_type" hp:ident h:ident : tactic => `(tactic| (cases $hp:ident <;> first | assumption | (rename_i h' _; rw [$h:ident] at h'; exact absurd h' (by decide))))

/-! ### Elements that are ready are sound -/

private theorem ready_child {t u : Tree H} (h : Ready t) (hc : Child t u) : Ready u := by
  cases t <;> simp only [Child] at hc <;> simp only [Ready] at h <;> first
    | (subst hc; exact h)
    | (subst hc; exact h.2)
    | (rcases hc with rfl | rfl <;> first | exact h.1 | exact h.2 | exact h.2.1 | exact h.2.2)
    | (rcases hc with rfl | rfl | rfl <;> first | exact h.2.1 | exact h.2.2.1 | exact h.2.2.2)
    | (obtain ⟨i, rfl⟩ := hc; first | exact h i | exact h.2 i)
    | exact hc.elim

private theorem ready_tended {t : Tree H} (h : Ready t) : Tended t := by
  intro u hu
  induction hu with
  | @self t =>
    cases t <;> simp only [Ready] at h <;> simp only [Sound] <;> exact h.1
  | deeper hc _ ih => exact ih (ready_child h hc)

/-! ### Times -/

private def In (lim : Nat → Nat) (t : Tree H) (n : Nat) : Prop := ∃ k, k ≤ n ∧ Takes lim t k

private theorem in_drop {lim : Nat → Nat} {n : Nat} : In lim (.drop : Tree H) n := ⟨0, Nat.zero_le _, .drop⟩

private theorem in_le {lim : Nat → Nat} {t : Tree H} {a b : Nat} (h : In lim t a) (hab : a ≤ b) : In lim t b := h.imp fun _ h => ⟨Nat.le_trans h.1 hab, h.2⟩

/-- What is written next to the sections is enough for their elements. -/
theorem times_of_file (w : World H) (c : Cfg) (limit : Str → Nat) (R : Str → Prop) (time : Str → Nat) (hS : Schedule c limit R time) (lim : Nat → Nat) (hlim : ∀ id, lim (number c id) ≤ limit id)
    (id : Str) (t : Tree H) (h : Denotes w c id t) (hR : R id) : ∃ n, n ≤ time id ∧ Takes lim t n := by
  change In lim t (time id)
  induction h with
  | resolver h1 => exact ⟨_, Nat.le_trans (hlim _) (hS.resolver _ _ hR h1), .client⟩
  | bootstrap h1 => exact ⟨_, Nat.le_trans (hlim _) (hS.bootstrap hR (by rw [h1]; exact Option.some_ne_none _)), .client⟩
  | @router id rs gr routes h1 h2 h3 h4 ih =>
    have hm : ∀ i, In lim (nth gr i) (time id) := by
      intro i
      unfold nth
      cases hi : gr[i]? with
      | none => exact in_drop
      | some t =>
        have hlt := (List.getElem?_eq_some_iff.1 hi).1
        rw [h2] at hlt
        have h5 := hS.router _ _ hR h1 _ (List.getElem_mem hlt)
        exact in_le (ih i _ t (List.getElem?_eq_getElem hlt) hi h5.1) h5.2
    exact ⟨_, Nat.le_refl _, .router (c := fun i => (hm i).choose) (fun i => (hm i).choose_spec.2) fun i => (hm i).choose_spec.1⟩
  | @group id g gr o b h1 h2 h3 a1 a2 b1 b2 l1 l2 r1 r2 hb ih ia ib il ir =>
    rcases hS.group _ _ hR h1 with ⟨hop, hle⟩ | ⟨hop, href, hpay⟩
    · rcases hop with hop | ⟨hop, bk, hbk, hbt⟩
      · cases hb with
        | lua => exact ⟨_, Nat.le_trans (hlim _) hle, .client⟩
        | responseIp h => rcases h with h | h <;> (rw [hop] at h; exact absurd h (by decide))
        | roundRobin h | failRotate h | failBackEach h | failBack h | fastest h | loadBalance h | random h | ttlModifier h | requestDedup h | fastestTcp h | ecsModifier h | edns0Modifier h | syslog h | cache h
        | minimize h | collapse h | queryLog h | dns64 h | blocklist h | blocklistV2 h | truncateRetry h | responseName h | clientBlocklist h | rateLimiter h | rateLimiterDrop h | replace h | prefetch h | dnssec h
        | redis h | staticResponder h | staticTemplate h | drop h => rw [hop] at h; exact absurd h (by decide)
      · cases hb with
        | redis => exact ⟨_, Nat.le_trans (hlim _) hle, .client⟩
        | cache _ _ _ _ _ h =>
          rcases h with ⟨h, _⟩ | ⟨b, h, h', _⟩
          · rw [hbk] at h; cases h
          · rw [hbk] at h; cases h; rw [hbt] at h'; exact absurd h' (by decide)
        | responseIp h => rcases h with h | h <;> (rw [hop] at h; exact absurd h (by decide))
        | roundRobin h | failRotate h | failBackEach h | failBack h | fastest h | loadBalance h | random h | ttlModifier h | requestDedup h | fastestTcp h | ecsModifier h | edns0Modifier h | syslog h
        | minimize h | collapse h | queryLog h | dns64 h | blocklist h | blocklistV2 h | truncateRetry h | responseName h | clientBlocklist h | rateLimiter h | rateLimiterDrop h | replace h | prefetch h | dnssec h
        | lua h | staticResponder h | staticTemplate h | drop h => rw [hop] at h; exact absurd h (by decide)
    have hm : ∀ (i : Nat) (t : Tree H), gr[i]? = some t → ∃ x ∈ g.resolvers, In lim t (time x) := by
      intro i t ht
      have hi : i < gr.length := (List.getElem?_eq_some_iff.1 ht).1
      rw [h2] at hi
      exact ⟨_, List.getElem_mem hi, ih i _ t (List.getElem?_eq_getElem hi) ht (href _ <| .inl <| (List.getElem_mem hi))⟩
    have ho : ∀ {t}, gr = [t] → ∃ x ∈ g.resolvers, In lim t (time x) := fun {t} ht => hm 0 t (by rw [ht]; rfl)
    have pa : ∀ t, o.allow = some t → Refers g g.allowListResolver ∧ In lim t (time g.allowListResolver) := fun t ht =>
      have hr : Refers g g.allowListResolver := .inr ⟨ne_of_some a1 ht, .inl rfl⟩
      ⟨hr, ia t ht (href _ hr)⟩
    have pb : ∀ t, o.block = some t → Refers g g.blockListResolver ∧ In lim t (time g.blockListResolver) := fun t ht =>
      have hr : Refers g g.blockListResolver := .inr ⟨ne_of_some b1 ht, .inr (.inl rfl)⟩
      ⟨hr, ib t ht (href _ hr)⟩
    have pl : ∀ t, o.limit = some t → Refers g g.limitResolver ∧ In lim t (time g.limitResolver) := fun t ht =>
      have hr : Refers g g.limitResolver := .inr ⟨ne_of_some l1 ht, .inr (.inr (.inl rfl))⟩
      ⟨hr, il t ht (href _ hr)⟩
    have pr : ∀ t, o.retry = some t → In lim t (time g.retryResolver) := fun t ht =>
      ir t ht (href _ (.inr ⟨ne_of_some r1 ht, .inr (.inr (.inr rfl))⟩))
    have po : ∀ {t}, gr = [t] → (∀ x, Refers g x → time x ≤ time id) → In lim t (time id) := by
      intro t ht hp
      obtain ⟨x, hx, hc⟩ := ho ht
      exact in_le hc (hp x (.inl hx))
    have pob : (∀ x, Refers g x → time x ≤ time id) → In lim (o.block.getD .drop) (time id) := by
      intro hp
      cases hx : o.block with
      | none => exact in_drop
      | some t => exact in_le (pb t hx).2 (hp _ (pb t hx).1)
    have poa : (∀ x, Refers g x → time x ≤ time id) → ∀ {t}, In lim t (time id) → In lim (o.allow.getD t) (time id) := by
      intro hp t ht
      cases hx : o.allow with
      | none => exact ht
      | some t => exact in_le (pa t hx).2 (hp _ (pa t hx).1)
    have pbn : In lim (o.block.getD .drop) (if g.blockListResolver = [] then 0 else time g.blockListResolver) := by
      cases hx : o.block with
      | none => exact in_drop
      | some t => rw [if_neg (ne_of_some b1 hx)]; exact (pb t hx).2
    have many : (∀ x ∈ g.resolvers, g.resolvers.length * time x ≤ time id) →
        ∃ k, gr.length * k ≤ time id ∧ ∃ f : Nat → Nat, (∀ i, Takes lim (nth gr i) (f i)) ∧ ∀ i, f i ≤ k := by
      intro hp
      have hm' : ∀ i, In lim (nth gr i) (time id / gr.length) := by
        intro i
        unfold nth
        cases hi : gr[i]? with
        | none => exact in_drop
        | some t =>
          obtain ⟨x, h3, h4⟩ := hm i t hi
          have h5 := (List.getElem?_eq_some_iff.1 hi).1
          have h6 := hp x h3
          rw [← h2] at h6
          exact in_le h4 ((Nat.le_div_iff_mul_le (by omega)).2 (by rw [Nat.mul_comm]; exact h6))
      exact ⟨time id / gr.length, Nat.mul_div_le _ _, fun i => (hm' i).choose, fun i => (hm' i).choose_spec.2, fun i => (hm' i).choose_spec.1⟩
    have each : (∀ x, Refers g x → time x ≤ time id) → ∃ f : Nat → Nat, (∀ i, Takes lim (nth gr i) (f i)) ∧ ∀ i, f i ≤ time id := by
      intro hp
      have hm' : ∀ i, In lim (nth gr i) (time id) := by
        intro i
        unfold nth
        cases hi : gr[i]? with
        | none => exact in_drop
        | some t =>
          obtain ⟨x, h3, h4⟩ := hm i t hi
          exact in_le h4 (hp _ (.inl h3))
      exact ⟨fun i => (hm' i).choose, fun i => (hm' i).choose_spec.2, fun i => (hm' i).choose_spec.1⟩
    cases hb with
    | roundRobin h =>
      have hp : ∀ x, Refers g x → time x ≤ time id := by by_type hpay h
      obtain ⟨f, h3, h4⟩ := each hp
      exact ⟨_, Nat.le_refl _, .roundRobin h3 h4⟩
    | fastest h =>
      have hp : ∀ x, Refers g x → time x ≤ time id := by by_type hpay h
      obtain ⟨f, h3, h4⟩ := each hp
      exact ⟨_, Nat.le_refl _, .fastest (fun i _ => h3 i) fun i _ => h4 i⟩
    | failRotate h =>
      have hp : ∀ x ∈ g.resolvers, g.resolvers.length * time x ≤ time id := by by_type hpay h
      obtain ⟨k, hk, f, h3, h4⟩ := many hp
      exact ⟨_, hk, .failRotate h3 h4⟩
    | failBackEach h =>
      have hp : ∀ x ∈ g.resolvers, g.resolvers.length * time x ≤ time id := by by_type hpay h
      obtain ⟨k, hk, f, h3, h4⟩ := many hp
      exact ⟨_, hk, .failBackEach h3 h4⟩
    | failBack h =>
      have hp : ∀ x ∈ g.resolvers, g.resolvers.length * time x ≤ time id := by by_type hpay h
      obtain ⟨k, hk, f, h3, h4⟩ := many hp
      exact ⟨_, hk, .failBack h3 h4⟩
    | loadBalance h =>
      have hp : ∀ x ∈ g.resolvers, g.resolvers.length * time x ≤ time id := by by_type hpay h
      obtain ⟨k, hk, f, h3, h4⟩ := many hp
      exact ⟨_, hk, .loadBalance h3 h4⟩
    | random h =>
      have hp : ∀ x ∈ g.resolvers, g.resolvers.length * time x ≤ time id := by by_type hpay h
      obtain ⟨k, hk, f, h3, h4⟩ := many hp
      exact ⟨_, hk, .random h3 h4⟩
    | ttlModifier h ht => exact (po ht (by by_type hpay h)).imp fun _ h => ⟨h.1, .ttl h.2⟩
    | requestDedup h ht => exact (po ht (by by_type hpay h)).imp fun _ h => ⟨h.1, .dedup h.2⟩
    | ecsModifier h ht => exact (po ht (by by_type hpay h)).imp fun _ h => ⟨h.1, .modify h.2⟩
    | edns0Modifier h ht => exact (po ht (by by_type hpay h)).imp fun _ h => ⟨h.1, .modify h.2⟩
    | syslog h ht => exact (po ht (by by_type hpay h)).imp fun _ h => ⟨h.1, .syslog h.2⟩
    | cache h ht => exact (po ht (by by_type hpay h)).imp fun _ h => ⟨h.1, .cache h.2⟩
    | minimize h ht => exact (po ht (by by_type hpay h)).imp fun _ h => ⟨h.1, .minimize h.2⟩
    | collapse h ht => exact (po ht (by by_type hpay h)).imp fun _ h => ⟨h.1, .collapse h.2⟩
    | queryLog h ht => exact (po ht (by by_type hpay h)).imp fun _ h => ⟨h.1, .queryLog h.2⟩
    | replace h ht => exact (po ht (by by_type hpay h)).imp fun _ h => ⟨h.1, .replace h.2⟩
    | prefetch h ht => exact (po ht (by by_type hpay h)).imp fun _ h => ⟨h.1, .prefetch h.2⟩
    | dns64 h ht =>
      obtain ⟨x, hx, k, hk, hc⟩ := ho ht
      have hp : ∀ x ∈ g.resolvers, 2 * time x ≤ time id := by by_type hpay h
      exact ⟨_, Nat.le_trans (Nat.mul_le_mul_left 2 hk) (hp x hx), .dns64 hc⟩
    | blocklist h ht =>
      obtain ⟨k, hk, hc⟩ := po ht (by by_type hpay h)
      exact ⟨_, by simp only [Nat.max_le]; exact ⟨hk, hk, Nat.zero_le _⟩, .blocklist hc hc .drop⟩
    | blocklistV2 h ht =>
      have hp : ∀ x, Refers g x → time x ≤ time id := by by_type hpay h
      obtain ⟨k, hk, hc⟩ := po ht hp
      obtain ⟨kb, hkb, hcb⟩ := pob hp
      obtain ⟨ka, hka, hca⟩ := poa hp ⟨k, hk, hc⟩
      exact ⟨_, by simp only [Nat.max_le]; exact ⟨hk, hka, hkb⟩, .blocklist hc hca hcb⟩
    | truncateRetry h ht hr =>
      obtain ⟨x, hx, k, hk, hc⟩ := ho ht
      obtain ⟨kr, hkr, hcr⟩ := pr _ hr
      have hp : ∀ x ∈ g.resolvers, time x + time g.retryResolver ≤ time id := by by_type hpay h
      exact ⟨_, Nat.le_trans (Nat.add_le_add hk hkr) (hp x hx), .truncateRetry hc hcr⟩
    | responseIp h ht =>
      obtain ⟨x, hx, k, hk, hc⟩ := ho ht
      obtain ⟨kb, hkb, hcb⟩ := pbn
      have hp : ∀ x ∈ g.resolvers, time x + (if g.blockListResolver = [] then 0 else time g.blockListResolver) ≤ time id := by
        rcases h with h | h
        · by_type hpay h
        · by_type hpay h
      exact ⟨_, Nat.le_trans (Nat.add_le_add hk hkb) (hp x hx), .responseIp hc hcb⟩
    | responseName h ht =>
      obtain ⟨x, hx, k, hk, hc⟩ := ho ht
      obtain ⟨kb, hkb, hcb⟩ := pbn
      have hp : ∀ x ∈ g.resolvers, time x + (if g.blockListResolver = [] then 0 else time g.blockListResolver) ≤ time id := by by_type hpay h
      exact ⟨_, Nat.le_trans (Nat.add_le_add hk hkb) (hp x hx), .responseName hc hcb⟩
    | clientBlocklist h ht =>
      have hp : ∀ x, Refers g x → time x ≤ time id := by by_type hpay h
      obtain ⟨k, hk, hc⟩ := po ht hp
      obtain ⟨kb, hkb, hcb⟩ := pob hp
      exact ⟨_, by simp only [Nat.max_le]; exact ⟨hk, hkb⟩, .clientBlocklist hc hcb⟩
    | rateLimiter h ht hl' =>
      have hp : ∀ x, Refers g x → time x ≤ time id := by by_type hpay h
      obtain ⟨k, hk, hc⟩ := po ht hp
      obtain ⟨kb, hkb, hcb⟩ := in_le (pl _ hl').2 (hp _ (pl _ hl').1)
      exact ⟨_, by simp only [Nat.max_le]; exact ⟨hk, hkb⟩, .rateLimit hc hcb⟩
    | rateLimiterDrop h ht =>
      obtain ⟨k, hk, hc⟩ := po ht (by by_type hpay h)
      exact ⟨_, by simp only [Nat.max_le]; exact ⟨hk, Nat.zero_le _⟩, .rateLimit hc .drop⟩
    | fastestTcp h =>
      exfalso
      by_type hpay h
    | dnssec h =>
      exfalso
      by_type hpay h
    | redis h ht _ _ hbk hbt => exact absurd (.inr ⟨h, _, hbk, hbt⟩) hop
    | lua h => exact absurd (.inl h) hop
    | staticResponder => exact ⟨0, Nat.zero_le _, .static⟩
    | staticTemplate => exact ⟨0, Nat.zero_le _, .template⟩
    | drop => exact in_drop

/-! ### Numbers of queries -/

private theorem dropC (n : Nat) : Costs (.drop : Tree H) n := .weaken .drop (Nat.zero_le _)

/-- What is written next to the sections covers what their elements cause. -/
theorem costs_of_file (w : World H) (c : Cfg) (R : Str → Prop) (cost : Str → Nat) (hC : Spending c R cost) (id : Str) (t : Tree H) (h : Denotes w c id t) (hR : R id) : Costs t (cost id) := by
  induction h with
  | resolver h1 => exact .weaken .client (hC.resolver _ _ hR h1)
  | bootstrap h1 => exact .weaken .client (hC.bootstrap hR (by rw [h1]; exact Option.some_ne_none _))
  | @router id rs gr routes h1 h2 h3 h4 ih =>
    have hm : ∀ i, Costs (nth gr i) (cost id) := by
      intro i
      unfold nth
      cases hi : gr[i]? with
      | none => exact dropC _
      | some t =>
        have hlt := (List.getElem?_eq_some_iff.1 hi).1
        rw [h2] at hlt
        have h5 := hC.router _ _ hR h1 _ (List.getElem_mem hlt)
        exact Costs.weaken (ih i _ t (List.getElem?_eq_getElem hlt) hi h5.1) h5.2
    exact .router hm
  | @group id g gr o b h1 h2 h3 a1 a2 b1 b2 l1 l2 r1 r2 hb ih ia ib il ir =>
    rcases hC.group _ _ hR h1 with ⟨hop, hle⟩ | ⟨hop, href, hpay⟩
    · rcases hop with hop | ⟨hop, bk, hbk, hbt⟩
      · cases hb with
        | lua => exact .weaken .client hle
        | responseIp h => rcases h with h | h <;> (rw [hop] at h; exact absurd h (by decide))
        | roundRobin h | failRotate h | failBackEach h | failBack h | fastest h | loadBalance h | random h | ttlModifier h | requestDedup h | fastestTcp h | ecsModifier h | edns0Modifier h | syslog h | cache h
        | minimize h | collapse h | queryLog h | dns64 h | blocklist h | blocklistV2 h | truncateRetry h | responseName h | clientBlocklist h | rateLimiter h | rateLimiterDrop h | replace h | prefetch h | dnssec h
        | redis h | staticResponder h | staticTemplate h | drop h => rw [hop] at h; exact absurd h (by decide)
      · cases hb with
        | redis => exact .weaken .client hle
        | cache _ _ _ _ _ h =>
          rcases h with ⟨h, _⟩ | ⟨b, h, h', _⟩
          · rw [hbk] at h; cases h
          · rw [hbk] at h; cases h; rw [hbt] at h'; exact absurd h' (by decide)
        | responseIp h => rcases h with h | h <;> (rw [hop] at h; exact absurd h (by decide))
        | roundRobin h | failRotate h | failBackEach h | failBack h | fastest h | loadBalance h | random h | ttlModifier h | requestDedup h | fastestTcp h | ecsModifier h | edns0Modifier h | syslog h
        | minimize h | collapse h | queryLog h | dns64 h | blocklist h | blocklistV2 h | truncateRetry h | responseName h | clientBlocklist h | rateLimiter h | rateLimiterDrop h | replace h | prefetch h | dnssec h
        | lua h | staticResponder h | staticTemplate h | drop h => rw [hop] at h; exact absurd h (by decide)
    have hm : ∀ (i : Nat) (t : Tree H), gr[i]? = some t → ∃ x ∈ g.resolvers, Costs t (cost x) := by
      intro i t ht
      have hi : i < gr.length := (List.getElem?_eq_some_iff.1 ht).1
      rw [h2] at hi
      exact ⟨_, List.getElem_mem hi, ih i _ t (List.getElem?_eq_getElem hi) ht (href _ <| .inl <| (List.getElem_mem hi))⟩
    have ho : ∀ {t}, gr = [t] → ∃ x ∈ g.resolvers, Costs t (cost x) := fun {t} ht => hm 0 t (by rw [ht]; rfl)
    have pa : ∀ t, o.allow = some t → Refers g g.allowListResolver ∧ Costs t (cost g.allowListResolver) := fun t ht =>
      have hr : Refers g g.allowListResolver := .inr ⟨ne_of_some a1 ht, .inl rfl⟩
      ⟨hr, ia t ht (href _ hr)⟩
    have pb : ∀ t, o.block = some t → Refers g g.blockListResolver ∧ Costs t (cost g.blockListResolver) := fun t ht =>
      have hr : Refers g g.blockListResolver := .inr ⟨ne_of_some b1 ht, .inr (.inl rfl)⟩
      ⟨hr, ib t ht (href _ hr)⟩
    have pl : ∀ t, o.limit = some t → Refers g g.limitResolver ∧ Costs t (cost g.limitResolver) := fun t ht =>
      have hr : Refers g g.limitResolver := .inr ⟨ne_of_some l1 ht, .inr (.inr (.inl rfl))⟩
      ⟨hr, il t ht (href _ hr)⟩
    have pr : ∀ t, o.retry = some t → Costs t (cost g.retryResolver) := fun t ht =>
      ir t ht (href _ (.inr ⟨ne_of_some r1 ht, .inr (.inr (.inr rfl))⟩))
    have po : ∀ {t}, gr = [t] → (∀ x, Refers g x → cost x ≤ cost id) → Costs t (cost id) := by
      intro t ht hp
      obtain ⟨x, hx, hc⟩ := ho ht
      exact Costs.weaken hc (hp x (.inl hx))
    have pob : (∀ x, Refers g x → cost x ≤ cost id) → Costs (o.block.getD .drop) (cost id) := by
      intro hp
      cases hx : o.block with
      | none => exact dropC _
      | some t => exact Costs.weaken (pb t hx).2 (hp _ (pb t hx).1)
    have poa : (∀ x, Refers g x → cost x ≤ cost id) → ∀ {t}, Costs t (cost id) → Costs (o.allow.getD t) (cost id) := by
      intro hp t ht
      cases hx : o.allow with
      | none => exact ht
      | some t => exact Costs.weaken (pa t hx).2 (hp _ (pa t hx).1)
    have pbn : Costs (o.block.getD .drop) (if g.blockListResolver = [] then 0 else cost g.blockListResolver) := by
      cases hx : o.block with
      | none => exact dropC _
      | some t => rw [if_neg (ne_of_some b1 hx)]; exact (pb t hx).2
    have many : (∀ x ∈ g.resolvers, g.resolvers.length * cost x ≤ cost id) → ∀ i, Costs (nth gr i) (cost id / gr.length) := by
      intro hp i
      unfold nth
      cases hi : gr[i]? with
      | none => exact dropC _
      | some t =>
        obtain ⟨x, h3, h4⟩ := hm i t hi
        have h5 := (List.getElem?_eq_some_iff.1 hi).1
        have h6 := hp x h3
        rw [← h2] at h6
        exact .weaken h4 ((Nat.le_div_iff_mul_le (by omega)).2 (by rw [Nat.mul_comm]; exact h6))
    cases hb with
    | roundRobin h =>
      have hp : ∀ x, Refers g x → cost x ≤ cost id := by by_type hpay h
      refine .roundRobin fun i => ?_
      unfold nth
      cases hi : gr[i]? with
      | none => exact dropC _
      | some t =>
        obtain ⟨x, h3, h4⟩ := hm i t hi
        exact .weaken h4 (hp _ (.inl h3))
    | fastest h =>
      have hp : (g.resolvers.map cost).sum ≤ cost id := by by_type hpay h
      refine .weaken (.fastest (c := fun i => (g.resolvers[i]?.map cost).getD 0) fun i => ?_) (Nat.le_trans (Nat.le_of_eq ?_) hp)
      · unfold nth
        cases hi : gr[i]? with
        | none => exact dropC _
        | some t =>
          have hlt := (List.getElem?_eq_some_iff.1 hi).1
          rw [h2] at hlt
          rw [List.getElem?_eq_getElem hlt]
          exact ih i _ t (List.getElem?_eq_getElem hlt) hi (href _ <| .inl <| List.getElem_mem hlt)
      · congr 1
        rw [h2]
        apply List.ext_getElem?
        intro i
        by_cases hi : i < g.resolvers.length
        · simp [hi]
        · simp [hi]
    | failRotate h => exact .weaken (.failRotate (many (by by_type hpay h))) (Nat.mul_div_le _ _)
    | failBackEach h => exact .weaken (.failBackEach (many (by by_type hpay h))) (Nat.mul_div_le _ _)
    | failBack h => exact .weaken (.failBack (many (by by_type hpay h))) (Nat.mul_div_le _ _)
    | loadBalance h => exact .weaken (.loadBalance (many (by by_type hpay h))) (Nat.mul_div_le _ _)
    | random h => exact .weaken (.random (many (by by_type hpay h))) (Nat.mul_div_le _ _)
    | ttlModifier h ht => exact .ttl (po ht (by by_type hpay h))
    | requestDedup h ht => exact .dedup (po ht (by by_type hpay h))
    | ecsModifier h ht => exact .modify (po ht (by by_type hpay h))
    | edns0Modifier h ht => exact .modify (po ht (by by_type hpay h))
    | syslog h ht => exact .syslog (po ht (by by_type hpay h))
    | cache h ht => exact .cache (po ht (by by_type hpay h))
    | minimize h ht => exact .minimize (po ht (by by_type hpay h))
    | collapse h ht => exact .collapse (po ht (by by_type hpay h))
    | queryLog h ht => exact .queryLog (po ht (by by_type hpay h))
    | replace h ht => exact .replace (po ht (by by_type hpay h))
    | fastestTcp h ht => exact .fastestTcp (po ht (by by_type hpay h))
    | dns64 h ht =>
      obtain ⟨x, hx, hc⟩ := ho ht
      have hp : ∀ x ∈ g.resolvers, 2 * cost x ≤ cost id := by by_type hpay h
      exact .weaken (.dns64 hc) (hp x hx)
    | blocklist h ht =>
      have hc := po ht (by by_type hpay h)
      exact .weaken (.blocklist hc hc (dropC 0)) (by simp only [Nat.max_le]; exact ⟨Nat.le_refl _, Nat.le_refl _, Nat.zero_le _⟩)
    | blocklistV2 h ht =>
      have hp : ∀ x, Refers g x → cost x ≤ cost id := by by_type hpay h
      exact .weaken (.blocklist (po ht hp) (poa hp (po ht hp)) (pob hp)) (by simp only [Nat.max_le]; exact ⟨Nat.le_refl _, Nat.le_refl _, Nat.le_refl _⟩)
    | truncateRetry h ht hr =>
      obtain ⟨x, hx, hc⟩ := ho ht
      have hp : ∀ x ∈ g.resolvers, cost x + cost g.retryResolver ≤ cost id := by by_type hpay h
      exact .weaken (.truncateRetry hc (pr _ hr)) (hp x hx)
    | responseIp h ht =>
      obtain ⟨x, hx, hc⟩ := ho ht
      have hp : ∀ x ∈ g.resolvers, cost x + (if g.blockListResolver = [] then 0 else cost g.blockListResolver) ≤ cost id := by
        rcases h with h | h
        · by_type hpay h
        · by_type hpay h
      exact .weaken (.responseIp hc pbn) (hp x hx)
    | responseName h ht =>
      obtain ⟨x, hx, hc⟩ := ho ht
      have hp : ∀ x ∈ g.resolvers, cost x + (if g.blockListResolver = [] then 0 else cost g.blockListResolver) ≤ cost id := by by_type hpay h
      exact .weaken (.responseName hc pbn) (hp x hx)
    | clientBlocklist h ht =>
      have hp : ∀ x, Refers g x → cost x ≤ cost id := by by_type hpay h
      exact .weaken (.clientBlocklist (po ht hp) (pob hp)) (by simp only [Nat.max_le]; exact ⟨Nat.le_refl _, Nat.le_refl _⟩)
    | rateLimiter h ht hl' =>
      have hp : ∀ x, Refers g x → cost x ≤ cost id := by by_type hpay h
      exact .weaken (.rateLimit (po ht hp) (.weaken (pl _ hl').2 (hp _ (pl _ hl').1))) (by simp only [Nat.max_le]; exact ⟨Nat.le_refl _, Nat.le_refl _⟩)
    | rateLimiterDrop h ht =>
      exact .weaken (.rateLimit (po ht (by by_type hpay h)) (dropC 0)) (by simp only [Nat.max_le]; exact ⟨Nat.le_refl _, Nat.zero_le _⟩)
    | prefetch h =>
      exfalso
      by_type hpay h
    | dnssec h =>
      exfalso
      by_type hpay h
    | redis h ht _ _ hbk hbt => exact absurd (.inr ⟨h, _, hbk, hbt⟩) hop
    | lua h => exact absurd (.inl h) hop
    | staticResponder => exact .weaken .static (Nat.zero_le _)
    | staticTemplate => exact .weaken .template (Nat.zero_le _)
    | drop => exact dropC _

/-! ### The program -/

section
variable (w : World H) (o : Config.Orders) (ho : Spec.Config.AnyOrder o) (c : Cfg) (ts : List (Option (Tree H))) (hs : start w o c = some ts)
include ho hs

private theorem came {r : Root H} {x : Str} (h : CameIn c ts r x) : Denotes w c x r.tree := by
  obtain ⟨i, id, l, h1, h2, rfl⟩ := h
  exact (((Assemble.program_start w o ho c ts hs).2 i id l _ h1 h2).2.1 _).1 rfl

/-- C127: queries to servers are never more than what is written next to the sections that the queries of clients came in for. -/
theorem program_effort (R : Str → Prop) (cost : Str → Nat) (hC : Spending c R cost) (roots : List (Root H)) (sec : Root H → Str) (hr : ∀ r ∈ roots, CameIn c ts r (sec r) ∧ R (sec r)) (s : St H)
    (h : Steps (init roots) s) : s.asked.length ≤ (roots.map fun r => cost (sec r)).sum :=
  Effort.asked_bounded roots _ (fun r hm => costs_of_file w c R cost hC _ _ (came w o ho c ts hs (hr r hm).1) (hr r hm).2) s h

variable (hw : ∀ x ∈ c.groups, Whole x.2) (hl : Loads w.env)
include hw hl

/-- C127: each query has its reply (or was dropped, or failed) in the time written next to the section it came in for, if all servers answer or fail within theirs. -/
theorem program_in_time (limit : Str → Nat) (R : Str → Prop) (time : Str → Nat) (hS : Schedule c limit R time) (lim : Nat → Nat) (hlim : ∀ id, lim (number c id) ≤ limit id) (roots : List (Root H))
    (sec : Root H → Str) (hr : ∀ r ∈ roots, CameIn c ts r (sec r) ∧ R (sec r)) (run : Run lim roots) (i : Nat) (r : Root H) (hi : roots[i]? = some r) (n : Nat)
    (hn : run.time (run.arrival i) + time (sec r) < run.time n) (hp : ∀ (j : Nat) (st : List (Option Ptr → Prog H)), (run.state n).threads[j]? ≠ some ⟨.stop, st⟩) :
    ∃ x, (run.state n).threads[i]? = some ⟨.ret x, []⟩ := by
  have ht : ∀ r ∈ roots, ∃ n, n ≤ time (sec r) ∧ Takes lim r.tree n := fun r hm =>
    times_of_file w c limit R time hS lim hlim _ _ (came w o ho c ts hs (hr r hm).1) (hr r hm).2
  obtain ⟨k, hk, hc⟩ := ht r (List.mem_of_getElem? hi)
  exact Timed.reply_in_time run (fun r hm => ⟨ready_tended (Exist.config_ready w c hw hl _ _ (came w o ho c ts hs (hr r hm).1)), (ht r hm).imp fun _ h => h.2⟩) i r hi k hc n (by omega) hp

/-- C127: whatever the sections are, validators and prefetching too, and however the goroutines take turns: all of them come to an end, or one has panicked. -/
theorem program_ends (roots : List (Root H)) (hr : ∀ r ∈ roots, ∃ x, CameIn c ts r x) (run : Nat → St H) (h0 : run 0 = init roots)
    (hrun : ∀ n, Step (run n) (run (n + 1)) ∨ ((∀ s', ¬ Step (run n) s') ∧ run (n + 1) = run n)) :
    ∃ n, (∃ (i : Nat) (st : List (Option Ptr → Prog H)), (run n).threads[i]? = some ⟨.stop, st⟩) ∨ ∀ (i : Nat) (th : Thread H), (run n).threads[i]? = some th → ∃ r, th = ⟨.ret r, []⟩ :=
  SharedEnds.every_query_ends roots (fun r hm => (hr r hm).elim fun _ h => ready_tended (Exist.config_ready w c hw hl _ _ (came w o ho c ts hs h))) run h0 hrun

end

/-! ### An example -/

open _root_.Verif.Props.Assemble (toy someOrder)

/-- The library of the example of C79, where no list can be read -/
private def quiet : World Nat := { toy with env := { toy.env with loadNames := fun _ => false, loadIps := fun _ => false } }

private theorem quiet_loads : Loads quiet.env := ⟨fun _ h => Bool.noConfusion h, fun _ h => Bool.noConfusion h⟩

private theorem nodup_eraseDups : ∀ (n : Nat) (l : List Str), l.length ≤ n → l.eraseDups.Nodup := by
  intro n
  induction n with
  | zero =>
    intro l h
    cases l with
    | nil => simp
    | cons => simp at h
  | succ n ih =>
    intro l h
    cases l with
    | nil => simp
    | cons a l =>
      rw [List.eraseDups_cons, List.nodup_cons]
      refine ⟨by simp [List.mem_eraseDups], ih _ (Nat.le_trans (List.length_filter_le _ _) (by simpa using h))⟩

private theorem any_order : Spec.Config.AnyOrder someOrder where
  deps l := ⟨nodup_eraseDups _ l (Nat.le_refl _), fun _ => List.mem_eraseDups⟩
  edges _ := .refl _
  leaves _ _ := .refl _

/-- A cache before a group of two, one of which is asked again by TCP if the reply was truncated -/
private def office : Cfg :=
  { resolvers := [(str "a", { protocol := str "udp" }), (str "a-tcp", { protocol := str "tcp" }), (str "b", { protocol := str "udp" })]
    groups := [(str "cached", { type := str "cache", resolvers := [str "both"] }),
               (str "both", { type := str "fail-rotate", resolvers := [str "retried", str "b"] }),
               (str "retried", { type := str "truncate-retry", resolvers := [str "a"], retryResolver := str "a-tcp" })]
    listeners := [(str "l", { protocol := str "udp", resolver := str "cached" })] }

example : (start quiet someOrder office).map (·.map (·.isSome)) = some [true] := by decide +kernel

private def price (s : Str) : Nat := if s = str "retried" then 2 else if s = str "both" ∨ s = str "cached" then 4 else 1

private theorem plain {g : Group} (h1 : g.type ≠ str "lua") (h2 : g.backend = none) : ¬ Opaque g := by
  rintro (h | ⟨h, b, h', _⟩)
  · exact h1 h
  · rw [h2] at h'; cases h'

private theorem office_spending : Spending office (fun _ => True) price where
  resolver := by
    intro id r _ h
    simp only [office, List.mem_cons, List.not_mem_nil, or_false, Prod.mk.injEq] at h
    rcases h with ⟨rfl, -⟩ | ⟨rfl, -⟩ | ⟨rfl, -⟩ <;> decide
  bootstrap := by intro _ h; exact absurd rfl h
  group := by
    intro id g _ hg
    simp only [office, List.mem_cons, List.not_mem_nil, or_false, Prod.mk.injEq] at hg
    rcases hg with ⟨rfl, rfl⟩ | ⟨rfl, rfl⟩ | ⟨rfl, rfl⟩
    · refine .inr ⟨plain (by decide) rfl, fun _ _ => trivial, .one (by decide) ?_⟩
      rintro x (hx | ⟨h1, rfl | rfl | rfl | rfl⟩)
      · cases List.mem_singleton.1 hx
        decide
      all_goals exact absurd rfl h1
    · exact .inr ⟨plain (by decide) rfl, fun _ _ => trivial, .group (by decide) (by decide)⟩
    · exact .inr ⟨plain (by decide) rfl, fun _ _ => trivial, .retry rfl (by decide)⟩
  router := by intro id rs _ h; cases h

/-- Seconds: two for a server, and so four for both in turn of "retried", and eight for the group. -/
private theorem office_schedule : Schedule office (fun _ => 2) (fun _ => True) (fun s => 2 * price s) where
  resolver := by
    intro id r _ h
    simp only [office, List.mem_cons, List.not_mem_nil, or_false, Prod.mk.injEq] at h
    rcases h with ⟨rfl, -⟩ | ⟨rfl, -⟩ | ⟨rfl, -⟩ <;> decide
  bootstrap := by intro _ h; exact absurd rfl h
  group := by
    intro id g _ hg
    simp only [office, List.mem_cons, List.not_mem_nil, or_false, Prod.mk.injEq] at hg
    rcases hg with ⟨rfl, rfl⟩ | ⟨rfl, rfl⟩ | ⟨rfl, rfl⟩
    · refine .inr ⟨plain (by decide) rfl, fun _ _ => trivial, .one (by decide) ?_⟩
      rintro x (hx | ⟨h1, rfl | rfl | rfl | rfl⟩)
      · cases List.mem_singleton.1 hx
        decide
      all_goals exact absurd rfl h1
    · exact .inr ⟨plain (by decide) rfl, fun _ _ => trivial, .group (by decide) (by decide)⟩
    · exact .inr ⟨plain (by decide) rfl, fun _ _ => trivial, .retry rfl (by decide)⟩
  router := by intro id rs _ h; cases h

private theorem office_whole : ∀ x ∈ office.groups, Whole x.2 := by
  intro x hx
  simp only [office, List.mem_cons, List.not_mem_nil, or_false] at hx
  rcases hx with rfl | rfl | rfl <;> exact ⟨fun h => absurd h (by decide), by decide⟩

/-- Four queries to servers for each of a client, at most -/
example (ts : List (Option (Tree Nat))) (hs : start quiet someOrder office = some ts) (roots : List (Root Nat)) (hr : ∀ r ∈ roots, CameIn office ts r (str "cached"))
    (s : St Nat) (h : Steps (init roots) s) : s.asked.length ≤ 4 * roots.length := by
  have h1 := program_effort quiet someOrder any_order office ts hs _ _ office_spending roots (fun _ => str "cached") (fun r h => ⟨hr r h, trivial⟩) s h
  have h2 : price (str "cached") = 4 := by decide
  rw [List.map_const', List.sum_replicate_nat, h2] at h1
  omega

/-- Eight seconds, if servers answer or fail within two -/
example (ts : List (Option (Tree Nat))) (hs : start quiet someOrder office = some ts) (roots : List (Root Nat))
    (hr : ∀ r ∈ roots, CameIn office ts r (str "cached")) (run : Run (fun _ => 2) roots) (i : Nat) (r : Root Nat) (hi : roots[i]? = some r) (n : Nat) (hn : run.time (run.arrival i) + 8 < run.time n)
    (hp : ∀ (j : Nat) (st : List (Option Ptr → Prog Nat)), (run.state n).threads[j]? ≠ some ⟨.stop, st⟩) : ∃ x, (run.state n).threads[i]? = some ⟨.ret x, []⟩ :=
  program_in_time quiet someOrder any_order office ts hs office_whole quiet_loads _ _ _ office_schedule _ (fun _ => Nat.le_refl _) roots (fun _ => str "cached") (fun r h => ⟨hr r h, trivial⟩) run i r hi n hn hp

end Verif.Props.TimedConfig
