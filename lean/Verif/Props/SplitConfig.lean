import Verif.Spec.SplitConfig
import Verif.Props.Split
import Verif.Props.AsksConfig
/-
C124: names and clients kept from servers, from the configuration file on.
-/
namespace Verif.Props.SplitConfig
open Verif Verif.Composition Verif.Asks Verif.Spec.Assemble Verif.Spec.Asks Verif.Spec.Split Verif.Spec.SplitConfig
open Verif.Assemble hiding Kind
variable {H : Type}

/-- The numbers of these servers -/
abbrev Numbered (c : Cfg) (servers : Str → Prop) (i : Nat) : Prop := ∃ id, servers id ∧ i = number c id

private theorem number_inj {c : Cfg} {id id' : Str} (h : id ∈ names c) (e : number c id = number c id') : id = id' := by
  have h1 : (names c).idxOf id < (names c).length := List.idxOf_lt_length_iff.2 h
  have h2 : (names c).idxOf id' < (names c).length := by
    have e' : (names c).idxOf id = (names c).idxOf id' := e
    rw [← e']
    exact h1
  have e1 := List.getElem_idxOf h1
  have e2 := List.getElem_idxOf h2
  have : (names c)[(names c).idxOf id] = (names c)[(names c).idxOf id'] := by
    congr 1
  rw [e1, e2] at this
  exact this

theorem number_resolver {c : Cfg} {id : Str} {r : Resolver} (h : (id, r) ∈ c.resolvers) : id ∈ names c :=
  List.mem_append.2 (.inl (List.mem_append.2 (.inl (List.mem_map.2 ⟨_, h, rfl⟩))))

theorem number_bootstrap {c : Cfg} : Config.bootId ∈ names c := List.mem_append.2 (.inr (List.mem_singleton.2 rfl))

theorem not_numbered {c : Cfg} {servers : Str → Prop} {id : Str} (h : id ∈ names c) (hn : ¬ servers id) : ¬ Numbered c servers (number c id) := by
  rintro ⟨x, h1, h2⟩
  rw [number_inj h h2] at hn
  exact hn h1

private theorem nth_all {P : Tree H → Prop} {gr : List (Tree H)} (hd : P .drop) (h : ∀ (i : Nat) (t : Tree H), gr[i]? = some t → P t) (i : Nat) : P (nth gr i) := by
  unfold nth
  cases hi : gr[i]? with
  | none => exact hd
  | some t => exact h i t hi

private theorem nth_at {P : Tree H → Prop} {gr : List (Tree H)} {i : Nat} (hd : P .drop) (h : ∀ t, gr[i]? = some t → P t) : P (nth gr i) := by
  unfold nth
  cases hi : gr[i]? with
  | none => exact hd
  | some t => exact h t hi

private theorem opt_all {P : Tree H → Prop} {x : Option (Tree H)} (h : ∀ t, x = some t → P t) {d : Tree H} (hd : P d) : P (x.getD d) := by
  cases x with
  | none => exact hd
  | some t => exact h t rfl

private theorem ne_of_some {x : Option (Tree H)} {s : Str} (h : x = none ↔ s = []) {t : Tree H} (ht : x = some t) : s ≠ [] := by
  intro e
  rw [h.2 e] at ht
  cases ht

private theorem each_get {α β : Type} {R : α → β → Prop} {l : List α} {bs : List β} (h : Each R l bs) : ∀ (k : Nat) (a : α), l[k]? = some a → ∃ b, bs[k]? = some b ∧ R a b := by
  induction h with
  | nil => intro k a h; cases h
  | @cons a b as bs h1 _ ih =>
    intro k x h
    cases k with
    | zero => cases h; exact ⟨b, rfl, h1⟩
    | succ k => exact ih k x h

/-- Sections without a way to the servers make elements without one. -/
theorem away_no_way (w : World H) (c : Cfg) (servers N : Str → Prop) (hg : Away c servers N) (id : Str) (t : Tree H) (h : Denotes w c id t) (hS : N id) : NoWay (Numbered c servers) t := by
  induction h with
  | resolver h1 => exact not_numbered (number_resolver h1) (hg.resolver _ _ hS h1)
  | bootstrap h1 => exact not_numbered number_bootstrap (hg.bootstrap hS (by rw [h1]; exact Option.some_ne_none _))
  | router h1 h2 h3 h4 ih =>
    refine fun i => nth_all trivial (fun i t ht => ?_) i
    have hi : i < _ := (List.getElem?_eq_some_iff.1 ht).1
    rw [h2] at hi
    exact ih i _ t (List.getElem?_eq_getElem hi) ht (hg.router _ _ hS h1 _ (List.getElem_mem hi))
  | @group id g gr o b h1 h2 h3 a1 a2 b1 b2 l1 l2 r1 r2 hb ih ia ib il ir =>
    obtain ⟨hop, href⟩ := hg.group _ _ hS h1
    have hm : ∀ (i : Nat) (t : Tree H), gr[i]? = some t → NoWay (Numbered c servers) t := by
      intro i t ht
      have hi : i < gr.length := (List.getElem?_eq_some_iff.1 ht).1
      rw [h2] at hi
      exact ih i _ t (List.getElem?_eq_getElem hi) ht (href _ <| .inl <| (List.getElem_mem hi))
    have ho : ∀ {t}, gr = [t] → NoWay (Numbered c servers) t := fun {t} ht => hm 0 t (by rw [ht]; rfl)
    have pa : ∀ t, o.allow = some t → NoWay (Numbered c servers) t := fun t ht => ia t ht (href _ <| .inr <| ⟨ne_of_some a1 ht, .inl rfl⟩)
    have pb : ∀ t, o.block = some t → NoWay (Numbered c servers) t := fun t ht => ib t ht (href _ <| .inr <| ⟨ne_of_some b1 ht, .inr (.inl rfl)⟩)
    have pl : ∀ t, o.limit = some t → NoWay (Numbered c servers) t := fun t ht => il t ht (href _ <| .inr <| ⟨ne_of_some l1 ht, .inr (.inr (.inl rfl))⟩)
    have pr : ∀ t, o.retry = some t → NoWay (Numbered c servers) t := fun t ht => ir t ht (href _ <| .inr <| ⟨ne_of_some r1 ht, .inr (.inr (.inr rfl))⟩)
    cases hb with
    | roundRobin h => exact nth_all trivial hm
    | failRotate h => exact nth_all trivial hm
    | failBackEach h => exact nth_all trivial hm
    | failBack h => exact nth_all trivial hm
    | fastest h => exact nth_all trivial hm
    | loadBalance h => exact nth_all trivial hm
    | random h => exact nth_all trivial hm
    | ttlModifier h ht => exact (ho ht :)
    | requestDedup h ht => exact (ho ht :)
    | fastestTcp h ht => exact (ho ht :)
    | ecsModifier h ht => exact (ho ht :)
    | edns0Modifier h ht => exact (ho ht :)
    | syslog h ht => exact (ho ht :)
    | cache h ht => exact (ho ht :)
    | minimize h ht => exact (ho ht :)
    | collapse h ht => exact (ho ht :)
    | queryLog h ht => exact (ho ht :)
    | dns64 h ht => exact (ho ht :)
    | blocklist h ht => exact ⟨ho ht, ho ht, trivial⟩
    | blocklistV2 h ht => exact ⟨ho ht, opt_all pa (ho ht), opt_all pb trivial⟩
    | truncateRetry h ht hr => exact ⟨ho ht, pr _ hr⟩
    | responseIp h ht => exact ⟨ho ht, opt_all pb trivial⟩
    | responseName h ht => exact ⟨ho ht, opt_all pb trivial⟩
    | clientBlocklist h ht => exact ⟨ho ht, opt_all pb trivial⟩
    | rateLimiter h ht hl' => exact ⟨ho ht, pl _ hl'⟩
    | rateLimiterDrop h ht => exact ⟨ho ht, trivial⟩
    | replace h ht => exact (ho ht :)
    | prefetch h ht => exact (ho ht :)
    | dnssec h ht => exact (ho ht :)
    | redis h ht _ _ hbk hbt => exact absurd (.inr ⟨h, _, hbk, hbt⟩) hop
    | lua h => exact absurd (.inl h) hop
    | staticResponder => trivial
    | staticTemplate => trivial
    | drop => trivial

/-- The empty expression matches everything. -/
abbrev EmptyMatches (env : Env H) : Prop := ∀ f, env.compile [] = some f → ∀ s, f s = true

private theorem takes_names {env : Env H} (he : EmptyMatches env) {r : RouteCfg} {bad : Str → Prop} (ht : TakesNames env r bad) {x : Route.Route}
    (h : Route.newRoute env.types env.compile env.parseCIDR (if r.type = [] then r.route else { r.route with types := r.route.types ++ [r.type] }) = some x) : Catches x bad := by
  obtain ⟨h1, e, f, h2, h3, h4⟩ := ht
  rw [if_pos h1, h2] at h
  exact Split.name_route_catches env.types env.compile env.parseCIDR he e x h f h3 bad h4

private theorem takes_clients {env : Env H} (he : EmptyMatches env) {r : RouteCfg} {who : ClientInfo → Prop} (ht : TakesClients env r who) {x : Route.Route}
    (h : Route.newRoute env.types env.compile env.parseCIDR (if r.type = [] then r.route else { r.route with types := r.route.types ++ [r.type] }) = some x) : CatchesFrom x who := by
  cases ht with
  | @source e a net h1 h2 h3 h4 h5 h6 =>
    rw [if_pos h1, h2] at h
    exact fun q qu ci now hw => Split.source_route_catches env.types env.compile env.parseCIDR he e h3 x h a net h4 h5 q qu ci now (h6 ci hw)
  | @listener e f h1 h2 h3 h4 =>
    rw [if_pos h1, h2] at h
    exact fun q qu ci now hw => Split.listener_route_catches env.types env.compile env.parseCIDR he e x h f h3 q qu ci now (h4 ci hw)

/-- Sections that keep names from servers make elements that do. -/
theorem names_kept (w : World H) (he : EmptyMatches w.env) (c : Cfg) (servers bad : Str → Prop) (K A : Str → Prop) (hk : Plain c K) (hg : KeepsNames w.env c servers bad K A) (id : Str) (t : Tree H)
    (h : Denotes w c id t) (hS : A id) : Apart (Numbered c servers) bad t := by
  induction h with
  | resolver h1 => exact not_numbered (number_resolver h1) (hg.resolver _ _ hS h1)
  | bootstrap h1 => exact not_numbered number_bootstrap (hg.bootstrap hS (by rw [h1]; exact Option.some_ne_none _))
  | @router id rs gr routes h1 h2 h3 h4 ih =>
    have hin : ∀ (k : Nat) (x : RouteCfg) (t : Tree H), rs[k]? = some x → gr[k]? = some t → A x.resolver → Apart (Numbered c servers) bad t := fun k x t hx ht hA => ih k x t hx ht hA
    have hat : ∀ (k : Nat) (t : Tree H), gr[k]? = some t → ∃ x, rs[k]? = some x ∧ x ∈ rs := by
      intro k t ht
      have hi : k < gr.length := (List.getElem?_eq_some_iff.1 ht).1
      rw [h2] at hi
      exact ⟨_, List.getElem?_eq_getElem hi, List.getElem_mem hi⟩
    rcases hg.router _ _ hS h1 with hr | ⟨⟨k, r, hk1, hk2, hk3⟩, hr⟩
    · refine .inl (nth_all trivial fun i t ht => ?_)
      obtain ⟨x, hx, hm⟩ := hat i t ht
      exact hin i x t hx ht (hr x hm)
    · obtain ⟨x, hx, hn⟩ := each_get h4 k r hk1
      refine .inr ⟨⟨k, x, hx, takes_names he hk2 hn, fun j hj => ?_⟩, fun m => ?_⟩
      · refine nth_at (P := Apart (Numbered c servers) bad) trivial fun t ht => ?_
        obtain ⟨y, hy, _⟩ := hat j t ht
        exact hin j y t hy ht (hk3 j y hj hy)
      · refine nth_at (P := fun t => Keeps t ∨ Apart (Numbered c servers) bad t) (.inl trivial) fun t ht => ?_
        obtain ⟨y, hy, hm⟩ := hat m t ht
        rcases hr y hm with h | h
        · exact .inl (AsksConfig.plain_keeps w c K hk _ t (h3 m y t hy ht) h)
        · exact .inr (hin m y t hy ht h)
  | @group id g gr o b h1 h2 h3 a1 a2 b1 b2 l1 l2 r1 r2 hb ih ia ib il ir =>
    obtain ⟨hop, href | ⟨hl, hK, hKa, hSb⟩⟩ := hg.group _ _ hS h1
    · have hm : ∀ (i : Nat) (t : Tree H), gr[i]? = some t → Apart (Numbered c servers) bad t := by
        intro i t ht
        have hi : i < gr.length := (List.getElem?_eq_some_iff.1 ht).1
        rw [h2] at hi
        exact ih i _ t (List.getElem?_eq_getElem hi) ht (href _ <| .inl <| (List.getElem_mem hi))
      have ho : ∀ {t}, gr = [t] → Apart (Numbered c servers) bad t := fun {t} ht => hm 0 t (by rw [ht]; rfl)
      have pa : ∀ t, o.allow = some t → Apart (Numbered c servers) bad t := fun t ht => ia t ht (href _ <| .inr <| ⟨ne_of_some a1 ht, .inl rfl⟩)
      have pb : ∀ t, o.block = some t → Apart (Numbered c servers) bad t := fun t ht => ib t ht (href _ <| .inr <| ⟨ne_of_some b1 ht, .inr (.inl rfl)⟩)
      have pl : ∀ t, o.limit = some t → Apart (Numbered c servers) bad t := fun t ht => il t ht (href _ <| .inr <| ⟨ne_of_some l1 ht, .inr (.inr (.inl rfl))⟩)
      have pr : ∀ t, o.retry = some t → Apart (Numbered c servers) bad t := fun t ht => ir t ht (href _ <| .inr <| ⟨ne_of_some r1 ht, .inr (.inr (.inr rfl))⟩)
      cases hb with
      | roundRobin h => exact nth_all trivial hm
      | failRotate h => exact nth_all trivial hm
      | failBackEach h => exact nth_all trivial hm
      | failBack h => exact nth_all trivial hm
      | fastest h => exact nth_all trivial hm
      | loadBalance h => exact nth_all trivial hm
      | random h => exact nth_all trivial hm
      | ttlModifier h ht => exact (ho ht :)
      | requestDedup h ht => exact (ho ht :)
      | fastestTcp h ht => exact (ho ht :)
      | ecsModifier h ht => exact (ho ht :)
      | edns0Modifier h ht => exact (ho ht :)
      | syslog h ht => exact (ho ht :)
      | cache h ht => exact (ho ht :)
      | minimize h ht => exact (ho ht :)
      | collapse h ht => exact (ho ht :)
      | queryLog h ht => exact (ho ht :)
      | dns64 h ht => exact (ho ht :)
      | blocklist h ht => exact .inr ⟨ho ht, ho ht, trivial⟩
      | blocklistV2 h ht => exact .inr ⟨ho ht, opt_all pa (ho ht), opt_all pb trivial⟩
      | truncateRetry h ht hr => exact ⟨ho ht, pr _ hr⟩
      | responseIp h ht => exact ⟨ho ht, opt_all pb trivial⟩
      | responseName h ht => exact ⟨ho ht, opt_all pb trivial⟩
      | clientBlocklist h ht => exact ⟨ho ht, opt_all pb trivial⟩
      | rateLimiter h ht hl' => exact ⟨ho ht, pl _ hl'⟩
      | rateLimiterDrop h ht => exact ⟨ho ht, trivial⟩
      | replace h ht => exact (ho ht :)
      | prefetch h ht => exact (ho ht :)
      | dnssec h ht => exact (ho ht :)
      | redis h ht _ _ hbk hbt => exact absurd (.inr ⟨h, _, hbk, hbt⟩) hop
      | lua h => exact absurd (.inl h) hop
      | staticResponder => trivial
      | staticTemplate => trivial
      | drop => trivial
    · have hm : ∀ {t}, gr = [t] → Keeps t ∨ Apart (Numbered c servers) bad t := by
        intro t ht
        have hl1 : 0 < g.resolvers.length := by rw [← h2, ht]; exact Nat.one_pos
        have ht0 : gr[0]? = some t := by rw [ht]; rfl
        rcases hK _ (List.getElem_mem hl1) with h | h
        · exact .inl (AsksConfig.plain_keeps w c K hk _ t (h3 0 _ t (List.getElem?_eq_getElem hl1) ht0) h)
        · exact .inr (ih 0 _ t (List.getElem?_eq_getElem hl1) ht0 h)
      have pa : ∀ t, o.allow = some t → Keeps t ∨ Apart (Numbered c servers) bad t := fun t ht => (hKa (ne_of_some a1 ht)).imp (AsksConfig.plain_keeps w c K hk _ t (a2 t ht)) (ia t ht)
      have pb : ∀ t, o.block = some t → Apart (Numbered c servers) bad t := fun t ht => ib t ht (hSb (ne_of_some b1 ht))
      cases hl with
      | old hty hne hl =>
        cases hb with
        | blocklist h ht _ hd => exact .inl ⟨AsksConfig.old_blocks w.env id g bad hne hl _ hd, hm ht, hm ht, trivial⟩
        | responseIp h => rw [hty] at h; rcases h with h | h <;> exact absurd h (by decide)
        | _ h => rw [hty] at h; exact absurd h (by decide)
      | v2 hty hne hl has hal hform =>
        cases hb with
        | blocklistV2 h ht hb ha =>
          exact .inl ⟨AsksConfig.v2_blocks w.env id g bad hne hl has hal hform _ _ hb ha _ _ _, hm ht, opt_all (P := fun t => Keeps t ∨ Apart (Numbered c servers) bad t) pa (hm ht), opt_all pb trivial⟩
        | responseIp h => rw [hty] at h; rcases h with h | h <;> exact absurd h (by decide)
        | _ h => rw [hty] at h; exact absurd h (by decide)

/-- Sections that keep clients from servers make elements that do. -/
theorem clients_kept (w : World H) (he : EmptyMatches w.env) (c : Cfg) (servers : Str → Prop) (who : ClientInfo → Prop) (N A : Str → Prop) (hn : Away c servers N)
    (hg : KeepsClients w.env c servers who N A) (id : Str) (t : Tree H) (h : Denotes w c id t) (hS : A id) : ApartFrom (Numbered c servers) who t := by
  induction h with
  | resolver h1 => exact not_numbered (number_resolver h1) (hg.resolver _ _ hS h1)
  | bootstrap h1 => exact not_numbered number_bootstrap (hg.bootstrap hS (by rw [h1]; exact Option.some_ne_none _))
  | @router id rs gr routes h1 h2 h3 h4 ih =>
    have hat : ∀ (k : Nat) (t : Tree H), gr[k]? = some t → ∃ x, rs[k]? = some x ∧ x ∈ rs := by
      intro k t ht
      have hi : k < gr.length := (List.getElem?_eq_some_iff.1 ht).1
      rw [h2] at hi
      exact ⟨_, List.getElem?_eq_getElem hi, List.getElem_mem hi⟩
    rcases hg.router _ _ hS h1 with hr | ⟨k, r, hk1, hk2, hk3⟩
    · refine .inl (nth_all trivial fun i t ht => ?_)
      obtain ⟨x, hx, hm⟩ := hat i t ht
      exact ih i x t hx ht (hr x hm)
    · obtain ⟨x, hx, hn⟩ := each_get h4 k r hk1
      refine .inr ⟨k, x, hx, takes_clients he hk2 hn, fun j hj => ?_⟩
      refine nth_at (P := ApartFrom (Numbered c servers) who) trivial fun t ht => ?_
      obtain ⟨y, hy, _⟩ := hat j t ht
      exact ih j y t hy ht (hk3 j y hj hy)
  | @group id g gr o b h1 h2 h3 a1 a2 b1 b2 l1 l2 r1 r2 hb ih ia ib il ir =>
    obtain ⟨hop, href, hself⟩ := hg.group _ _ hS h1
    have hm : ∀ (i : Nat) (t : Tree H), gr[i]? = some t → ApartFrom (Numbered c servers) who t := by
      intro i t ht
      have hi : i < gr.length := (List.getElem?_eq_some_iff.1 ht).1
      rw [h2] at hi
      exact ih i _ t (List.getElem?_eq_getElem hi) ht (href _ <| .inl <| (List.getElem_mem hi))
    have ho : ∀ {t}, gr = [t] → ApartFrom (Numbered c servers) who t := fun {t} ht => hm 0 t (by rw [ht]; rfl)
    have pa : ∀ t, o.allow = some t → ApartFrom (Numbered c servers) who t := fun t ht => ia t ht (href _ <| .inr <| ⟨ne_of_some a1 ht, .inl rfl⟩)
    have pb : ∀ t, o.block = some t → ApartFrom (Numbered c servers) who t := fun t ht => ib t ht (href _ <| .inr <| ⟨ne_of_some b1 ht, .inr (.inl rfl)⟩)
    have pl : ∀ t, o.limit = some t → ApartFrom (Numbered c servers) who t := fun t ht => il t ht (href _ <| .inr <| ⟨ne_of_some l1 ht, .inr (.inr (.inl rfl))⟩)
    have pr : ∀ t, o.retry = some t → ApartFrom (Numbered c servers) who t := fun t ht => ir t ht (href _ <| .inr <| ⟨ne_of_some r1 ht, .inr (.inr (.inr rfl))⟩)
    have hN : ∀ {t}, g.type = str "prefetch" ∨ g.type = str "dnssec-validator" → gr = [t] → NoWay (Numbered c servers) t := by
      intro t hty ht
      have hl1 : 0 < g.resolvers.length := by rw [← h2, ht]; exact Nat.one_pos
      exact away_no_way w c servers N hn _ t (h3 0 _ t (List.getElem?_eq_getElem hl1) (by rw [ht]; rfl)) (hself hty _ (List.getElem_mem hl1))
    cases hb with
    | roundRobin h => exact nth_all trivial hm
    | failRotate h => exact nth_all trivial hm
    | failBackEach h => exact nth_all trivial hm
    | failBack h => exact nth_all trivial hm
    | fastest h => exact nth_all trivial hm
    | loadBalance h => exact nth_all trivial hm
    | random h => exact nth_all trivial hm
    | ttlModifier h ht => exact (ho ht :)
    | requestDedup h ht => exact (ho ht :)
    | fastestTcp h ht => exact (ho ht :)
    | ecsModifier h ht => exact (ho ht :)
    | edns0Modifier h ht => exact (ho ht :)
    | syslog h ht => exact (ho ht :)
    | cache h ht => exact (ho ht :)
    | minimize h ht => exact (ho ht :)
    | collapse h ht => exact (ho ht :)
    | queryLog h ht => exact (ho ht :)
    | dns64 h ht => exact (ho ht :)
    | blocklist h ht => exact ⟨ho ht, ho ht, trivial⟩
    | blocklistV2 h ht => exact ⟨ho ht, opt_all pa (ho ht), opt_all pb trivial⟩
    | truncateRetry h ht hr => exact ⟨ho ht, pr _ hr⟩
    | responseIp h ht => exact ⟨ho ht, opt_all pb trivial⟩
    | responseName h ht => exact ⟨ho ht, opt_all pb trivial⟩
    | clientBlocklist h ht => exact ⟨ho ht, opt_all pb trivial⟩
    | rateLimiter h ht hl' => exact ⟨ho ht, pl _ hl'⟩
    | rateLimiterDrop h ht => exact ⟨ho ht, trivial⟩
    | replace h ht => exact (ho ht :)
    | prefetch h ht => exact (hN (.inl h) ht :)
    | dnssec h ht => exact (hN (.inr h) ht :)
    | redis h ht _ _ hbk hbt => exact absurd (.inr ⟨h, _, hbk, hbt⟩) hop
    | lua h => exact absurd (.inl h) hop
    | staticResponder => trivial
    | staticTemplate => trivial
    | drop => trivial

/-! ### The program -/

/-- C124: if the file keeps these names from these servers, no query about them is ever sent to one of the servers. -/
theorem program_names_apart (w : World H) (he : EmptyMatches w.env) (o : Config.Orders) (ho : Spec.Config.AnyOrder o) (c : Cfg) (ts : List (Option (Tree H))) (hs : start w o c = some ts)
    (servers bad : Str → Prop) (K A : Str → Prop) (hk : Plain c K) (hg : KeepsNames w.env c servers bad K A) (i : Nat) (id : Str) (l : Listener) (hl : c.listeners[i]? = some (id, l)) (hA : A l.resolver)
    (t : Tree H) (ht : ts[i]? = some (some t)) (q : Msg) (ci : ClientInfo) (server : Str) (hserver : servers server) (q' : Msg) (ci' : ClientInfo) (h : Asks t q ci (number c server) q' ci')
    (n : Str) (hn : Named q' n) : ¬ bad n :=
  Split.names_apart (Numbered c servers) bad t q ci _ q' ci' (names_kept w he c servers bad K A hk hg _ t ((((Assemble.program_start w o ho c ts hs).2 i id l _ hl ht).2.1 t).1 rfl) hA) h
    ⟨server, hserver, rfl⟩ n hn

/-- C124: if the file keeps these clients from these servers, nothing they ask ever makes the program ask one of the servers. -/
theorem program_clients_apart (w : World H) (he : EmptyMatches w.env) (o : Config.Orders) (ho : Spec.Config.AnyOrder o) (c : Cfg) (ts : List (Option (Tree H))) (hs : start w o c = some ts)
    (servers : Str → Prop) (who : ClientInfo → Prop) (N A : Str → Prop) (hn : Away c servers N) (hg : KeepsClients w.env c servers who N A) (i : Nat) (id : Str) (l : Listener)
    (hl : c.listeners[i]? = some (id, l)) (hA : A l.resolver) (t : Tree H) (ht : ts[i]? = some (some t)) (q : Msg) (ci : ClientInfo) (hwho : who ci) (server : Str) (hserver : servers server)
    (q' : Msg) (ci' : ClientInfo) : ¬ Asks t q ci (number c server) q' ci' := fun h =>
  Split.clients_apart (Numbered c servers) who t q ci _ q' ci' (clients_kept w he c servers who N A hn hg _ t ((((Assemble.program_start w o ho c ts hs).2 i id l _ hl ht).2.1 t).1 rfl) hA) hwho h
    ⟨server, hserver, rfl⟩

/-- C124: so what those servers would say about the names makes no difference to any reply. -/
theorem program_names_replies [DecidableEq H] (w : World H) (he : EmptyMatches w.env) (o : Config.Orders) (ho : Spec.Config.AnyOrder o) (c : Cfg) (ts : List (Option (Tree H))) (hs : start w o c = some ts)
    (servers bad : Str → Prop) (K A : Str → Prop) (hk : Plain c K) (hg : KeepsNames w.env c servers bad K A) (i : Nat) (id : Str) (l : Listener) (hl : c.listeners[i]? = some (id, l)) (hA : A l.resolver)
    (t : Tree H) (ht : ts[i]? = some (some t)) (C C' : Nat → Msg → ClientInfo → Option Res → Prop)
    (hC : ∀ j q ci r, ((∃ s, servers s ∧ j = number c s) → ∀ n, Named q n → ¬ bad n) → (C j q ci r ↔ C' j q ci r)) (q : Msg) (ci : ClientInfo) (r : Option Res) :
    Replies C t q ci r ↔ Replies C' t q ci r :=
  Split.names_apart_replies (Numbered c servers) bad C C' hC t (names_kept w he c servers bad K A hk hg _ t ((((Assemble.program_start w o ho c ts hs).2 i id l _ hl ht).2.1 t).1 rfl) hA) q ci r

/-- C124: and those clients get the same replies whatever those servers do. -/
theorem program_clients_replies [DecidableEq H] (w : World H) (he : EmptyMatches w.env) (o : Config.Orders) (ho : Spec.Config.AnyOrder o) (c : Cfg) (ts : List (Option (Tree H))) (hs : start w o c = some ts)
    (servers : Str → Prop) (who : ClientInfo → Prop) (N A : Str → Prop) (hn : Away c servers N) (hg : KeepsClients w.env c servers who N A) (i : Nat) (id : Str) (l : Listener)
    (hl : c.listeners[i]? = some (id, l)) (hA : A l.resolver) (t : Tree H) (ht : ts[i]? = some (some t)) (C C' : Nat → Msg → ClientInfo → Option Res → Prop)
    (hC : ∀ j q ci r, ¬ (∃ s, servers s ∧ j = number c s) → (C j q ci r ↔ C' j q ci r)) (q : Msg) (ci : ClientInfo) (hwho : who ci) (r : Option Res) : Replies C t q ci r ↔ Replies C' t q ci r :=
  Split.clients_apart_replies (Numbered c servers) who C C' hC t (clients_kept w he c servers who N A hn hg _ t ((((Assemble.program_start w o ho c ts hs).2 i id l _ hl ht).2.1 t).1 rfl) hA) q ci hwho r

/-! ### A configuration: names under internal. go to the company's server, everything else to two public ones; guests, who come in at their own listener or from their own network, do not get to the company's -/

open _root_.Verif.Props.Assemble (toy toyEnv someOrder)

private def company : World Nat :=
  { toy with env := { toyEnv with compile := fun e => some fun n => decide (e <:+ n), parseCIDR := fun _ => some ([], ⟨[10, 9, 0, 0], 16⟩) } }

private def office : Cfg :=
  { resolvers := [(str "inner", { protocol := str "dot" }), (str "a", { protocol := str "dot" }), (str "b", { protocol := str "dot" })]
    groups := [(str "public", { type := str "fail-rotate", resolvers := [str "a", str "b"] }), (str "early", { type := str "prefetch", resolvers := [str "public"] }),
               (str "cache", { type := str "cache", resolvers := [str "names"] })]
    routers := [(str "names", [{ route := { name := str ".internal." }, resolver := str "inner" }, { resolver := str "public" }]),
                (str "guests", [{ route := { source := str "10.9.0.0/16" }, resolver := str "early" }, { resolver := str "cache" }])]
    listeners := [(str "l", { protocol := str "udp", resolver := str "guests" })] }

example : (start company someOrder office).map (·.map (·.isSome)) = some [true] := by decide +kernel

private theorem company_empty : EmptyMatches company.env := by
  intro f hf s
  obtain rfl := Option.some.inj hf
  exact decide_eq_true (List.nil_suffix)

/-- The public servers are not asked about internal names (except for the guests: so the listener is set to the cache). -/
private theorem office_names : KeepsNames company.env office (fun s => s = str "a" ∨ s = str "b") (fun n => str ".internal." <:+ n) (fun s => s ∈ [str "public", str "a", str "b"])
    (fun s => s ∈ [str "cache", str "names", str "inner"]) where
  resolver := by
    intro id r hA hr
    simp only [office, List.mem_cons, List.not_mem_nil, or_false, Prod.mk.injEq] at hA hr
    rcases hr with ⟨rfl, -⟩ | ⟨rfl, -⟩ | ⟨rfl, -⟩ <;> revert hA <;> decide
  bootstrap := by intro _ h; exact absurd rfl h
  group := by
    intro id g hA hg
    simp only [office, List.mem_cons, List.not_mem_nil, or_false, Prod.mk.injEq] at hA hg
    rcases hg with ⟨rfl, rfl⟩ | ⟨rfl, rfl⟩ | ⟨rfl, rfl⟩
    · exact absurd hA (by decide)
    · exact absurd hA (by decide)
    · refine ⟨?_, .inl ?_⟩
      · rintro (h | ⟨h, b, h', _⟩)
        · exact absurd h (by decide)
        · cases h'
      · rintro x (hx | ⟨h1, rfl | rfl | rfl | rfl⟩)
        · cases List.mem_singleton.1 hx
          decide
        all_goals exact absurd rfl h1
  router := by
    intro id rs hA hr
    simp only [office, List.mem_cons, List.not_mem_nil, or_false, Prod.mk.injEq] at hA hr
    rcases hr with ⟨rfl, rfl⟩ | ⟨rfl, rfl⟩
    · refine .inr ⟨⟨0, _, rfl, ⟨rfl, str ".internal.", _, rfl, rfl, fun n hn => decide_eq_true hn⟩, ?_⟩, ?_⟩
      · intro j x hj hx
        obtain rfl : j = 0 := by omega
        cases hx
        decide
      · intro r hr
        simp only [List.mem_cons, List.not_mem_nil, or_false] at hr
        rcases hr with rfl | rfl
        · exact .inr (by decide)
        · exact .inl (by decide)
    · exact absurd hA (by decide)
  behind := by
    intro id g hK hg
    simp only [office, List.mem_cons, List.not_mem_nil, or_false, Prod.mk.injEq] at hK hg
    rcases hg with ⟨rfl, rfl⟩ | ⟨rfl, rfl⟩ | ⟨rfl, rfl⟩ <;> rintro (h | ⟨h, b, h', _⟩) <;> first | exact absurd h (by decide) | cases h'

private theorem office_plain : Plain office (fun s => s ∈ [str "public", str "a", str "b"]) where
  group := by
    intro id g hK hg
    simp only [office, List.mem_cons, List.not_mem_nil, or_false, Prod.mk.injEq] at hK hg
    rcases hg with ⟨rfl, rfl⟩ | ⟨rfl, rfl⟩ | ⟨rfl, rfl⟩
    · refine ⟨by decide, ?_⟩
      rintro x (hx | ⟨h1, rfl | rfl | rfl | rfl⟩)
      · exact List.mem_cons_of_mem _ hx
      all_goals exact absurd rfl h1
    · exact absurd hK (by decide)
    · exact absurd hK (by decide)
  router := by
    intro id rs hK hr
    simp only [office, List.mem_cons, List.not_mem_nil, or_false, Prod.mk.injEq] at hK hr
    rcases hr with ⟨rfl, rfl⟩ | ⟨rfl, rfl⟩ <;> exact absurd hK (by decide)

example (t : Tree Nat) (h : Denotes company office (str "cache") t) : Apart (Numbered office fun s => s = str "a" ∨ s = str "b") (fun n => str ".internal." <:+ n) t :=
  names_kept company company_empty office _ _ _ _ office_plain office_names _ t h (by decide)

/-- From the section that asks by itself there is no way to the company's server. -/
private theorem office_away : Away office (· = str "inner") (fun s => s ∈ [str "public", str "a", str "b"]) where
  resolver := by
    intro id r hA hr
    simp only [List.mem_cons, List.not_mem_nil, or_false] at hA
    rcases hA with rfl | rfl | rfl <;> decide
  bootstrap := by intro _ h; exact absurd rfl h
  group := by
    intro id g hK hg
    refine ⟨?_, (office_plain.group id g hK hg).2⟩
    simp only [office, List.mem_cons, List.not_mem_nil, or_false, Prod.mk.injEq] at hK hg
    rcases hg with ⟨rfl, rfl⟩ | ⟨rfl, rfl⟩ | ⟨rfl, rfl⟩ <;> rintro (h | ⟨h, b, h', _⟩) <;> first | exact absurd h (by decide) | cases h'
  router := office_plain.router

private theorem office_clients : KeepsClients company.env office (· = str "inner") (fun ci => ∃ x y, ci.sourceIP = [10, 9, x, y]) (fun s => s ∈ [str "public", str "a", str "b"])
    (fun s => s ∈ [str "guests", str "early", str "public", str "a", str "b"]) where
  resolver := by
    intro id r hA hr
    simp only [List.mem_cons, List.not_mem_nil, or_false] at hA
    rcases hA with rfl | rfl | rfl | rfl | rfl <;> decide
  bootstrap := by intro _ h; exact absurd rfl h
  group := by
    intro id g hK hg
    simp only [office, List.mem_cons, List.not_mem_nil, or_false, Prod.mk.injEq] at hK hg
    rcases hg with ⟨rfl, rfl⟩ | ⟨rfl, rfl⟩ | ⟨rfl, rfl⟩
    · refine ⟨?_, ?_, fun h => absurd h (by decide)⟩
      · rintro (h | ⟨h, b, h', _⟩)
        · exact absurd h (by decide)
        · cases h'
      · rintro x (hx | ⟨h1, rfl | rfl | rfl | rfl⟩)
        · exact List.mem_cons_of_mem _ (List.mem_cons_of_mem _ (List.mem_cons_of_mem _ hx))
        all_goals exact absurd rfl h1
    · refine ⟨?_, ?_, ?_⟩
      · rintro (h | ⟨h, b, h', _⟩)
        · exact absurd h (by decide)
        · cases h'
      · rintro x (hx | ⟨h1, rfl | rfl | rfl | rfl⟩)
        · cases List.mem_singleton.1 hx
          decide
        all_goals exact absurd rfl h1
      · intro _ x hx
        cases List.mem_singleton.1 hx
        decide
    · exact absurd hK (by decide)
  router := by
    intro id rs hA hr
    simp only [office, List.mem_cons, List.not_mem_nil, or_false, Prod.mk.injEq] at hA hr
    rcases hr with ⟨rfl, rfl⟩ | ⟨rfl, rfl⟩
    · exact absurd hA (by decide)
    · refine .inr ⟨0, _, rfl, .source (e := str "10.9.0.0/16") (a := []) (net := ⟨[10, 9, 0, 0], 16⟩) rfl rfl (by decide) rfl (.inl rfl) ?_, ?_⟩
      · rintro ci ⟨x, y, h⟩
        rw [h]
        refine ⟨.inl rfl, ?_⟩
        exact (Props.Route.route_contains ⟨[10, 9, 0, 0], 16⟩ (.inl rfl) [10, 9, x, y] (.inr (.inl rfl))).1 (by simp [Route.contains, Net.to4, show Net.cidrMaskBytes 4 16 = [255, 255, 0, 0] from by decide])
      · intro j x hj hx
        obtain rfl : j = 0 := by omega
        cases hx
        decide

/-- So nothing that guests ask gets to the company's server. -/
example (o : Config.Orders) (ho : Spec.Config.AnyOrder o) (ts : List (Option (Tree Nat))) (hs : start company o office = some ts) (t : Tree Nat) (ht : ts[0]? = some (some t)) (q : Msg) (q' : Msg) (ci' : ClientInfo) :
    ¬ Asks t q { sourceIP := [10, 9, 3, 4] } (number office (str "inner")) q' ci' :=
  program_clients_apart company company_empty o ho office ts hs _ _ _ _ office_away office_clients 0 _ _ rfl (by decide) t ht q _ ⟨3, 4, rfl⟩ _ rfl q' ci'

end Verif.Props.SplitConfig
