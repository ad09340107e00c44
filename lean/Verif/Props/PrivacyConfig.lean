import Verif.Spec.PrivacyConfig
import Verif.Props.Privacy
import Verif.Props.Assemble
/-
C123: what servers get to know about clients, from the configuration file on.
-/
namespace Verif.Props.PrivacyConfig
open Verif Verif.Composition Verif.Asks Verif.Spec.Assemble Verif.Spec.Asks Verif.Spec.Privacy Verif.Spec.PrivacyConfig
open Verif.Assemble hiding Kind
variable {H : Type}

private theorem ne_of_some {x : Option (Tree H)} {s : Str} (h : x = none ↔ s = []) {t : Tree H} (ht : x = some t) : s ≠ [] := by
  intro e
  rw [h.2 e] at ht
  cases ht

/-- Each way in what a section stands for is one in the file. -/
theorem ways_of_file (w : World H) (c : Cfg) (id : Str) (t : Tree H) (h : Denotes w c id t) : ∀ ms i, Way t ms i → Path c id ms := by
  induction h with
  | resolver h1 => intro ms i hw; cases hw; exact .resolver h1
  | bootstrap h1 => intro ms i hw; cases hw; exact .bootstrap h1
  | @router id rs gr routes h1 h2 h3 h4 ih =>
    intro ms i hw
    cases hw with
    | router k hw =>
      unfold nth at hw
      cases hk : gr[k]? with
      | none => rw [hk] at hw; cases hw
      | some t =>
        rw [hk] at hw
        have hi : k < gr.length := (List.getElem?_eq_some_iff.1 hk).1
        rw [h2] at hi
        exact .router h1 (List.getElem_mem hi) (ih k _ t (List.getElem?_eq_getElem hi) hk ms i hw)
  | @group id g gr o b h1 h2 h3 a1 a2 b1 b2 l1 l2 r1 r2 hb ih ia ib il ir =>
    have hm : ∀ (k : Nat) (t : Tree H), gr[k]? = some t → ∀ ms i, Way t ms i → ∃ x ∈ g.resolvers, Path c x ms := by
      intro k t ht ms i hw
      have hi : k < gr.length := (List.getElem?_eq_some_iff.1 ht).1
      rw [h2] at hi
      exact ⟨_, List.getElem_mem hi, ih k _ t (List.getElem?_eq_getElem hi) ht ms i hw⟩
    have hn : ∀ {s : Str}, g.type = s → s ≠ str "ecs-modifier" → s ≠ str "edns0-modifier" → ∀ k ms i, Way (nth gr k) ms i → Path c id ms := by
      intro s e e1 e2 k ms i hw
      unfold nth at hw
      cases hk : gr[k]? with
      | none => rw [hk] at hw; cases hw
      | some t =>
        rw [hk] at hw
        obtain ⟨x, h4, h5⟩ := hm k t hk ms i hw
        exact .group h1 (e ▸ e1) (e ▸ e2) (.inl h4) h5
    have ho : ∀ {t : Tree H} {s : Str}, gr = [t] → g.type = s → s ≠ str "ecs-modifier" → s ≠ str "edns0-modifier" → ∀ {ms i}, Way t ms i → Path c id ms := by
      intro t s ht e e1 e2 ms i hw
      obtain ⟨x, h4, h5⟩ := hm 0 t (by rw [ht]; rfl) ms i hw
      exact .group h1 (e ▸ e1) (e ▸ e2) (.inl h4) h5
    have pa : ∀ {s : Str}, g.type = s → s ≠ str "ecs-modifier" → s ≠ str "edns0-modifier" → ∀ t, o.allow = some t → ∀ {ms i}, Way t ms i → Path c id ms :=
      fun {s} e e1 e2 t ht {ms i} hw => .group h1 (e ▸ e1) (e ▸ e2) (.inr <| ⟨ne_of_some a1 ht, .inl rfl⟩) (ia t ht ms i hw)
    have pb : ∀ {s : Str}, g.type = s → s ≠ str "ecs-modifier" → s ≠ str "edns0-modifier" → ∀ t, o.block = some t → ∀ {ms i}, Way t ms i → Path c id ms :=
      fun {s} e e1 e2 t ht {ms i} hw => .group h1 (e ▸ e1) (e ▸ e2) (.inr <| ⟨ne_of_some b1 ht, .inr (.inl rfl)⟩) (ib t ht ms i hw)
    have pl : ∀ {s : Str}, g.type = s → s ≠ str "ecs-modifier" → s ≠ str "edns0-modifier" → ∀ t, o.limit = some t → ∀ {ms i}, Way t ms i → Path c id ms :=
      fun {s} e e1 e2 t ht {ms i} hw => .group h1 (e ▸ e1) (e ▸ e2) (.inr <| ⟨ne_of_some l1 ht, .inr (.inr (.inl rfl))⟩) (il t ht ms i hw)
    have pr : ∀ {s : Str}, g.type = s → s ≠ str "ecs-modifier" → s ≠ str "edns0-modifier" → ∀ t, o.retry = some t → ∀ {ms i}, Way t ms i → Path c id ms :=
      fun {s} e e1 e2 t ht {ms i} hw => .group h1 (e ▸ e1) (e ▸ e2) (.inr <| ⟨ne_of_some r1 ht, .inr (.inr (.inr rfl))⟩) (ir t ht ms i hw)
    have ob : ∀ {s : Str}, g.type = s → s ≠ str "ecs-modifier" → s ≠ str "edns0-modifier" → ∀ {ms i}, Way (o.block.getD .drop) ms i → Path c id ms := by
      intro s e e1 e2 ms i hw
      cases hk : o.block with
      | none => rw [hk] at hw; cases hw
      | some t => rw [hk] at hw; exact pb e e1 e2 t hk hw
    intro ms i hw
    cases hb with
    | roundRobin h => cases hw with | roundRobin k hw => exact hn h (by decide) (by decide) k ms i hw
    | failRotate h => cases hw with | failRotate k hw => exact hn h (by decide) (by decide) k ms i hw
    | failBackEach h => cases hw with | failBackEach k hw => exact hn h (by decide) (by decide) k ms i hw
    | failBack h => cases hw with | failBack k hw => exact hn h (by decide) (by decide) k ms i hw
    | fastest h => cases hw with | fastest k hw => exact hn h (by decide) (by decide) k ms i hw
    | loadBalance h => cases hw with | loadBalance k hw => exact hn h (by decide) (by decide) k ms i hw
    | random h => cases hw with | random k hw => exact hn h (by decide) (by decide) k ms i hw
    | ttlModifier h ht => cases hw with | ttl hw => exact ho ht h (by decide) (by decide) hw
    | requestDedup h ht => cases hw with | dedup hw => exact ho ht h (by decide) (by decide) hw
    | fastestTcp h ht => cases hw with | fastestTcp hw => exact ho ht h (by decide) (by decide) hw
    | ecsModifier h ht hop =>
      cases hw with
      | modify hw =>
        obtain ⟨x, h4, h5⟩ := hm 0 _ (by rw [ht]; rfl) _ i hw
        exact .modifier h1 (.ecs h hop) h4 h5
    | edns0Modifier h ht hop =>
      cases hw with
      | modify hw =>
        obtain ⟨x, h4, h5⟩ := hm 0 _ (by rw [ht]; rfl) _ i hw
        exact .modifier h1 (.edns0 h hop) h4 h5
    | syslog h ht => cases hw with | syslog hw => exact ho ht h (by decide) (by decide) hw
    | cache h ht => cases hw with | cache hw => exact ho ht h (by decide) (by decide) hw
    | minimize h ht => cases hw with | minimize hw => exact ho ht h (by decide) (by decide) hw
    | collapse h ht => cases hw with | collapse hw => exact ho ht h (by decide) (by decide) hw
    | queryLog h ht => cases hw with | queryLog hw => exact ho ht h (by decide) (by decide) hw
    | dns64 h ht => cases hw with | dns64 hw => exact ho ht h (by decide) (by decide) hw
    | blocklist h ht =>
      cases hw with
      | blocklist hw => exact ho ht h (by decide) (by decide) hw
      | blocklistAllow hw => exact ho ht h (by decide) (by decide) hw
      | blocklistBlock hw => cases hw
    | blocklistV2 h ht =>
      cases hw with
      | blocklist hw => exact ho ht h (by decide) (by decide) hw
      | blocklistAllow hw =>
        cases hk : o.allow with
        | none => rw [hk] at hw; exact ho ht h (by decide) (by decide) hw
        | some t => rw [hk] at hw; exact pa h (by decide) (by decide) t hk hw
      | blocklistBlock hw => exact ob h (by decide) (by decide) hw
    | truncateRetry h ht hr =>
      cases hw with
      | truncate hw => exact ho ht h (by decide) (by decide) hw
      | retry hw => exact pr h (by decide) (by decide) _ hr hw
    | responseIp h ht =>
      cases hw with
      | responseIp hw => rcases h with h | h <;> exact ho ht h (by decide) (by decide) hw
      | responseIpBlock hw => rcases h with h | h <;> exact ob h (by decide) (by decide) hw
    | responseName h ht =>
      cases hw with
      | responseName hw => exact ho ht h (by decide) (by decide) hw
      | responseNameBlock hw => exact ob h (by decide) (by decide) hw
    | clientBlocklist h ht =>
      cases hw with
      | clientBlocklist hw => exact ho ht h (by decide) (by decide) hw
      | clientBlocklistBlock hw => exact ob h (by decide) (by decide) hw
    | rateLimiter h ht hl' =>
      cases hw with
      | rateLimit hw => exact ho ht h (by decide) (by decide) hw
      | rateLimitOver hw => exact pl h (by decide) (by decide) _ hl' hw
    | rateLimiterDrop h ht =>
      cases hw with
      | rateLimit hw => exact ho ht h (by decide) (by decide) hw
      | rateLimitOver hw => cases hw
    | replace h ht => cases hw with | replace hw => exact ho ht h (by decide) (by decide) hw
    | prefetch h ht => cases hw with | prefetch hw => exact ho ht h (by decide) (by decide) hw
    | dnssec h ht => cases hw with | dnssec hw => exact ho ht h (by decide) (by decide) hw
    | redis h ht _ _ hbk hbt => cases hw; exact .closed h1 (.inr ⟨h, _, hbk, hbt⟩)
    | lua h => cases hw; exact .closed h1 (.inl h)
    | staticResponder h => cases hw
    | staticTemplate h => cases hw
    | drop h => cases hw

/-- C123: of queries that come in at a listener of a program that was started with this file, servers (and scripts and Redis caches) only get good options, if on each way in the file a modifier enforces
this and those after it respect it. -/
theorem program_options (w : World H) (o : Config.Orders) (ho : Spec.Config.AnyOrder o) (c : Cfg) (ts : List (Option (Tree H))) (hs : start w o c = some ts) (good : EOpt → Prop) (i : Nat) (id : Str) (l : Listener)
    (t : Tree H) (hi : c.listeners[i]? = some (id, l)) (ht : ts[i]? = some (some t)) (Q : Msg → ClientInfo → Prop) (hone : ∀ q ci, Q q ci → OneOpt q) (hp : ∀ ms, Path c l.resolver ms → Guard good ms)
    (k : Nat) (q : Msg) (ci : ClientInfo) (h : Gets t Q (.client k) q ci) : Only good q := by
  obtain ⟨_, h2, _⟩ := (Props.Assemble.program_start w o ho c ts hs).2 i id l (some t) hi ht
  exact Privacy.only_good_options good t Q hone (fun ms i hw => .inl (hp ms (ways_of_file w c _ t ((h2 t).1 rfl) ms i hw))) k q ci h

/-- C123: if on each way in the file there is a section that deletes client subnets, and none after it that adds any, no server gets any. -/
theorem program_no_subnet (w : World H) (o : Config.Orders) (ho : Spec.Config.AnyOrder o) (c : Cfg) (ts : List (Option (Tree H))) (hs : start w o c = some ts) (i : Nat) (id : Str) (l : Listener)
    (t : Tree H) (hi : c.listeners[i]? = some (id, l)) (ht : ts[i]? = some (some t)) (Q : Msg → ClientInfo → Prop) (hone : ∀ q ci, Q q ci → OneOpt q)
    (hp : ∀ ms, Path c l.resolver ms → ∃ pre post, ms = pre ++ .ecsDelete :: post ∧ ∀ a p4 p6, .ecsAdd a p4 p6 ∉ post ∧ .ecsAddIfMissing a p4 p6 ∉ post)
    (k : Nat) (q : Msg) (ci : ClientInfo) (h : Gets t Q (.client k) q ci) (x : EOpt) (hx : Carries q x) : ¬ Spec.Modifiers.IsSubnet x := by
  obtain ⟨_, h2, _⟩ := (Props.Assemble.program_start w o ho c ts hs).2 i id l (some t) hi ht
  exact Privacy.no_client_subnet t Q hone (fun ms i hw => hp ms (ways_of_file w c _ t ((h2 t).1 rfl) ms i hw)) k q ci h x hx

/-- C123: if there is one that shortens them, with lengths up to those of addresses, and none after it that adds or shortens any, servers only get short ones. -/
theorem program_coarse (w : World H) (o : Config.Orders) (ho : Spec.Config.AnyOrder o) (c : Cfg) (ts : List (Option (Tree H))) (hs : start w o c = some ts) (i : Nat) (id : Str) (l : Listener)
    (t : Tree H) (hi : c.listeners[i]? = some (id, l)) (ht : ts[i]? = some (some t)) (Q : Msg → ClientInfo → Prop) (hone : ∀ q ci, Q q ci → OneOpt q) (p4 p6 : Nat) (h4 : p4 ≤ 32) (h6 : p6 ≤ 128)
    (hp : ∀ ms, Path c l.resolver ms → ∃ pre post, ms = pre ++ .ecsPrivacy p4 p6 :: post ∧ ∀ x n4 n6, .ecsAdd x n4 n6 ∉ post ∧ .ecsAddIfMissing x n4 n6 ∉ post ∧ .ecsPrivacy n4 n6 ∉ post)
    (k : Nat) (q : Msg) (ci : ClientInfo) (h : Gets t Q (.client k) q ci) (x : EOpt) (hx : Carries q x) : Coarse p4 p6 x := by
  obtain ⟨_, h2, _⟩ := (Props.Assemble.program_start w o ho c ts hs).2 i id l (some t) hi ht
  exact Privacy.only_coarse_subnets p4 p6 h4 h6 t Q hone (fun ms i hw => hp ms (ways_of_file w c _ t ((h2 t).1 rfl) ms i hw)) k q ci h x hx

/-- C123: if there is one that puts the subnet of a configured address in place of any other, servers get no other. -/
theorem program_configured_subnet (w : World H) (o : Config.Orders) (ho : Spec.Config.AnyOrder o) (c : Cfg) (ts : List (Option (Tree H))) (hs : start w o c = some ts) (i : Nat) (id : Str) (l : Listener)
    (t : Tree H) (hi : c.listeners[i]? = some (id, l)) (ht : ts[i]? = some (some t)) (Q : Msg → ClientInfo → Prop) (hone : ∀ q ci, Q q ci → OneOpt q) (a : Str) (p4 p6 : Nat)
    (ha : a.length = 4 ∨ a.length = 16) (h4 : p4 ≤ 32) (h6 : p6 ≤ 128)
    (hp : ∀ ms, Path c l.resolver ms → ∃ pre post, ms = pre ++ .ecsAdd a p4 p6 :: post ∧ ∀ x n4 n6, .ecsAdd x n4 n6 ∉ post ∧ .ecsAddIfMissing x n4 n6 ∉ post ∧ .ecsPrivacy n4 n6 ∉ post)
    (k : Nat) (q : Msg) (ci : ClientInfo) (h : Gets t Q (.client k) q ci) (x : EOpt) (hx : Carries q x) (hsub : Spec.Modifiers.IsSubnet x) : Spec.Modifiers.SubnetOf a p4 p6 x := by
  obtain ⟨_, h2, _⟩ := (Props.Assemble.program_start w o ho c ts hs).2 i id l (some t) hi ht
  exact Privacy.only_configured_subnet a p4 p6 ha h4 h6 t Q hone (fun ms i hw => hp ms (ways_of_file w c _ t ((h2 t).1 rfl) ms i hw)) k q ci h x hx hsub

/-- C123: if there is one that deletes a kind of options (other than client subnets), and none after it that adds any, no server gets any. -/
theorem program_no_option (w : World H) (o : Config.Orders) (ho : Spec.Config.AnyOrder o) (c : Cfg) (ts : List (Option (Tree H))) (hs : start w o c = some ts) (i : Nat) (id : Str) (l : Listener)
    (t : Tree H) (hi : c.listeners[i]? = some (id, l)) (ht : ts[i]? = some (some t)) (Q : Msg → ClientInfo → Prop) (hone : ∀ q ci, Q q ci → OneOpt q) (code : Nat) (hc : code ≠ 8)
    (hp : ∀ ms, Path c l.resolver ms → ∃ pre post, ms = pre ++ .edns0Delete code :: post ∧ ∀ d, .edns0Add code d ∉ post)
    (k : Nat) (q : Msg) (ci : ClientInfo) (h : Gets t Q (.client k) q ci) (x : EOpt) (hx : Carries q x) : x.code ≠ code := by
  obtain ⟨_, h2, _⟩ := (Props.Assemble.program_start w o ho c ts hs).2 i id l (some t) hi ht
  exact Privacy.no_option code hc t Q hone (fun ms i hw => hp ms (ways_of_file w c _ t ((h2 t).1 rfl) ms i hw)) k q ci h x hx

/-! ### A configuration: client subnets are deleted, behind a cache and before two servers with fail-over -/

open Props.Assemble

private def anonymous : Cfg :=
  { resolvers := [(str "a", { protocol := str "dot" }), (str "b", { protocol := str "dot" })]
    groups := [(str "pair", { type := str "fail-rotate", resolvers := [str "a", str "b"] }),
               (str "anon", { type := str "ecs-modifier", resolvers := [str "pair"], ecsOp := str "delete" }),
               (str "cache", { type := str "cache", resolvers := [str "anon"] })]
    listeners := [(str "l", { protocol := str "udp", resolver := str "cache" })] }

example : (start toy someOrder anonymous).map (·.map (·.isSome)) = some [true] := by decide +kernel

private theorem anonymous_path (ms : List Modifier) (h : Path anonymous (str "cache") ms) : ms = [.ecsDelete] := by
  have hp : ∀ x ms, Path anonymous x ms → (x = str "a" → ms = []) ∧ (x = str "b" → ms = []) ∧ (x = str "pair" → ms = []) ∧ (x = str "anon" → ms = [.ecsDelete]) ∧ (x = str "cache" → ms = [.ecsDelete]) := by
    intro x ms h
    induction h with
    | resolver h =>
      simp only [anonymous, List.mem_cons, List.not_mem_nil, or_false, Prod.mk.injEq] at h
      rcases h with ⟨rfl, -⟩ | ⟨rfl, -⟩ <;> exact ⟨fun _ => rfl, fun _ => rfl, fun h => absurd h (by decide), fun h => absurd h (by decide), fun h => absurd h (by decide)⟩
    | bootstrap h => cases h
    | closed h ho =>
      simp only [anonymous, List.mem_cons, List.not_mem_nil, or_false, Prod.mk.injEq] at h
      rcases h with ⟨rfl, rfl⟩ | ⟨rfl, rfl⟩ | ⟨rfl, rfl⟩ <;> rcases ho with h | ⟨h, b, h', _⟩ <;> first | exact absurd h (by decide) | cases h'
    | modifier h hm hx _ ih =>
      simp only [anonymous, List.mem_cons, List.not_mem_nil, or_false, Prod.mk.injEq] at h
      rcases h with ⟨rfl, rfl⟩ | ⟨rfl, rfl⟩ | ⟨rfl, rfl⟩
      · cases hm <;> rename_i h _ <;> exact absurd h (by decide)
      · cases List.mem_singleton.1 hx
        rw [ih.2.2.1 rfl]
        cases hm with
        | ecs _ h => cases h <;> rename_i h <;> first | exact absurd h (by decide) | exact ⟨fun h => absurd h (by decide), fun h => absurd h (by decide), fun h => absurd h (by decide), fun _ => rfl, fun _ => rfl⟩
        | edns0 h _ => exact absurd h (by decide)
      · cases hm <;> rename_i h _ <;> exact absurd h (by decide)
    | group h h1 h2 hx _ ih =>
      simp only [anonymous, List.mem_cons, List.not_mem_nil, or_false, Prod.mk.injEq] at h
      rcases h with ⟨rfl, rfl⟩ | ⟨rfl, rfl⟩ | ⟨rfl, rfl⟩
      · refine ⟨fun h => absurd h (by decide), fun h => absurd h (by decide), fun _ => ?_, fun h => absurd h (by decide), fun h => absurd h (by decide)⟩
        rcases hx with hx | ⟨h1, rfl | rfl | rfl | rfl⟩
        · simp only [List.mem_cons, List.not_mem_nil, or_false] at hx
          rcases hx with rfl | rfl
          · exact ih.1 rfl
          · exact ih.2.1 rfl
        all_goals exact absurd rfl h1
      · exact absurd rfl h1
      · refine ⟨fun h => absurd h (by decide), fun h => absurd h (by decide), fun h => absurd h (by decide), fun h => absurd h (by decide), fun _ => ?_⟩
        rcases hx with hx | ⟨h1, rfl | rfl | rfl | rfl⟩
        · cases List.mem_singleton.1 hx
          exact ih.2.2.2.1 rfl
        all_goals exact absurd rfl h1
    | router h => cases h
  exact (hp _ _ h).2.2.2.2 rfl

/-- There is such a way. -/
example : Path anonymous (str "cache") [.ecsDelete] :=
  .group (g := { type := str "cache", resolvers := [str "anon"] }) (by simp [anonymous]) (by decide) (by decide) (.inl (List.mem_singleton.2 rfl))
    (.modifier (g := { type := str "ecs-modifier", resolvers := [str "pair"], ecsOp := str "delete" }) (by simp [anonymous]) (.ecs rfl (.delete rfl)) (List.mem_singleton.2 rfl)
      (.group (g := { type := str "fail-rotate", resolvers := [str "a", str "b"] }) (by simp [anonymous]) (by decide) (by decide) (.inl (by simp : str "b" ∈ _))
        (.resolver (r := { protocol := str "dot" }) (by simp [anonymous]))))

/-- So with this file, whatever queries come in (with one OPT record at most), the two servers get no client subnet. -/
example (o : Config.Orders) (ho : Spec.Config.AnyOrder o) (ts : List (Option (Tree _))) (hs : start toy o anonymous = some ts) (t : Tree _) (ht : ts[0]? = some (some t)) (k : Nat) (q : Msg) (ci : ClientInfo)
    (h : Gets t (fun q _ => OneOpt q) (.client k) q ci) (x : EOpt) (hx : Carries q x) : ¬ Spec.Modifiers.IsSubnet x :=
  program_no_subnet toy o ho anonymous ts hs 0 _ _ t rfl ht _ (fun _ _ h => h)
    (fun ms hm => ⟨[], [], anonymous_path ms hm, fun _ _ _ => ⟨List.not_mem_nil, List.not_mem_nil⟩⟩) k q ci h x hx

end Verif.Props.PrivacyConfig
