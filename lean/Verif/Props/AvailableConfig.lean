import Verif.Spec.AvailableConfig
import Verif.Props.Available
import Verif.Props.History
import Verif.Props.Assemble
import Verif.Props.Listeners
/-
C118: availability, from the configuration file to what listeners send.
-/
namespace Verif.Props.AvailableConfig
open Verif Verif.Composition Verif.Available Verif.Spec.Assemble
open Verif.Assemble hiding Kind
variable {H : Type}

/-! ### Groups -/

private theorem success_ok {g : Group} (he : g.emptyError = false) (r : Res) : Counts g r = true ↔ Success g (kind r) := by
  obtain ⟨m, e⟩ := r
  unfold Counts Verif.Group.succeeded Verif.Group.isSuccessResponse kind
  cases e with
  | some e => simp [Success]
  | none =>
    cases m with
    | none => simp [Success]
    | some a =>
      simp only [he, Option.isNone_none, Bool.true_and, Success, rcodeServerFailure, rcodeRefused, rcodeNotImplemented]
      cases g.servfailError <;> simp <;> grind

private theorem ok_drop (g : Group) : Counts g .drop = true := by
  simp [Counts, Verif.Group.succeeded, Verif.Group.isSuccessResponse, Res.drop]

private theorem nth_get {gr : List (Tree H)} {m : Nat} (h : m < gr.length) : gr[m]? = some (nth gr m) := by
  unfold nth
  rw [List.getElem?_eq_getElem h]

/-- Servers by number -/
private abbrev byNumber (c : Cfg) (S : Str → Kind → Prop) : Nat → Kind → Prop := fun n k => ∀ id, number c id = n → S id k

local macro "other" h:ident hty:ident : tactic =>
  `(tactic| first
    | exact absurd $hty (by rw [$h:ident]; decide)
    | (rcases $h:ident with h | h <;> exact absurd $hty (by rw [h]; decide)))

/-- A group keeps its promise, if the elements it refers to keep theirs. -/
theorem group_promised (env : Env H) (hl : CodesKept env) (S : Nat → Kind → Prop) (R : Str → (Kind → Prop) → Prop) (own : Kind → Prop) (num : Nat) (hn : ∀ k, S num k → own k) (id : Str) (g : Group)
    (gr : List (Tree H)) (o : Opts H) (b : Built H) (hb : Means env num id g gr o b) (P : Kind → Prop) (hp : GroupPromise R own g P) (hlen : gr.length = g.resolvers.length)
    (hm : ∀ (i : Nat) (x : Str) (t : Tree H), g.resolvers[i]? = some x → gr[i]? = some t → ∀ Q, R x Q → Serves S Q t)
    (a1 : o.allow = none ↔ g.allowListResolver = []) (ha : ∀ t, o.allow = some t → ∀ Q, R g.allowListResolver Q → Serves S Q t)
    (b1 : o.block = none ↔ g.blockListResolver = []) (hbl : ∀ t, o.block = some t → ∀ Q, R g.blockListResolver Q → Serves S Q t)
    (l1 : o.limit = none ↔ g.limitResolver = []) (hli : ∀ t, o.limit = some t → ∀ Q, R g.limitResolver Q → Serves S Q t)
    (hre : ∀ t, o.retry = some t → ∀ Q, R g.retryResolver Q → Serves S Q t) : Serves S P b.tree := by
  have hall : (∀ x ∈ g.resolvers, R x P) → ∀ m, m < gr.length → Serves S P (nth gr m) := by
    intro h m hi
    have hi' : m < g.resolvers.length := hlen ▸ hi
    exact hm m _ _ (List.getElem?_eq_getElem hi') (nth_get hi) P (h _ (List.getElem_mem hi'))
  have ho : (∀ x ∈ g.resolvers, R x P) → ∀ {t}, gr = [t] → Serves S P t := by
    intro h t ht
    subst ht
    exact hall h 0 (by simp)
  have hone : ∀ {x Q}, x ∈ g.resolvers → R x Q → ∃ m, m < gr.length ∧ Serves S Q (nth gr m) := by
    intro x Q hx hr
    obtain ⟨m, hi, rfl⟩ := List.getElem_of_mem hx
    have hi' : m < gr.length := hlen ▸ hi
    exact ⟨m, hi', hm m _ _ (List.getElem?_eq_getElem hi) (nth_get hi') Q hr⟩
  have hpos : g.resolvers ≠ [] → 0 < gr.length := by
    intro h
    rw [hlen]
    exact List.length_pos_iff.2 h
  have hblock : (g.blockListResolver ≠ [] → R g.blockListResolver P) → ∀ t, o.block = some t → Serves S P t := by
    intro h t ht
    refine hbl t ht P (h fun h0 => ?_)
    rw [b1.2 h0] at ht
    cases ht
  cases hp with
  | passes hty hx => cases hb with
    | ttlModifier h ht => exact .ttl (ho hx ht)
    | minimize h ht => exact .minimize (ho hx ht)
    | ecsModifier h ht => exact .modify (ho hx ht)
    | edns0Modifier h ht => exact .modify (ho hx ht)
    | syslog h ht => exact .syslog (ho hx ht)
    | queryLog h ht => exact .queryLog (ho hx ht)
    | dns64 h ht => exact .dns64 (ho hx ht)
    | replace h ht => exact .replace (ho hx ht)
    | requestDedup h ht => exact .dedup (ho hx ht)
    | fastestTcp h ht => exact .fastestTcp (ho hx ht)
    | prefetch h ht => exact .prefetch (ho hx ht)
    | _ h => other h hty
  | @one Q x hty he hx hr h1 h2 =>
    have k1 : ∀ r, Q (kind r) → Counts g r = true := fun r h => (success_ok he r).2 (h1 _ h)
    have k2 : ∀ r, Counts g r = true → P (kind r) := fun r h => h2 _ ((success_ok he r).1 h)
    obtain ⟨m, hm1, hm2⟩ := hone hx hr
    have hty' : g.type ∈ [str "fail-rotate", str "random", str "load-balance", str "fail-back"] := by
      rcases hty with h | ⟨h, _⟩
      · exact List.mem_of_mem_take (i := 3) h
      · rw [h]; decide
    cases hb with
    | failRotate h => exact .failRotate hm1 hm2 k1 k2
    | random h => exact .random hm1 hm2 k1 k2
    | loadBalance h => exact .loadBalance hm1 hm2 k1 k2
    | failBackEach h h0 => exact .failBackEach hm1 hm2 k1 k2
    | failBack h h0 =>
      rcases hty with h' | ⟨_, h' | h'⟩
      · rw [h] at h'
        exact absurd h' (by decide)
      · exact absurd h' h0
      · have hg : g.resolvers[0]? = some x := by rw [← List.head?_eq_getElem?]; exact h'
        have hi : 0 < gr.length := by rw [hlen]; exact (List.getElem?_eq_some_iff.1 hg).1
        exact .failBack hi (hm 0 x _ hg (nth_get hi) Q hr) k1 k2
    | _ h => other h hty'
  | @fastest Q x hty hx hr h1 h2 h3 =>
    obtain ⟨m, hm1, hm2⟩ := hone hx hr
    cases hb with
    | fastest h => exact .fastest hm1 hm2 h1 h2 h3
    | _ h => other h hty
  | all hty hx =>
    have hty' : g.type ∈ [str "round-robin", str "fastest", str "fail-rotate", str "fail-back", str "random", str "load-balance"] := by
      rcases hty with h | ⟨h, _⟩ | ⟨h, _⟩ | ⟨h, _⟩
      · exact List.mem_of_mem_take (i := 2) h
      · exact List.mem_of_mem_drop (i := 2) (List.mem_of_mem_take (i := 2) h)
      · rw [h]; decide
      · rw [h]; decide
    have hne : g.type ∈ [str "fail-rotate", str "fail-back", str "load-balance"] → 0 < gr.length := by
      intro h
      rcases hty with h' | ⟨_, h'⟩ | ⟨h', _⟩ | ⟨_, h'⟩
      · simp only [List.mem_cons, List.not_mem_nil, or_false] at h'
        rcases h' with h' | h' <;> rw [h'] at h <;> exact absurd h (by decide)
      · exact hpos h'
      · rw [h'] at h
        exact absurd h (by decide)
      · exact hpos h'
    cases hb with
    | roundRobin h => exact .roundRobin (hall hx)
    | fastest h => exact .fastestAll (hall hx)
    | failRotate h => exact .failRotateAll (hne (by rw [h]; decide)) (hall hx)
    | failBack h => exact .failBackAll (hne (by rw [h]; decide)) (hall hx)
    | failBackEach h => exact .failBackEachAll (hne (by rw [h]; decide)) (hall hx)
    | random h =>
      refine .randomAll (hall hx) ?_
      rcases hty with h' | ⟨h', _⟩ | ⟨_, h'⟩ | ⟨h', _⟩
      · exact absurd h' (by rw [h]; decide)
      · exact absurd h' (by rw [h]; decide)
      · exact h'
      · exact absurd h' (by rw [h]; decide)
    | loadBalance h => exact .loadBalanceAll (hne (by rw [h]; decide)) (hall hx) (ok_drop g)
    | _ h => other h hty'
  | truncateRetry hty hx hr => cases hb with
    | truncateRetry h ht h2 => exact .truncateRetry (ho hx ht) (hre _ h2 P hr)
    | _ h => other h hty
  | blocklist hty hx h0 h3 => cases hb with
    | blocklist h ht =>
      refine .blocklist (ho hx ht) (fun _ _ _ => ho hx ht) (fun opt ho' hb => ?_) h0 (fun _ _ _ => h3)
      exact absurd rfl (ho'.block.1 hb)
    | _ h => other h hty
  | blocklistV2 hty hx hal hbl' h0 h3 => cases hb with
    | blocklistV2 h ht =>
      refine .blocklist (ho hx ht) (fun opt ho' hb => ?_) (fun opt ho' hb => ?_) h0 (fun opt ho' hb => ?_)
      · cases hoa : o.allow with
        | none => exact absurd hoa (ho'.allow.1 hb)
        | some t => exact ha t hoa P (hal fun h0 => by rw [a1.2 h0] at hoa; cases hoa)
      · cases hob : o.block with
        | none => exact absurd hob (ho'.block.1 hb)
        | some t => exact hblock hbl' t hob
      · refine h3 (b1.1 ?_)
        cases hob : o.block with
        | none => rfl
        | some t =>
          rw [ho'.block.2 (by rw [hob]; simp)] at hb
          cases hb
    | _ h => other h hty
  | response hty hx hbl' h3 => cases hb with
    | responseIp h ht =>
      refine .responseIp (ho hx ht) (fun opt ho' hb => ?_) (fun opt ho' hb => ?_)
      · cases hob : o.block with
        | none => exact absurd hob (ho'.block.1 hb)
        | some t => exact hblock hbl' t hob
      · refine h3 (b1.1 ?_)
        cases hob : o.block with
        | none => rfl
        | some t =>
          rw [ho'.block.2 (by rw [hob]; simp)] at hb
          cases hb
    | responseName h ht =>
      refine .responseName (ho hx ht) (fun opt ho' hb => ?_) (fun opt ho' hb => ?_)
      · cases hob : o.block with
        | none => exact absurd hob (ho'.block.1 hb)
        | some t => exact hblock hbl' t hob
      · refine h3 (b1.1 ?_)
        cases hob : o.block with
        | none => rfl
        | some t =>
          rw [ho'.block.2 (by rw [hob]; simp)] at hb
          cases hb
    | _ h => other h hty
  | client hty hx hbl' h5 => cases hb with
    | clientBlocklist h ht =>
      refine .clientBlocklist (ho hx ht) (fun e db ho' => ?_) (fun e db ho' => ?_)
      · cases hob : o.block with
        | none => exact absurd hob (ho'.block.1 rfl)
        | some t => exact hblock hbl' t hob
      · refine h5 (b1.1 ?_)
        cases hob : o.block with
        | none => rfl
        | some t =>
          have := ho'.block.2 (by rw [hob]; simp)
          cases this
    | _ h => other h hty
  | collapse hty hx h0 => cases hb with
    | collapse h ht => exact .collapse (ho hx ht) h0
    | _ h => other h hty
  | rateLimiter hty hx hl1 hl2 => cases hb with
    | rateLimiter h ht hlim => exact .rateLimit (ho hx ht) (hli _ hlim P (hl1 fun h0 => by rw [l1.2 h0] at hlim; cases hlim))
    | rateLimiterDrop h ht hlim => exact .rateDrop (ho hx ht) (hl2 (l1.1 hlim))
    | _ h => other h hty
  | static hty h0 => cases hb with
    | staticResponder h => exact .static h0
    | staticTemplate h => exact .template h0
    | _ h => other h hty
  | drop hty h0 => cases hb with
    | drop h => exact .drop h0
    | _ h => other h hty
  | cache hty hback hneg hfl hx => cases hb with
    | cache h ht hsh hco hop hsz =>
      refine .cache (ho hx ht) ?_ hl.text ?_ hl.codec ?_
      · rw [hop.negative]
        split <;> omega
      · rw [hop.shuffle]
        rintro f rfl
        generalize g.cacheAnswerShuffle = x at hsh
        cases hsh
        · exact hl.random
        · exact hl.roundRobin
      · rw [hop.flush]
        exact hfl
    | redis h ht hsh hco hb1 hb2 =>
      have := hback _ hb1
      rw [hb2] at this
      exact absurd this (by decide)
    | _ h => other h hty
  | dnssec hty hx h2 => cases hb with
    | dnssec h ht => exact .dnssec (ho hx ht) h2
    | _ h => other h hty
  | script hty hown =>
    have hty' : g.type ∈ [str "lua", str "cache"] := by
      rcases hty with h | ⟨h, _⟩ <;> rw [h] <;> decide
    cases hb with
    | lua h => exact .client fun k hk => hown k (hn k hk)
    | redis h => exact .client fun k hk => hown k (hn k hk)
    | cache h ht hsh hco hop hsz =>
      rcases hty with h' | ⟨_, b, hb1, hb2⟩
      · rw [h] at h'
        exact absurd h' (by decide)
      · rcases hsz with ⟨h', _⟩ | ⟨b', h', h'', _⟩
        · rw [hb1] at h'
          cases h'
        · rw [hb1] at h'
          cases h'
          rw [hb2] at h''
          exact absurd h'' (by decide)
    | _ h => other h hty'

/-! ### Routers -/

private theorem catch_all {table : List (Nat × Str)} {compile : Str → Option (Str → Bool)} {parseCIDR : Str → Option (Str × Cidr.IPNet)} (he : ∀ f, compile [] = some f → ∀ s, f s = true)
    {r : Route.Route} (h : Route.newRoute table compile parseCIDR {} = some r) (q : Msg) (qu : Question) (ci : ClientInfo) (now : Route.Now) : Route.matches' r q qu ci now = true := by
  unfold Route.newRoute at h
  simp only [Route.stringToType, Route.stringsToWeekdays, Option.bind_eq_bind, Option.bind_some, Option.pure_def, Route.parseNet, if_true, Option.bind_eq_some_iff, Option.some.injEq] at h
  obtain ⟨b, hb, a, ha, cl, hcl, re, h1, d, h2, li, h3, tl, h4, h5⟩ := h
  cases hb
  cases ha
  cases hcl
  subst h5
  simp [Route.matches', he _ h1, he _ h2, he _ h3, he _ h4]

private theorem each_mem {α β : Type} {R : α → β → Prop} {as : List α} {bs : List β} (h : Each R as bs) {a : α} (ha : a ∈ as) : ∃ b, b ∈ bs ∧ R a b := by
  induction h with
  | nil => cases ha
  | cons h1 _ ih =>
    rcases List.mem_cons.1 ha with rfl | ha
    · exact ⟨_, List.mem_cons_self .., h1⟩
    · obtain ⟨b, hb, hr⟩ := ih ha
      exact ⟨b, List.mem_cons_of_mem _ hb, hr⟩

private theorem each_length {α β : Type} {R : α → β → Prop} {as : List α} {bs : List β} (h : Each R as bs) : as.length = bs.length := by
  induction h with
  | nil => rfl
  | cons _ _ ih => simp [ih]

/-! ### Configurations -/

/-- Every element of a configuration keeps the promise of its section. -/
theorem config_promised (w : World H) (hl : CodesKept w.env) (c : Cfg) (S : Str → Kind → Prop) (R : Str → (Kind → Prop) → Prop) (hp : Promises c S R) (id : Str) (t : Tree H) (h : Denotes w c id t)
    (P : Kind → Prop) (hR : R id P) : Serves (byNumber c S) P t := by
  induction h generalizing P with
  | resolver h1 => exact .client fun k hk => hp.resolver _ P hR _ h1 k (hk _ rfl)
  | bootstrap h1 => exact .client fun k hk => hp.bootstrap P hR (by rw [h1]; simp) k (hk _ rfl)
  | @router id rs gr routes h1 h2 h3 h4 ih =>
    obtain ⟨k1, k2⟩ := hp.router _ P hR _ h1
    refine .router (fun m hm => ?_) (k2.imp_right ?_)
    · have hm' : m < rs.length := each_length h4 ▸ hm
      exact ih m _ _ (List.getElem?_eq_getElem hm') (nth_get (h2 ▸ hm')) P (k1 _ (List.getElem_mem hm'))
    · rintro ⟨r, hr, hc1, hc2⟩
      obtain ⟨x, hx, hnew⟩ := each_mem h4 hr
      rw [if_pos hc1, hc2] at hnew
      exact ⟨x, hx, catch_all hl.empty hnew⟩
  | @group id g gr o b h1 h2 h3 a1 a2 b1 b2 l1 l2 r1 r2 hb ih ia ib il ir =>
    exact group_promised w.env hl (byNumber c S) R (S id) (number c id) (fun k hk => hk _ rfl) id g gr o b hb P (hp.group _ P hR _ h1) h2 (fun i x t hx ht Q hQ => ih i x t hx ht Q hQ)
      a1 (fun t ht Q hQ => ia t ht Q hQ) b1 (fun t ht Q hQ => ib t ht Q hQ) l1 (fun t ht Q hQ => il t ht Q hQ) (fun t ht Q hQ => ir t ht Q hQ)

/-! ### The program -/

private theorem shown_code {lib : Listeners.Lib} {small : Msg → Nat → Prop} (hl : Spec.Listeners.Truncates lib small) {t : Spec.Listeners.Transport} {q a : Msg} {w : Listeners.Wire}
    (h : Spec.Listeners.Shown lib t q a w) : ∃ m, w = .reply m ∧ m.rcode = a.rcode := by
  obtain ⟨b, h1, h2⟩ := h
  have hb : b.rcode = a.rcode := by rcases h1 with rfl | ⟨e, os, _, ⟨pre, r, post, _, _, _, rfl⟩, _⟩ | ⟨e, ⟨_, rfl⟩, _⟩ <;> rfl
  cases t with
  | udp v => exact ⟨_, h2.2, (hl.cut b _).rcode.trans hb⟩
  | tcp v => exact ⟨_, h2.2, hb⟩
  | dot => exact ⟨_, h2, hb⟩
  | dtls => exact ⟨_, h2, (hl.cut b _).rcode.trans hb⟩

/-- C118: once the program has started with a configuration file, all replies of the element behind a listener are of the kinds that the file promises for it, from the start of the program on, as long as
the servers of which something is assumed do as assumed (`S`). All other servers may do anything. -/
theorem program_promised [DecidableEq H] (w : World H) (o : Config.Orders) (ho : Spec.Config.AnyOrder o) (c : Cfg) (ts : List (Option (Tree H))) (hs : start w o c = some ts) (hl : CodesKept w.env)
    (S : Str → Kind → Prop) (R : Str → (Kind → Prop) → Prop) (hp : Promises c S R) (i : Nat) (id : Str) (l : Listener) (t : Tree H) (hi : c.listeners[i]? = some (id, l)) (ht : ts[i]? = some (some t))
    (P : Kind → Prop) (hR : R l.resolver P) (V : Tree H → Msg → DnssecResolver.Verdict → Prop) (h : List (History.Episode H)) (hh : History.Runs V h)
    (hS : ∀ e, e ∈ h → ∀ x q ci r, e.servers (number c x) q ci (some r) → S x (kind r)) (e : History.Episode H) (he : e ∈ h) (het : e.element = t) : P (kind e.reply) := by
  obtain ⟨_, h2, _⟩ := (Props.Assemble.program_start w o ho c ts hs).2 i id l (some t) hi ht
  refine Props.History.run_served (S := byNumber c S) hh ?_ he (het ▸ config_promised w hl c S R hp _ t ((h2 t).1 rfl) P hR)
  rintro e he n q ci r hr x rfl
  exact hS e he x q ci r hr

/-- And so are the messages that UDP, TCP, TLS and DTLS listeners send to clients that are admitted: if errors and dropped queries are not among these kinds, every query with a question gets a
response, with a code that is. Errors come out as SERVFAIL, and dropped queries close the connection. -/
theorem program_available [DecidableEq H] (w : World H) (o : Config.Orders) (ho : Spec.Config.AnyOrder o) (c : Cfg) (ts : List (Option (Tree H))) (hs : start w o c = some ts) (hl : CodesKept w.env)
    (S : Str → Kind → Prop) (R : Str → (Kind → Prop) → Prop) (hp : Promises c S R) (i : Nat) (id : Str) (l : Listener) (t : Tree H) (hi : c.listeners[i]? = some (id, l)) (ht : ts[i]? = some (some t))
    (P : Kind → Prop) (hR : R l.resolver P) (V : Tree H → Msg → DnssecResolver.Verdict → Prop) (h : List (History.Episode H)) (hh : History.Runs V h)
    (hS : ∀ e, e ∈ h → ∀ x q ci r, e.servers (number c x) q ci (some r) → S x (kind r)) (e : History.Episode H) (he : e ∈ h) (het : e.element = t)
    (lib : Listeners.Lib) (small : Msg → Nat → Prop) (hlib : Spec.Listeners.Truncates lib small) (tr : Spec.Listeners.Transport) (hv : tr.Valid) (hu : ∀ v, tr = .udp v → v = 0)
    (nets : List Cidr.IPNet) (peer sni : Str) (hw : Spec.Listeners.WellFormed nets peer) (ha : Spec.Listeners.Admits nets peer) (r : Listeners.Pipeline) (hq : e.query.question ≠ [])
    (hr : r e.query { sourceIP := peer, tlsServerName := sni, listener := id } = e.reply) (hd : tr.Encrypted → ∀ a, e.reply.msg = some a → Spec.Listeners.Decoded a) :
    let out := (Listeners.listenHandler lib id tr.protocol r nets peer sni e.query).out
    (∃ m, out = .reply m ∧ P (.code m.rcode)) ∨ (P .failed ∧ ∃ m, out = .reply m ∧ m.rcode = 2) ∨ (P .dropped ∧ out = .closed) := by
  have hP := program_promised w o ho c ts hs hl S R hp i id l t hi ht P hR V h hh hS e he het
  obtain ⟨-, -, h3⟩ := Listeners.dns_listener lib id tr hv hu r nets peer sni hw e.query
  obtain ⟨-, k1, k2, k3⟩ := h3 hq ha
  rw [hr] at k1 k2 k3
  generalize e.reply = x at *
  obtain ⟨xm, xe⟩ := x
  cases xe with
  | some er =>
    obtain ⟨m, hm, hsh⟩ := k1 er rfl
    obtain ⟨m', h1, h2⟩ := shown_code hlib hsh
    exact .inr (.inl ⟨hP, m', h1, h2.trans hm.2.2.2.1⟩)
  | none =>
    cases xm with
    | none => exact .inr (.inr ⟨hP, k2 rfl⟩)
    | some a =>
      obtain ⟨m', h1, h2⟩ := shown_code hlib (k3 a rfl fun hx => hd hx a rfl)
      refine .inl ⟨m', h1, ?_⟩
      rw [h2]
      exact hP

/-! ### A configuration (`Assemble.sample`): a blocklist before a cache before a router before two servers, with fail-over -/

open Props.Assemble

/-- The second server works. -/
private def up : Str → Kind → Prop := fun id k => id = str "b" → k = .code 0 ∨ k = .code 3

/-- Clients get no SERVFAIL, no NOTIMP and no REFUSED. -/
private def fine : Kind → Prop := fun k => k ≠ .failed ∧ k ≠ .code 2 ∧ k ≠ .code 4 ∧ k ≠ .code 5

private def told : Str → (Kind → Prop) → Prop := fun id P =>
  (id = str "b" ∧ P = fun k => k = .code 0 ∨ k = .code 3) ∨ (id ∈ [str "pair", str "none", str "router", str "ttl", str "cache", str "local", str "block"] ∧ P = fine)

example : Promises sample up told ∧ CodesKept toy.env ∧ (∀ l ∈ sample.listeners, l.2.protocol ≠ str "admin" → told l.2.resolver fine) := by
  have ids : ∀ x ∈ [str "pair", str "none", str "router", str "ttl", str "cache", str "local", str "block"], told x fine := fun x hx => .inr ⟨hx, rfl⟩
  have z : fine (.code 0) := by simp [fine]
  refine ⟨⟨?_, ?_, ?_, ?_⟩, ⟨by simp [toy, toyEnv], fun _ => rfl, fun _ => rfl, by simp [toy, toyEnv], by simp [toy, toyEnv]⟩, ?_⟩
  · rintro id P (⟨rfl, rfl⟩ | ⟨hid, rfl⟩) r hr k hk
    · exact hk rfl
    · simp only [sample, List.mem_cons, Prod.mk.injEq, List.not_mem_nil, or_false] at hr
      rcases hr with ⟨rfl, _⟩ | ⟨rfl, _⟩ <;> exact absurd hid (by decide)
  · rintro P (⟨h, rfl⟩ | ⟨hid, rfl⟩)
    · exact absurd h (by decide)
    · exact absurd hid (by decide)
  · rintro id P (⟨rfl, rfl⟩ | ⟨hid, rfl⟩) g hg
    · simp only [sample, List.mem_cons, Prod.mk.injEq, List.not_mem_nil, or_false] at hg
      rcases hg with ⟨h, _⟩ | ⟨h, _⟩ | ⟨h, _⟩ | ⟨h, _⟩ | ⟨h, _⟩ | ⟨h, _⟩ <;> exact absurd h (by decide)
    · simp only [sample, List.mem_cons, Prod.mk.injEq, List.not_mem_nil, or_false] at hg
      rcases hg with ⟨rfl, rfl⟩ | ⟨rfl, rfl⟩ | ⟨rfl, rfl⟩ | ⟨rfl, rfl⟩ | ⟨rfl, rfl⟩ | ⟨rfl, rfl⟩
      · refine .one (x := str "b") (.inl (by decide)) rfl (by decide) (.inl ⟨rfl, rfl⟩) ?_ ?_
        · rintro k (rfl | rfl) <;> simp [Success]
        · intro k hk
          cases k <;> simp_all [Success, fine]
      · exact .drop rfl (by simp [fine])
      · exact .passes (by decide) (fun x hx => ids x (by revert x; decide))
      · exact .cache rfl (by simp) (by decide) (fun _ => z) (fun x hx => ids x (by revert x; decide))
      · exact .static (by decide) z
      · exact .blocklistV2 rfl (fun x hx => ids x (by revert x; decide)) (fun h => absurd rfl h) (fun _ => ids _ (by decide)) z (fun h => absurd h (by decide))
  · rintro id P (⟨rfl, rfl⟩ | ⟨hid, rfl⟩) rs hrs
    · simp only [sample, List.mem_cons, Prod.mk.injEq, List.not_mem_nil, or_false] at hrs
      exact absurd hrs.1 (by decide)
    · simp only [sample, List.mem_cons, Prod.mk.injEq, List.not_mem_nil, or_false] at hrs
      obtain ⟨rfl, rfl⟩ := hrs
      refine ⟨fun r hr => ?_, .inr ⟨_, List.mem_cons_of_mem _ (List.mem_cons_self ..), rfl, rfl⟩⟩
      simp only [List.mem_cons, List.not_mem_nil, or_false] at hr
      rcases hr with rfl | rfl <;> exact ids _ (by decide)
  · intro l hl ha
    simp only [sample, List.mem_cons, List.not_mem_nil, or_false] at hl
    rcases hl with rfl | rfl | rfl
    · exact ids _ (by decide)
    · exact ids _ (by decide)
    · exact absurd rfl ha

end Verif.Props.AvailableConfig
