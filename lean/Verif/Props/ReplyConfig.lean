import Verif.Spec.ReplyConfig
import Verif.Props.Filters
import Verif.Props.Validated
import Verif.Props.History
import Verif.Props.Assemble
import Verif.Props.Listeners
import Verif.Props.Cidr
import Verif.Props.AsksConfig
/-
C120, C121: which records get to clients, from the configuration file to what listeners send.
-/
namespace Verif.Props.ReplyConfig
open Verif Verif.Composition Verif.ReplyConfig Verif.Spec.Assemble Verif.Spec.Asks Verif.Filters Verif.Validated
open Verif.Assemble hiding Kind
variable {H : Type}

/-! ### Parts of sections -/

private theorem nth_all {P : Tree H → Prop} (hd : P .drop) {gr : List (Tree H)} (h : ∀ (i : Nat) (t : Tree H), gr[i]? = some t → P t) (i : Nat) : P (nth gr i) := by
  unfold nth
  cases hi : gr[i]? with
  | none => exact hd
  | some t => exact h i t hi

private theorem opt_all {P : Tree H → Prop} {x : Option (Tree H)} (h : ∀ t, x = some t → P t) {d : Tree H} (hd : P d) : P (x.getD d) := by
  cases x with
  | none => exact hd
  | some t => exact h t rfl

private theorem ne_of_some {x : Option (Tree H)} {s : Str} (h : x = none ↔ s = []) {t : Tree H} (ht : x = some t) : s ≠ [] := by
  intro e
  rw [h.2 e] at ht
  cases ht

private theorem each_mem {α β : Type} {R : α → β → Prop} {l : List α} {bs : List β} (h : Each R l bs) {b : β} (hb : b ∈ bs) : ∃ a ∈ l, R a b := by
  induction h with
  | nil => cases hb
  | cons h1 _ ih =>
    rcases List.mem_cons.1 hb with rfl | hb
    · exact ⟨_, List.mem_cons_self .., h1⟩
    · obtain ⟨a, h2, h3⟩ := ih hb
      exact ⟨a, List.mem_cons_of_mem _ h2, h3⟩

private theorem each_mem_left {α β : Type} {R : α → β → Prop} {l : List α} {bs : List β} (h : Each R l bs) {a : α} (ha : a ∈ l) : ∃ b ∈ bs, R a b := by
  induction h with
  | nil => cases ha
  | cons h1 _ ih =>
    rcases List.mem_cons.1 ha with rfl | ha
    · exact ⟨_, List.mem_cons_self .., h1⟩
    · obtain ⟨b, h2, h3⟩ := ih ha
      exact ⟨b, List.mem_cons_of_mem _ h2, h3⟩

private theorem keeps_data {m m' : Msg} (h : KeepsAlike m m') : KeepsData m m' := by
  obtain ⟨h1, h2, h3⟩ := h
  refine ⟨h1, fun r hr => ?_⟩
  simp only [Msg.records, List.append_assoc] at hr
  rcases List.mem_append.1 hr with hr | hr
  · obtain ⟨r0, h4, h5⟩ := h2 r hr
    exact ⟨r0, by simp [Msg.records, h4], h5.2.2.2.symm⟩
  · obtain ⟨r0, h4, h5⟩ := h3 r hr
    exact ⟨r0, by rcases List.mem_append.1 h4 with h | h <;> simp [Msg.records, h], h5.2.2.2.symm⟩

/-- Lists that are no hosts files say no more than that there is a match. -/
private theorem no_hosts {env : Env H} {d : NameList} (hf : d.format ≠ .hosts) {db : Msg → Option Lists.Hit} (h : nameListMay env d db) {q : Msg} {x : Lists.Hit} (hx : db q = some x) :
    x.ips = [] ∧ x.names = [] := by
  obtain ⟨rules, -, h⟩ := h
  unfold nameDB at h
  split at h
  · obtain ⟨y, _, rfl⟩ := Option.map_eq_some_iff.1 h
    unfold Blocklist.domainMatch at hx
    obtain ⟨qu, _, hx⟩ := Option.bind_eq_some_iff.1 hx
    obtain ⟨_, _, rfl⟩ := Option.map_eq_some_iff.1 hx
    exact ⟨rfl, rfl⟩
  · obtain ⟨y, _, rfl⟩ := Option.map_eq_some_iff.1 h
    unfold Blocklist.domainMatch at hx
    obtain ⟨qu, _, hx⟩ := Option.bind_eq_some_iff.1 hx
    obtain ⟨_, _, rfl⟩ := Option.map_eq_some_iff.1 hx
    exact ⟨rfl, rfl⟩
  · obtain ⟨y, _, rfl⟩ := Option.map_eq_some_iff.1 h
    obtain ⟨qu, _, hx⟩ := Option.bind_eq_some_iff.1 hx
    unfold Lists.lookupRegexp at hx
    obtain ⟨_, _, rfl⟩ := Option.map_eq_some_iff.1 hx
    exact ⟨rfl, rfl⟩
  · exact absurd ‹d.format = .hosts› hf
  · obtain ⟨y, _, rfl⟩ := Option.map_eq_some_iff.1 h
    obtain ⟨_, _, rfl⟩ := Option.map_eq_some_iff.1 hx
    exact ⟨rfl, rfl⟩

private theorem several_no_hosts {env : Env H} {ds : List NameList} (hf : ∀ d ∈ ds, d.format ≠ .hosts) {db : Msg → Option Lists.Hit} (h : Several (nameListMay env) ds db) {q : Msg} {x : Lists.Hit}
    (hx : db q = some x) : x.ips = [] ∧ x.names = [] := by
  obtain ⟨dbs, he, hd⟩ := h
  rw [hd q] at hx
  obtain ⟨f, h1, h2⟩ := List.exists_of_findSome?_eq_some hx
  obtain ⟨d, h3, h4⟩ := each_mem he h1
  exact no_hosts (hf d h3) h4 h2

private theorem format_no_hosts {f : Str} {x : NameFormat} (h : NamesFormat f x) (hf : f ≠ str "hosts") : x ≠ .hosts := by
  cases h <;> first | exact absurd rfl hf | simp

private theorem lists_no_hosts {env : Env H} {inl : ListCfg} {rules : List Str} {src : List ListCfg} {ds : List NameList} (h : NameLists env inl rules src ds) (hi : inl.format ≠ str "hosts")
    (hs : ∀ s ∈ src, s.format ≠ str "hosts") : ∀ d ∈ ds, d.format ≠ .hosts := by
  intro d hd
  cases h with
  | rules _ _ h =>
    cases List.mem_singleton.1 hd
    exact format_no_hosts h.format hi
  | sources _ h =>
    obtain ⟨s, h1, h2⟩ := each_mem h hd
    exact format_no_hosts h2.format (hs s h1)

/-- Networks in the section -/
private theorem addresses_block (env : Env H) (id : Str) (g : Group) (listed : Str → Prop) (hl : ListsAddresses env g listed) (b : List IpList)
    (h : IpLists env { name := id, format := g.blocklistFormat } g.locationDB g.blocklist g.blocklistSource b) (e : Option Blocklist.Ede) (block : Option (Tree H)) :
    IpBlocks (· = 0) (Address listed) (ResponseIpIs env g b e block) := by
  refine Filters.address_list_blocks listed _ fun opt ho => ⟨by rw [ho.inverted, hl.inverted], fun ip hip => ?_⟩
  cases h with
  | @rules d hne hs hd =>
    obtain ⟨dbs, he, hdb⟩ := ho.db
    cases he with
    | cons h1 h2 =>
      cases h2
      have hfmt : d.format = .cidr := by
        have hf := hd.format
        generalize hx : d.format = x at hf
        have hl' := hl.format
        dsimp only at hf
        generalize g.blocklistFormat = s at hf hl'
        cases hf with
        | default => rfl
        | cidr => rfl
        | location => rcases hl' with h | h <;> exact absurd h (by decide)
        | asn => rcases hl' with h | h <;> exact absurd h (by decide)
      unfold ipListMay at h1
      rw [hfmt] at h1
      obtain ⟨rs, cd, h3, h4, h5⟩ := h1
      have hrs : rs = g.blocklist := by
        obtain ⟨s, _, hf⟩ := hd.source
        cases hf' : d.loader with
        | static x =>
          rw [hf'] at hf h3
          cases hf
          exact h3
        | http _ _ _ => rw [hf'] at hf; cases hf; exact absurd ‹g.blocklist = []› hne
        | file _ _ => rw [hf'] at hf; cases hf; exact absurd ‹g.blocklist = []› hne
      subst hrs
      obtain ⟨hlen, hin⟩ := hl.inNet ip hip
      have := (Cidr.cidr_match_iff env.parseCIDR g.blocklist cd h4 hl.regular ip hlen).2 hin
      rw [← h5 ip] at this
      obtain ⟨m, hm⟩ := Option.isSome_iff_exists.1 this
      exact ⟨m, by rw [hdb]; simp [hm]⟩
  | sources h => exact absurd h hl.inline

/-! ### The whole file -/

/-- Sections behind which there are only filters make elements that let no forbidden record pass, whatever servers send. -/
theorem config_filtered (w : World H) (hk : RecordsKept w.env) (c : Cfg) (codes : Nat → Prop) (bad : RData → Prop) (filter : Group → Prop) (S : Str → Prop) (hg : BeforeFilter w.env c bad filter S)
    (C : Nat → Msg → ClientInfo → Option Res → Prop) (hfil : ∀ num id g gr o b, filter g → (∀ t, o.block = some t → Filtered codes bad C t) → Means w.env num id g gr o b → Filtered codes bad C b.tree)
    (id : Str) (t : Tree H) (h : Denotes w c id t) (hS : S id) : Filtered codes bad C t := by
  induction h with
  | resolver h1 => exact (hg.resolver _ _ hS h1).elim
  | bootstrap h1 => exact by rw [hg.bootstrap hS] at h1; cases h1
  | router h1 h2 h3 h4 ih =>
    refine fun i => nth_all (P := Filtered codes bad C) trivial (fun i t ht => ?_) i
    have hi : i < _ := (List.getElem?_eq_some_iff.1 ht).1
    rw [h2] at hi
    exact ih i _ t (List.getElem?_eq_getElem hi) ht (hg.router _ _ hS h1 _ (List.getElem_mem hi))
  | @group id g gr o b h1 h2 h3 a1 a2 b1 b2 l1 l2 r1 r2 hb ih ia ib il ir =>
    obtain ⟨hop, h64, hneg, hown, href | ⟨hl, hSb⟩⟩ := hg.group _ _ hS h1
    · have hm : ∀ (i : Nat) (t : Tree H), gr[i]? = some t → Filtered codes bad C t := by
        intro i t ht
        have hi : i < gr.length := (List.getElem?_eq_some_iff.1 ht).1
        rw [h2] at hi
        exact ih i _ t (List.getElem?_eq_getElem hi) ht (href _ <| .inl <| (List.getElem_mem hi))
      have hn : ∀ i, Filtered codes bad C (nth gr i) := nth_all (P := Filtered codes bad C) trivial hm
      have ho : ∀ {t}, gr = [t] → Filtered codes bad C t := fun {t} ht => hm 0 t (by rw [ht]; rfl)
      have pa : ∀ t, o.allow = some t → Filtered codes bad C t := fun t ht => ia t ht (href _ <| .inr <| ⟨ne_of_some a1 ht, .inl rfl⟩)
      have pb : ∀ t, o.block = some t → Filtered codes bad C t := fun t ht => ib t ht (href _ <| .inr <| ⟨ne_of_some b1 ht, .inr (.inl rfl)⟩)
      have pl : ∀ t, o.limit = some t → Filtered codes bad C t := fun t ht => il t ht (href _ <| .inr <| ⟨ne_of_some l1 ht, .inr (.inr (.inl rfl))⟩)
      have pr : ∀ t, o.retry = some t → Filtered codes bad C t := fun t ht => ir t ht (href _ <| .inr <| ⟨ne_of_some r1 ht, .inr (.inr (.inr rfl))⟩)
      have pd : Filtered codes bad C (Tree.drop : Tree H) := trivial
      cases hb with
      | roundRobin h => exact hn
      | failRotate h => exact hn
      | failBackEach h => exact hn
      | failBack h => exact hn
      | fastest h => exact hn
      | loadBalance h => exact hn
      | random h => exact hn
      | ttlModifier h ht => exact (ho ht :)
      | requestDedup h ht => exact (ho ht :)
      | fastestTcp h ht => exact (ho ht :)
      | ecsModifier h ht => exact (ho ht :)
      | edns0Modifier h ht => exact (ho ht :)
      | syslog h ht => exact (ho ht :)
      | @cache t sh codes opt n h ht hsh hco hci hme =>
        refine ⟨?_, hk.text, ?_, fun m x m' he hd => keeps_data (hk.codec m x m' he hd), ho ht⟩
        · rw [hci.negative]
          split
          · decide
          · exact hneg
        · intro f hf m
          rw [hci.shuffle] at hf
          generalize g.cacheAnswerShuffle = s at hsh
          cases hsh with
          | default => cases hf
          | random => cases hf; exact keeps_data (hk.random m)
          | roundRobin => cases hf; exact keeps_data (hk.roundRobin m)
      | minimize h ht => exact (ho ht :)
      | collapse h ht => exact (ho ht :)
      | queryLog h ht => exact (ho ht :)
      | dns64 h ht => exact ⟨fun p _ ip ip4 ip6 _ _ hb => h64 h ip ip6 hb, ho ht⟩
      | blocklist h ht _ hd =>
        refine ⟨fun opt hopt q x hx => ?_, ho ht, ho ht, trivial⟩
        obtain ⟨e1, e2⟩ := several_no_hosts (fun d' hd' => by cases List.mem_singleton.1 hd'; exact format_no_hosts hd.format (hown.old h)) hopt.blockDB hx
        simp [e1, e2]
      | blocklistV2 h ht hbl =>
        refine ⟨fun opt hopt q x hx => ?_, ho ht, opt_all (P := Filtered codes bad C) pa (ho ht), opt_all (P := Filtered codes bad C) pb trivial⟩
        obtain ⟨e1, e2⟩ := several_no_hosts (lists_no_hosts hbl (hown.v2 h).1 (hown.v2 h).2) hopt.blockDB hx
        simp [e1, e2]
      | truncateRetry h ht hr => exact ⟨ho ht, pr _ hr⟩
      | responseIp h ht => exact ⟨.inr (ho ht), opt_all (P := Filtered codes bad C) pb trivial⟩
      | responseName h ht => exact ⟨.inr (ho ht), opt_all (P := Filtered codes bad C) pb trivial⟩
      | clientBlocklist h ht => exact ⟨ho ht, opt_all (P := Filtered codes bad C) pb trivial⟩
      | rateLimiter h ht hl' => exact ⟨ho ht, pl _ hl'⟩
      | rateLimiterDrop h ht => exact ⟨ho ht, trivial⟩
      | replace h ht => exact (ho ht :)
      | prefetch h ht => exact (ho ht :)
      | dnssec h ht => exact (ho ht :)
      | redis h ht _ _ hbk hbt => exact absurd (.inr ⟨h, _, hbk, hbt⟩) hop
      | lua h => exact absurd (.inl h) hop
      | @staticResponder e a n x h he ha hn' hx =>
        intro rr hr
        have : ∃ s ∈ g.answer ++ g.ns ++ g.extra, w.env.newRR s = some (some rr) := by
          rcases List.mem_append.1 hr with hr | hr
          · rcases List.mem_append.1 hr with hr | hr
            · obtain ⟨s, k1, k2⟩ := each_mem ha hr
              exact ⟨s, by simp [k1], k2⟩
            · obtain ⟨s, k1, k2⟩ := each_mem hn' hr
              exact ⟨s, by simp [k1], k2⟩
          · obtain ⟨s, k1, k2⟩ := each_mem hx hr
            exact ⟨s, by simp [k1], k2⟩
        obtain ⟨s, k1, k2⟩ := this
        exact hown.static h s k1 rr k2
      | @staticTemplate e a n x h he ha hn' hx =>
        intro f hf i text rr hi hrr
        have : ∃ s ∈ g.answer ++ g.ns ++ g.extra, w.env.template s = some f := by
          rcases List.mem_append.1 hf with hr | hr
          · rcases List.mem_append.1 hr with hr | hr
            · obtain ⟨s, k1, k2⟩ := each_mem ha hr
              exact ⟨s, by simp [k1], k2⟩
            · obtain ⟨s, k1, k2⟩ := each_mem hn' hr
              exact ⟨s, by simp [k1], k2⟩
          · obtain ⟨s, k1, k2⟩ := each_mem hx hr
            exact ⟨s, by simp [k1], k2⟩
        obtain ⟨s, k1, k2⟩ := this
        exact hown.template h s k1 f k2 i text rr hi hrr
      | drop => trivial
    · have pb : ∀ t, o.block = some t → Filtered codes bad C t := fun t ht => ib t ht (hSb (ne_of_some b1 ht))
      exact hfil _ id g gr o _ hl pb hb

private theorem address_filter (env : Env H) (listed : Str → Prop) (C : Nat → Msg → ClientInfo → Option Res → Prop) (num : Nat) (id : Str) (g : Group) (gr : List (Tree H)) (o : Opts H) (b : Built H)
    (hl : ListsAddresses env g listed) (pb : ∀ t, o.block = some t → Filtered (· = 0) (Address listed) C t) (hb : Means env num id g gr o b) : Filtered (· = 0) (Address listed) C b.tree := by
  have hty := hl.type
  cases hb with
  | responseIp h ht hb => exact ⟨.inl (addresses_block env id g listed hl _ hb _ _), opt_all (P := Filtered (· = 0) (Address listed) C) pb trivial⟩
  | _ h => rw [h] at hty; rcases hty with h | h <;> exact absurd h (by decide)

private theorem name_filter (env : Env H) (listed : Str → Prop) (C : Nat → Msg → ClientInfo → Option Res → Prop) (num : Nat) (id : Str) (g : Group) (gr : List (Tree H)) (o : Opts H) (b : Built H)
    (hl : ListsNames env g listed) (pb : ∀ t, o.block = some t → Filtered (fun _ => True) (Named listed) C t) (hb : Means env num id g gr o b) : Filtered (fun _ => True) (Named listed) C b.tree := by
  have hty := hl.type
  cases hb with
  | responseName h ht hb =>
    refine ⟨.inl (Filters.name_list_blocks listed _ fun opt ho => ⟨by rw [ho.inverted, hl.inverted], fun n hn => ?_⟩), opt_all (P := Filtered (fun _ => True) (Named listed) C) pb trivial⟩
    cases hb with
    | rules _ _ hd =>
      obtain ⟨f, h3, h4⟩ := AsksConfig.several_one ho.db
      obtain ⟨x, hx⟩ := AsksConfig.said hl.inline hd h3 (q := { rd := true, question := [⟨n, 0, classINET⟩] }) (n := n) ⟨_, _, rfl, rfl⟩ (hl.about n hn)
      exact ⟨x.rule, by unfold Spec.Blocklist.nameRule; rw [h4, hx]; rfl⟩
    | sources h => exact absurd h hl.inline
  | responseIp h => rw [hty] at h; rcases h with h | h <;> exact absurd h (by decide)
  | _ h => rw [hty] at h; exact absurd h (by decide)

/-- Sections behind which there are only validators make elements behind which there are only validators. -/
theorem config_screened (w : World H) (hk : RecordsKept w.env) (c : Cfg) (own : RData → Prop) (ren : Prop) (S : Str → Prop) (hg : BeforeValidated w.env c own ren S)
    (id : Str) (t : Tree H) (h : Denotes w c id t) (hS : S id) : Screened own ren t := by
  induction h with
  | resolver h1 => exact (hg.resolver _ _ hS h1).elim
  | bootstrap h1 => exact by rw [hg.bootstrap hS] at h1; cases h1
  | router h1 h2 h3 h4 ih =>
    refine fun i => nth_all (P := Screened own ren) trivial (fun i t ht => ?_) i
    have hi : i < _ := (List.getElem?_eq_some_iff.1 ht).1
    rw [h2] at hi
    exact ih i _ t (List.getElem?_eq_getElem hi) ht (hg.router _ _ hS h1 _ (List.getElem_mem hi))
  | @group id g gr o b h1 h2 h3 a1 a2 b1 b2 l1 l2 r1 r2 hb ih ia ib il ir =>
    obtain ⟨hop, h64, hneg, hown, hren, href | ⟨hty, hlog⟩⟩ := hg.group _ _ hS h1
    · have hm : ∀ (i : Nat) (t : Tree H), gr[i]? = some t → Screened own ren t := by
        intro i t ht
        have hi : i < gr.length := (List.getElem?_eq_some_iff.1 ht).1
        rw [h2] at hi
        exact ih i _ t (List.getElem?_eq_getElem hi) ht (href _ <| .inl <| (List.getElem_mem hi))
      have hn : ∀ i, Screened own ren (nth gr i) := nth_all (P := Screened own ren) trivial hm
      have ho : ∀ {t}, gr = [t] → Screened own ren t := fun {t} ht => hm 0 t (by rw [ht]; rfl)
      have pa : ∀ t, o.allow = some t → Screened own ren t := fun t ht => ia t ht (href _ <| .inr <| ⟨ne_of_some a1 ht, .inl rfl⟩)
      have pb : ∀ t, o.block = some t → Screened own ren t := fun t ht => ib t ht (href _ <| .inr <| ⟨ne_of_some b1 ht, .inr (.inl rfl)⟩)
      have pl : ∀ t, o.limit = some t → Screened own ren t := fun t ht => il t ht (href _ <| .inr <| ⟨ne_of_some l1 ht, .inr (.inr (.inl rfl))⟩)
      have pr : ∀ t, o.retry = some t → Screened own ren t := fun t ht => ir t ht (href _ <| .inr <| ⟨ne_of_some r1 ht, .inr (.inr (.inr rfl))⟩)
      cases hb with
      | roundRobin h => exact hn
      | failRotate h => exact hn
      | failBackEach h => exact hn
      | failBack h => exact hn
      | fastest h => exact hn
      | loadBalance h => exact hn
      | random h => exact hn
      | ttlModifier h ht => exact (ho ht :)
      | requestDedup h ht => exact (ho ht :)
      | fastestTcp h ht => exact (ho ht :)
      | ecsModifier h ht => exact (ho ht :)
      | edns0Modifier h ht => exact (ho ht :)
      | syslog h ht => exact (ho ht :)
      | @cache t sh codes opt n h ht hsh hco hci hme =>
        refine ⟨?_, hk.text, ?_, hk.codec, ho ht⟩
        · rw [hci.negative]
          split
          · decide
          · exact hneg
        · intro f hf m
          rw [hci.shuffle] at hf
          generalize g.cacheAnswerShuffle = s at hsh
          cases hsh with
          | default => cases hf
          | random => cases hf; exact hk.random m
          | roundRobin => cases hf; exact hk.roundRobin m
      | minimize h ht => exact (ho ht :)
      | collapse h ht => exact ⟨hren (.inl h), ho ht⟩
      | queryLog h ht => exact (ho ht :)
      | dns64 h ht => exact ⟨hren (.inr (.inr h)), fun p _ ip ip4 ip6 _ _ ho => h64 h ip ip6 ho, ho ht⟩
      | blocklist h ht _ hd =>
        refine ⟨fun opt hopt q x hx => ?_, ho ht, ho ht, trivial⟩
        obtain ⟨e1, e2⟩ := several_no_hosts (fun d' hd' => by cases List.mem_singleton.1 hd'; exact format_no_hosts hd.format (hown.old h)) hopt.blockDB hx
        simp [e1, e2]
      | blocklistV2 h ht hbl =>
        refine ⟨fun opt hopt q x hx => ?_, ho ht, opt_all (P := Screened own ren) pa (ho ht), opt_all (P := Screened own ren) pb trivial⟩
        obtain ⟨e1, e2⟩ := several_no_hosts (lists_no_hosts hbl (hown.v2 h).1 (hown.v2 h).2) hopt.blockDB hx
        simp [e1, e2]
      | truncateRetry h ht hr => exact ⟨ho ht, pr _ hr⟩
      | responseIp h ht => exact ⟨ho ht, opt_all (P := Screened own ren) pb trivial⟩
      | responseName h ht => exact ⟨ho ht, opt_all (P := Screened own ren) pb trivial⟩
      | clientBlocklist h ht => exact ⟨ho ht, opt_all (P := Screened own ren) pb trivial⟩
      | rateLimiter h ht hl' => exact ⟨ho ht, pl _ hl'⟩
      | rateLimiterDrop h ht => exact ⟨ho ht, trivial⟩
      | replace h ht => exact ⟨hren (.inr (.inl h)), ho ht⟩
      | prefetch h ht => exact (ho ht :)
      | dnssec h ht => exact .inr (ho ht)
      | redis h ht _ _ hbk hbt => exact absurd (.inr ⟨h, _, hbk, hbt⟩) hop
      | lua h => exact absurd (.inl h) hop
      | @staticResponder e a n x h he ha hn' hx =>
        intro rr hr
        have : ∃ s ∈ g.answer ++ g.ns ++ g.extra, w.env.newRR s = some (some rr) := by
          rcases List.mem_append.1 hr with hr | hr
          · rcases List.mem_append.1 hr with hr | hr
            · obtain ⟨s, k1, k2⟩ := each_mem ha hr
              exact ⟨s, by simp [k1], k2⟩
            · obtain ⟨s, k1, k2⟩ := each_mem hn' hr
              exact ⟨s, by simp [k1], k2⟩
          · obtain ⟨s, k1, k2⟩ := each_mem hx hr
            exact ⟨s, by simp [k1], k2⟩
        obtain ⟨s, k1, k2⟩ := this
        exact hown.static h s k1 rr k2
      | @staticTemplate e a n x h he ha hn' hx =>
        intro f hf i text rr hi hrr
        have : ∃ s ∈ g.answer ++ g.ns ++ g.extra, w.env.template s = some f := by
          rcases List.mem_append.1 hf with hr | hr
          · rcases List.mem_append.1 hr with hr | hr
            · obtain ⟨s, k1, k2⟩ := each_mem ha hr
              exact ⟨s, by simp [k1], k2⟩
            · obtain ⟨s, k1, k2⟩ := each_mem hn' hr
              exact ⟨s, by simp [k1], k2⟩
          · obtain ⟨s, k1, k2⟩ := each_mem hx hr
            exact ⟨s, by simp [k1], k2⟩
        obtain ⟨s, k1, k2⟩ := this
        exact hown.template h s k1 f k2 i text rr hi hrr
      | drop => trivial
    · cases hb with
      | dnssec h ht => exact .inl hlog
      | responseIp h => rw [hty] at h; rcases h with h | h <;> exact absurd h (by decide)
      | _ h => rw [hty] at h; exact absurd h (by decide)

/-- Sections that raise no TTLs make elements that raise none, with no more caches and de-duplications on each way. -/
theorem config_counted (w : World H) (hk : TtlsKept w.env) (c : Cfg) (own : RData → Nat → Prop) (caches dedups : Str → Nat) (S : Str → Prop) (hg : Counted w.env c own caches dedups S)
    (id : Str) (t : Tree H) (h : Denotes w c id t) (hS : S id) : ∀ n k, caches id ≤ n → dedups id ≤ k → Fresh.Ages own n k t := by
  induction h with
  | resolver h1 => exact fun _ _ _ _ => trivial
  | bootstrap h1 => exact fun _ _ _ _ => trivial
  | router h1 h2 h3 h4 ih =>
    intro n k hn hk
    refine fun i => nth_all (P := Fresh.Ages own n k) trivial (fun i t ht => ?_) i
    have hi : i < _ := (List.getElem?_eq_some_iff.1 ht).1
    rw [h2] at hi
    obtain ⟨j1, j2, j3⟩ := hg.router _ _ hS h1 _ (List.getElem_mem hi)
    exact ih i _ t (List.getElem?_eq_getElem hi) ht j1 n k (by omega) (by omega)
  | @group id g gr o b h1 h2 h3 a1 a2 b1 b2 l1 l2 r1 r2 hb ih ia ib il ir =>
    obtain ⟨hop, hneg, hown, hmod, hfast, href⟩ := hg.group _ _ hS h1
    intro n k hcn hdk
    have hm : ∀ (i : Nat) (t : Tree H), gr[i]? = some t → Fresh.Ages own (n - if g.type = str "cache" then 1 else 0) (k - if g.type = str "request-dedup" then 1 else 0) t ∧
        ((if g.type = str "cache" then 1 else 0) ≤ n ∧ (if g.type = str "request-dedup" then 1 else 0) ≤ k) := by
      intro i t ht
      have hi : i < gr.length := (List.getElem?_eq_some_iff.1 ht).1
      rw [h2] at hi
      obtain ⟨j1, j2, j3⟩ := href _ <| .inl <| (List.getElem_mem hi)
      exact ⟨ih i _ t (List.getElem?_eq_getElem hi) ht j1 _ _ (by omega) (by omega), by omega, by omega⟩
    have one : ∀ {t}, gr = [t] → g.type ≠ str "cache" → g.type ≠ str "request-dedup" → Fresh.Ages own n k t := fun {t} ht e1 e2 => by
      have := (hm 0 t (by rw [ht]; rfl)).1
      rwa [if_neg e1, if_neg e2] at this
    have all : g.type ≠ str "cache" → g.type ≠ str "request-dedup" → ∀ i, Fresh.Ages own n k (nth gr i) := fun e1 e2 => nth_all (P := Fresh.Ages own n k) trivial fun i t ht => by
      have := (hm i t ht).1
      rwa [if_neg e1, if_neg e2] at this
    have hn : ∀ {s : Str}, g.type = s → s ≠ str "cache" → s ≠ str "request-dedup" → ∀ i, Fresh.Ages own n k (nth gr i) := fun e e1 e2 => all (e ▸ e1) (e ▸ e2)
    have ho : ∀ {t} {s : Str}, gr = [t] → g.type = s → s ≠ str "cache" → s ≠ str "request-dedup" → Fresh.Ages own n k t := fun ht e e1 e2 => one ht (e ▸ e1) (e ▸ e2)
    have more : ∀ {x : Str} {t : Tree H}, Refers g x → (S x → ∀ n k, caches x ≤ n → dedups x ≤ k → Fresh.Ages own n k t) → Fresh.Ages own n k t := fun {x t} hx hi => by
      obtain ⟨j1, j2, j3⟩ := href x hx
      exact hi j1 n k (by omega) (by omega)
    have pa : ∀ t, o.allow = some t → Fresh.Ages own n k t := fun t ht => more (.inr <| ⟨ne_of_some a1 ht, .inl rfl⟩) (ia t ht)
    have pb : ∀ t, o.block = some t → Fresh.Ages own n k t := fun t ht => more (.inr <| ⟨ne_of_some b1 ht, .inr (.inl rfl)⟩) (ib t ht)
    have pl : ∀ t, o.limit = some t → Fresh.Ages own n k t := fun t ht => more (.inr <| ⟨ne_of_some l1 ht, .inr (.inr (.inl rfl))⟩) (il t ht)
    have pr : ∀ t, o.retry = some t → Fresh.Ages own n k t := fun t ht => more (.inr <| ⟨ne_of_some r1 ht, .inr (.inr (.inr rfl))⟩) (ir t ht)
    cases hb with
    | roundRobin h => exact hn h (by decide) (by decide)
    | failRotate h => exact hn h (by decide) (by decide)
    | failBackEach h => exact hn h (by decide) (by decide)
    | failBack h => exact hn h (by decide) (by decide)
    | fastest h => exact hn h (by decide) (by decide)
    | loadBalance h => exact hn h (by decide) (by decide)
    | random h => exact hn h (by decide) (by decide)
    | ttlModifier h ht hsel =>
      refine ⟨(hmod h).1, ?_, ho ht h (by decide) (by decide)⟩
      have hs' := (hmod h).2
      generalize g.ttlSelect = s at hsel hs'
      cases hsel with
      | default => exact .inl rfl
      | lowest => exact .inr rfl
      | _ => rcases hs' with h | h <;> exact absurd h (by decide)
    | requestDedup h ht =>
      obtain ⟨j1, j2, j3⟩ := hm 0 _ (by rw [ht]; rfl)
      rw [if_neg (by rw [h]; decide), if_pos h] at j1
      rw [if_pos h] at j3
      exact ⟨k - 1, by omega, j1⟩
    | fastestTcp h ht => exact ⟨hfast h, ho ht h (by decide) (by decide)⟩
    | ecsModifier h ht => exact (ho ht h (by decide) (by decide) :)
    | edns0Modifier h ht => exact (ho ht h (by decide) (by decide) :)
    | syslog h ht => exact (ho ht h (by decide) (by decide) :)
    | @cache t sh codes opt sz h ht hsh hco hci hme =>
      obtain ⟨j1, j2, j3⟩ := hm 0 _ (by rw [ht]; rfl)
      rw [if_pos h, if_neg (by rw [h]; decide)] at j1
      rw [if_pos h] at j2
      refine ⟨?_, hk.text, ?_, hk.codec, n - 1, by omega, j1⟩
      · rw [hci.negative]
        split
        · decide
        · exact hneg
      · intro f hf m
        rw [hci.shuffle] at hf
        generalize g.cacheAnswerShuffle = s at hsh
        cases hsh with
        | default => cases hf
        | random => cases hf; exact hk.random m
        | roundRobin => cases hf; exact hk.roundRobin m
    | minimize h ht => exact (ho ht h (by decide) (by decide) :)
    | collapse h ht => exact (ho ht h (by decide) (by decide) :)
    | queryLog h ht => exact (ho ht h (by decide) (by decide) :)
    | dns64 h ht => exact (ho ht h (by decide) (by decide) :)
    | blocklist h ht _ hd =>
      refine ⟨fun opt hopt q x hx => ?_, ho ht h (by decide) (by decide), ho ht h (by decide) (by decide), trivial⟩
      obtain ⟨e1, e2⟩ := several_no_hosts (fun d' hd' => by cases List.mem_singleton.1 hd'; exact format_no_hosts hd.format (hown.old h)) hopt.blockDB hx
      simp [e1, e2]
    | blocklistV2 h ht hbl =>
      refine ⟨fun opt hopt q x hx => ?_, ho ht h (by decide) (by decide), opt_all (P := Fresh.Ages own n k) pa (ho ht h (by decide) (by decide)), opt_all (P := Fresh.Ages own n k) pb trivial⟩
      obtain ⟨e1, e2⟩ := several_no_hosts (lists_no_hosts hbl (hown.v2 h).1 (hown.v2 h).2) hopt.blockDB hx
      simp [e1, e2]
    | truncateRetry h ht hr => exact ⟨ho ht h (by decide) (by decide), pr _ hr⟩
    | responseIp h ht => exact ⟨by rcases h with h | h <;> exact ho ht h (by decide) (by decide), opt_all (P := Fresh.Ages own n k) pb trivial⟩
    | responseName h ht => exact ⟨ho ht h (by decide) (by decide), opt_all (P := Fresh.Ages own n k) pb trivial⟩
    | clientBlocklist h ht => exact ⟨ho ht h (by decide) (by decide), opt_all (P := Fresh.Ages own n k) pb trivial⟩
    | rateLimiter h ht hl' => exact ⟨ho ht h (by decide) (by decide), pl _ hl'⟩
    | rateLimiterDrop h ht => exact ⟨ho ht h (by decide) (by decide), trivial⟩
    | replace h ht => exact (ho ht h (by decide) (by decide) :)
    | prefetch h ht => exact (ho ht h (by decide) (by decide) :)
    | dnssec h ht => exact (ho ht h (by decide) (by decide) :)
    | redis h ht _ _ hbk hbt => exact absurd (.inr ⟨h, _, hbk, hbt⟩) hop
    | lua h => exact absurd (.inl h) hop
    | @staticResponder e a n x h he ha hn' hx =>
      intro rr hr
      have : ∃ s ∈ g.answer ++ g.ns ++ g.extra, w.env.newRR s = some (some rr) := by
        rcases List.mem_append.1 hr with hr | hr
        · rcases List.mem_append.1 hr with hr | hr
          · obtain ⟨s, k1, k2⟩ := each_mem ha hr
            exact ⟨s, by simp [k1], k2⟩
          · obtain ⟨s, k1, k2⟩ := each_mem hn' hr
            exact ⟨s, by simp [k1], k2⟩
        · obtain ⟨s, k1, k2⟩ := each_mem hx hr
          exact ⟨s, by simp [k1], k2⟩
      obtain ⟨s, k1, k2⟩ := this
      exact hown.static h s k1 rr k2
    | @staticTemplate e a n x h he ha hn' hx =>
      intro f hf i text rr hi hrr
      have : ∃ s ∈ g.answer ++ g.ns ++ g.extra, w.env.template s = some f := by
        rcases List.mem_append.1 hf with hr | hr
        · rcases List.mem_append.1 hr with hr | hr
          · obtain ⟨s, k1, k2⟩ := each_mem ha hr
            exact ⟨s, by simp [k1], k2⟩
          · obtain ⟨s, k1, k2⟩ := each_mem hn' hr
            exact ⟨s, by simp [k1], k2⟩
        · obtain ⟨s, k1, k2⟩ := each_mem hx hr
          exact ⟨s, by simp [k1], k2⟩
      obtain ⟨s, k1, k2⟩ := this
      exact hown.template h s k1 f k2 i text rr hi hrr
    | drop => trivial

/-! ### What listeners send -/

/-- Listeners show no records but those of the message and OPT records. -/
private theorem shown_records {lib : Listeners.Lib} {small : Msg → Nat → Prop} (hl : Spec.Listeners.Truncates lib small) {t : Spec.Listeners.Transport} {q a : Msg} {x : Listeners.Wire}
    (h : Spec.Listeners.Shown lib t q a x) : ∃ m, x = .reply m ∧ m.rcode = a.rcode ∧ (∀ r ∈ m.answer, r ∈ a.answer) ∧ ∀ r ∈ m.ns ++ m.extra, r.isOpt = false → r ∈ a.ns ++ a.extra := by
  obtain ⟨b, h1, h2⟩ := h
  have hb : b.rcode = a.rcode ∧ b.answer = a.answer ∧ b.ns = a.ns ∧ ∀ r ∈ b.extra, r.isOpt = false → r ∈ a.extra := by
    rcases h1 with rfl | ⟨e, os, _, ⟨pre, r, post, hx, _, _, rfl⟩, _⟩ | ⟨e, ⟨_, rfl⟩, _⟩
    · exact ⟨rfl, rfl, rfl, fun r hr _ => hr⟩
    · refine ⟨rfl, rfl, rfl, fun y hy ho => ?_⟩
      rw [hx]
      simp only [List.mem_append, List.mem_cons] at hy ⊢
      rcases hy with hy | rfl | hy
      · exact .inl hy
      · cases ho
      · exact .inr (.inr hy)
    · refine ⟨rfl, rfl, rfl, fun y hy ho => ?_⟩
      simp only [List.mem_append, List.mem_cons, List.not_mem_nil, or_false] at hy
      rcases hy with hy | rfl
      · exact hy
      · cases ho
  obtain ⟨e1, e2, e3, e4⟩ := hb
  have same : b.rcode = a.rcode ∧ (∀ r ∈ b.answer, r ∈ a.answer) ∧ ∀ r ∈ b.ns ++ b.extra, r.isOpt = false → r ∈ a.ns ++ a.extra := by
    refine ⟨e1, fun r hr => e2 ▸ hr, fun r hr ho => ?_⟩
    simp only [List.mem_append, e3] at hr ⊢
    exact hr.imp_right fun h => e4 r h ho
  have cut : ∀ n, (lib.truncate b n).rcode = a.rcode ∧ (∀ r ∈ (lib.truncate b n).answer, r ∈ a.answer) ∧ ∀ r ∈ (lib.truncate b n).ns ++ (lib.truncate b n).extra, r.isOpt = false → r ∈ a.ns ++ a.extra := by
    intro n
    have hc := hl.cut b n
    refine ⟨hc.rcode.trans e1, fun r hr => same.2.1 r (hc.answer.subset hr), fun r hr ho => same.2.2 r ?_ ho⟩
    simp only [List.mem_append] at hr ⊢
    rcases hr with hr | hr
    · exact .inl (hc.ns.subset hr)
    · exact .inr (hc.extra.subset hr)
  cases t with
  | udp v => exact ⟨_, h2.2, cut _⟩
  | tcp v => exact ⟨_, h2.2, same⟩
  | dot => exact ⟨_, h2, same⟩
  | dtls => exact ⟨_, h2, cut _⟩

private theorem failure_bare {lib : Listeners.Lib} {small : Msg → Nat → Prop} (hl : Spec.Listeners.Truncates lib small) {t : Spec.Listeners.Transport} {q f m : Msg} {code : Nat} (hf : Spec.Listeners.Failure q code f)
    (h : Spec.Listeners.Shown lib t q f (.reply m)) : m.rcode = code ∧ m.answer = [] ∧ ∀ r ∈ m.ns ++ m.extra, r.isOpt = true := by
  obtain ⟨m', e1, e2, e3, e4⟩ := shown_records hl h
  cases e1
  obtain ⟨-, -, -, h4, -, h6, h7, h8⟩ := hf
  refine ⟨e2.trans h4, List.eq_nil_iff_forall_not_mem.2 fun r hr => ?_, fun r hr => ?_⟩
  · have := e3 r hr
    rw [h6] at this
    cases this
  · cases ho : r.isOpt with
    | true => rfl
    | false =>
      have := e4 r hr ho
      rw [h7, h8] at this
      cases this

/-- What is sent is a bare error, or a reply of the element, perhaps with fewer records and another OPT record. -/
private theorem sent_any [DecidableEq H] {V : Tree H → Msg → DnssecResolver.Verdict → Prop} {t : Tree H} {id : Str} {h : List (History.Episode H)} {m : Msg} {lib : Listeners.Lib} (x : Asked V t id h m lib)
    {small : Msg → Nat → Prop} (hl : Spec.Listeners.Truncates lib small) :
    ((m.rcode = 2 ∨ m.rcode = 5) ∧ m.answer = [] ∧ ∀ r ∈ m.ns ++ m.extra, r.isOpt = true) ∨
    ∃ a, x.e.reply = .ok a ∧ m.rcode = a.rcode ∧ (∀ r ∈ m.answer, r ∈ a.answer) ∧ ∀ r ∈ m.ns ++ m.extra, r.isOpt = false → r ∈ a.ns ++ a.extra := by
  obtain ⟨k1, k2, k3⟩ := Listeners.dns_listener lib id x.tr x.valid x.any x.r x.nets x.peer x.sni x.well x.e.query
  have hs := x.sent
  by_cases hq : x.e.query.question = []
  · rw [(k1 hq).2] at hs
    cases hs
  by_cases ha : Spec.Listeners.Admits x.nets x.peer
  · obtain ⟨-, j1, j2, j3⟩ := k3 hq ha
    rw [x.reply] at j1 j2 j3
    have hd := x.decoded
    generalize x.e.reply = y at *
    obtain ⟨ym, ye⟩ := y
    cases ye with
    | some er =>
      obtain ⟨f, hf, hsh⟩ := j1 er rfl
      rw [hs] at hsh
      obtain ⟨e1, e2⟩ := failure_bare hl hf hsh
      exact .inl ⟨.inl e1, e2⟩
    | none =>
      cases ym with
      | none => rw [j2 rfl] at hs; cases hs
      | some a =>
        obtain ⟨m', e1, e2⟩ := shown_records hl (j3 a rfl fun hx => hd hx a rfl)
        rw [hs] at e1
        cases e1
        exact .inr ⟨a, rfl, e2⟩
  · obtain ⟨-, f, hf, hsh⟩ := k2 hq ha
    rw [hs] at hsh
    obtain ⟨e1, e2⟩ := failure_bare hl hf hsh
    exact .inl ⟨.inr e1, e2⟩

private theorem sent_from [DecidableEq H] {V : Tree H → Msg → DnssecResolver.Verdict → Prop} {t : Tree H} {id : Str} {h : List (History.Episode H)} {m : Msg} {lib : Listeners.Lib} (x : Asked V t id h m lib)
    {small : Msg → Nat → Prop} (hl : Spec.Listeners.Truncates lib small) (hc : m.rcode = 0 ∨ m.rcode = 3) :
    ∃ a, x.e.reply = .ok a ∧ m.rcode = a.rcode ∧ (∀ r ∈ m.answer, r ∈ a.answer) ∧ ∀ r ∈ m.ns ++ m.extra, r.isOpt = false → r ∈ a.ns ++ a.extra := by
  rcases sent_any x hl with ⟨h1, -⟩ | h
  · omega
  · exact h

/-- C120: if in the configuration file every way from a server to a listener goes through a response blocklist with these networks, then from the start of the program on no positive response that the
listener sends has an address in them: in no section, whatever the servers send, and whatever was cached or is shared. -/
theorem program_no_address [DecidableEq H] (w : World H) (o : Config.Orders) (ho : Spec.Config.AnyOrder o) (c : Cfg) (ts : List (Option (Tree H))) (hs : start w o c = some ts) (hk : RecordsKept w.env)
    (listed : Str → Prop) (S : Str → Prop) (hg : BeforeAddresses w.env c listed S) (i : Nat) (id : Str) (l : Listener) (t : Tree H) (hi : c.listeners[i]? = some (id, l)) (ht : ts[i]? = some (some t))
    (hS : S l.resolver) (lib : Listeners.Lib) (small : Msg → Nat → Prop) (hlib : Spec.Listeners.Truncates lib small) (V : Tree H → Msg → DnssecResolver.Verdict → Prop) (h : List (History.Episode H))
    (m : Msg) (x : Asked V t id h m lib) (hc : m.rcode = 0) (r : RR) (hr : r ∈ m.answer ++ m.ns ++ m.extra) (ip : Str) (hd : r.data = .a ip ∨ r.data = .aaaa ip) : ¬ listed ip := by
  obtain ⟨_, h2, _⟩ := (Props.Assemble.program_start w o ho c ts hs).2 i id l (some t) hi ht
  obtain ⟨a, e1, e2, e3, e4⟩ := sent_from x hlib (.inl hc)
  have hcl := Props.History.run_clean (codes := (· = 0)) (bad := Address listed) (by rintro s d o ⟨ip, h | h, -⟩ <;> cases h) x.runs x.mem
    (by rw [x.element]; exact config_filtered w hk c _ _ _ S hg _ (address_filter w.env listed _) _ t ((h2 t).1 rfl) hS)
  intro hli
  have ho : r.isOpt = false := by
    unfold RR.isOpt
    rcases hd with hd | hd <;> rw [hd]
  refine hcl (by rw [e1]; rfl) a (by rw [e1]; rfl) (e2 ▸ hc) r ?_ ⟨ip, hd, hli⟩
  rw [List.append_assoc] at hr ⊢
  rcases List.mem_append.1 hr with hr | hr
  · exact List.mem_append_left _ (e3 r hr)
  · exact List.mem_append_right _ (e4 r hr ho)

/-- C120 for names: no message the listener sends, errors included, has a record with a name that the rules of response blocklists on every way are about. -/
theorem program_no_name [DecidableEq H] (w : World H) (o : Config.Orders) (ho : Spec.Config.AnyOrder o) (c : Cfg) (ts : List (Option (Tree H))) (hs : start w o c = some ts) (hk : RecordsKept w.env)
    (listed : Str → Prop) (S : Str → Prop) (hg : BeforeNames w.env c listed S) (i : Nat) (id : Str) (l : Listener) (t : Tree H) (hi : c.listeners[i]? = some (id, l)) (ht : ts[i]? = some (some t))
    (hS : S l.resolver) (lib : Listeners.Lib) (small : Msg → Nat → Prop) (hlib : Spec.Listeners.Truncates lib small) (V : Tree H → Msg → DnssecResolver.Verdict → Prop) (h : List (History.Episode H))
    (m : Msg) (x : Asked V t id h m lib) (r : RR) (hr : r ∈ m.answer ++ m.ns ++ m.extra) (n : Str) (hd : Spec.Blocklist.Text r.data n) : ¬ listed n := by
  obtain ⟨_, h2, _⟩ := (Props.Assemble.program_start w o ho c ts hs).2 i id l (some t) hi ht
  have hno : ∀ s d o, ¬ Named listed (.opt s d o) := by rintro s d o ⟨n, h, -⟩; cases h
  have hcl := Props.History.run_clean (codes := fun _ => True) (bad := Named listed) hno x.runs x.mem
    (by rw [x.element]; exact config_filtered w hk c _ _ _ S hg _ (name_filter w.env listed _) _ t ((h2 t).1 rfl) hS)
  intro hli
  have ho : r.isOpt = false := by
    cases hx : r.isOpt with
    | false => rfl
    | true =>
      unfold RR.isOpt at hx
      split at hx
      · rename_i he
        exact absurd ⟨n, he ▸ hd, hli⟩ (hno _ _ _)
      · cases hx
  rw [List.append_assoc] at hr
  rcases sent_any x hlib with ⟨-, e2, e3⟩ | ⟨a, e1, e2, e3, e4⟩
  · rw [e2, List.nil_append] at hr
    rw [e3 r hr] at ho
    cases ho
  · refine hcl (by rw [e1]; rfl) a (by rw [e1]; rfl) trivial r ?_ ⟨n, hd, hli⟩
    rw [List.append_assoc]
    rcases List.mem_append.1 hr with hr | hr
    · exact List.mem_append_left _ (e3 r hr)
    · exact List.mem_append_right _ (e4 r hr ho)

/-- C121: if in the configuration file every way from a server to a listener goes through a validator, then from the start of the program on each record of a positive or negative response that the
listener sends is one the file says the elements make up, or comes from a message that the elements behind a validator have sent and whose validation did not fail; and from the same part of it. -/
theorem program_validated [DecidableEq H] (w : World H) (o : Config.Orders) (ho : Spec.Config.AnyOrder o) (c : Cfg) (ts : List (Option (Tree H))) (hs : start w o c = some ts) (hk : RecordsKept w.env)
    (own : RData → Prop) (ren : Prop) (S : Str → Prop) (hg : BeforeValidated w.env c own ren S) (i : Nat) (id : Str) (l : Listener) (t : Tree H) (hi : c.listeners[i]? = some (id, l))
    (ht : ts[i]? = some (some t)) (hS : S l.resolver) (lib : Listeners.Lib) (small : Msg → Nat → Prop) (hlib : Spec.Listeners.Truncates lib small) (V : Tree H → Msg → DnssecResolver.Verdict → Prop)
    (h : List (History.Episode H)) (m : Msg) (x : Asked V t id h m lib) (hc : m.rcode = 0 ∨ m.rcode = 3) (r : RR) (hopt : r.isOpt = false) (part : Msg → List RR)
    (hp : part = (·.answer) ∨ part = fun m => m.ns ++ m.extra) (hr : r ∈ part m) :
    own r.data ∨ ∃ t' a r0, (V t' a .valid ∨ V t' a .insecure) ∧ (a.rcode = 0 ∨ a.rcode = 3) ∧ (∃ q ci, Replies (Props.History.servers h) t' q ci (some (.ok a))) ∧ r0 ∈ part a ∧ Comes ren r0 r := by
  obtain ⟨_, h2, _⟩ := (Props.Assemble.program_start w o ho c ts hs).2 i id l (some t) hi ht
  obtain ⟨a, e1, e2, e3, e4⟩ := sent_from x hlib hc
  have hscr : Screened own ren x.e.element := by rw [x.element]; exact config_screened w hk c own ren S hg _ t ((h2 t).1 rfl) hS
  rcases hp with rfl | rfl
  · exact Props.History.run_validated x.runs x.mem hscr e1 (e2 ▸ hc) r (e3 r hr) hopt
  · exact Props.History.run_validated_rest x.runs x.mem hscr e1 (e2 ▸ hc) r (e4 r hr hopt) hopt

/-- C122: if the sections behind a listener raise no TTLs, then from the start of the program on each record of a message that the listener sends was sent by a server in an earlier episode (or is in the
file), and the time to live the client sees ends at most `D + n (1 s + D) + k D` after the one the server gave, with `n` caches and `k` de-duplications on the way, if no episode takes longer than
`D`. -/
theorem program_fresh [DecidableEq H] (w : World H) (o : Config.Orders) (ho : Spec.Config.AnyOrder o) (c : Cfg) (ts : List (Option (Tree H))) (hs : start w o c = some ts) (hk : TtlsKept w.env)
    (own : RData → Nat → Prop) (caches dedups : Str → Nat) (S : Str → Prop) (hg : Counted w.env c own caches dedups S) (i : Nat) (id : Str) (l : Listener) (t : Tree H)
    (hi : c.listeners[i]? = some (id, l)) (ht : ts[i]? = some (some t)) (hS : S l.resolver) (lib : Listeners.Lib) (small : Msg → Nat → Prop) (hlib : Spec.Listeners.Truncates lib small)
    (V : Tree H → Msg → DnssecResolver.Verdict → Prop) (h : List (History.Episode H)) (D : Int) (hD : ∀ e ∈ h, e.stop ≤ e.start + D) (m : Msg) (x : Asked V t id h m lib) (r : RR)
    (hr : r ∈ m.answer ++ m.ns ++ m.extra) (hopt : r.isOpt = false) :
    ∃ e0 ∈ h, ∃ d0 ttl0, (Fresh.Sent e0.servers d0 ttl0 ∨ own d0 ttl0) ∧ Fresh.Comes d0 r.data ∧ e0.stop ≤ x.e.stop ∧
      x.e.stop + r.ttl * Fresh.sec ≤ e0.start + ttl0 * Fresh.sec + (D + caches l.resolver * (Fresh.sec + D) + dedups l.resolver * D) := by
  obtain ⟨_, h2, _⟩ := (Props.Assemble.program_start w o ho c ts hs).2 i id l (some t) hi ht
  rw [List.append_assoc] at hr
  rcases sent_any x hlib with ⟨-, e2, e3⟩ | ⟨a, e1, e2, e3, e4⟩
  · rw [e2, List.nil_append] at hr
    rw [e3 r hr] at hopt
    cases hopt
  · have hag : Fresh.Ages own (caches l.resolver) (dedups l.resolver) x.e.element := by
      rw [x.element]
      exact config_counted w hk c own caches dedups S hg _ t ((h2 t).1 rfl) hS _ _ (Nat.le_refl _) (Nat.le_refl _)
    obtain ⟨e0, k1, k2⟩ := Props.History.run_fresh x.runs hD x.mem hag e1 r (by
      rw [List.append_assoc]
      rcases List.mem_append.1 hr with hr | hr
      · exact List.mem_append_left _ (e3 r hr)
      · exact List.mem_append_right _ (e4 r hr hopt)) (by
      rintro ⟨s, b, o, h⟩
      unfold RR.isOpt at hopt
      rw [h] at hopt
      cases hopt)
    exact ⟨e0, k1, k2⟩

/-! ### A configuration: a server, behind a validator, behind a response blocklist that hands over to a static responder, behind a cache -/

open Props.Assemble

private def checked : Cfg :=
  { resolvers := [(str "a", { protocol := str "udp" })]
    groups := [(str "sec", { type := str "dnssec-validator", resolvers := [str "a"] }),
               (str "local", { type := str "static-responder", answer := [str "x A 127.0.0.1"] }),
               (str "filter", { type := str "response-blocklist-ip", resolvers := [str "sec"], blocklist := [str "10.0.0.0/8"], blockListResolver := str "local" }),
               (str "cache", { type := str "cache", resolvers := [str "filter"], cacheAnswerShuffle := str "random" })]
    listeners := [(str "l", { protocol := str "udp", resolver := str "cache" })] }

private def checkedEnv : Env Nat := { toyEnv with parseCIDR := fun s => if s = str "10.0.0.0/8" then some ([10, 0, 0, 0], ⟨[10, 0, 0, 0], 8⟩) else none }

private theorem own_local (g : Group) (own : RR → Prop) (h : own { name := str "x.", rtype := 1, cls := 1, ttl := 60, data := .a [127, 0, 0, 1] }) (h1 : g.type ≠ str "static-template") (h2 : g.type ≠ str "blocklist") (h3 : g.type ≠ str "blocklist-v2") :
    MakesUp checkedEnv g own := by
  refine ⟨fun _ s _ rr hr => ?_, fun h => absurd h h1, fun h => absurd h h2, fun h => absurd h h3⟩
  cases hr
  exact h

example : RecordsKept checkedEnv :=
  ⟨by simp [checkedEnv, toyEnv], fun m => ⟨rfl, fun r hr => ⟨r, hr, rfl, rfl, rfl, rfl⟩, fun r hr => ⟨r, hr, rfl, rfl, rfl, rfl⟩⟩, fun m => ⟨rfl, fun r hr => ⟨r, hr, rfl, rfl, rfl, rfl⟩, fun r hr => ⟨r, hr, rfl, rfl, rfl, rfl⟩⟩,
    by simp [checkedEnv, toyEnv]⟩

example : (start { toy with env := checkedEnv } someOrder checked).map (·.map (·.isSome)) = some [true] ∧
    BeforeAddresses checkedEnv checked (fun ip => ∃ x y z, ip = [10, x, y, z]) (fun x => x ∈ [str "local", str "filter", str "cache"]) := by
  refine ⟨by decide +kernel, ?_, ?_, ?_, ?_⟩
  · intro id r hS h
    simp only [checked, List.mem_cons, List.not_mem_nil, or_false, Prod.mk.injEq] at h
    obtain ⟨rfl, rfl⟩ := h
    exact absurd hS (by decide)
  · intro _; rfl
  · intro id g hS hg
    have hown : ¬ Address (fun ip => ∃ x y z, ip = [10, x, y, z]) (.a [127, 0, 0, 1]) := by
      rintro ⟨ip, h | h, x, y, z, rfl⟩ <;> simp at h
    simp only [checked, List.mem_cons, List.not_mem_nil, or_false, Prod.mk.injEq] at hg
    rcases hg with ⟨rfl, rfl⟩ | ⟨rfl, rfl⟩ | ⟨rfl, rfl⟩ | ⟨rfl, rfl⟩
    · exact absurd hS (by decide)
    · refine ⟨by rintro (h | ⟨h, _⟩) <;> exact absurd h (by decide), fun h => absurd h (by decide), by decide, own_local _ _ hown (by decide) (by decide) (by decide), .inl ?_⟩
      rintro x (h | ⟨h1, rfl | rfl | rfl | rfl⟩) <;> first | exact absurd rfl h1 | cases h
    · refine ⟨by rintro (h | ⟨h, _⟩) <;> exact absurd h (by decide), fun h => absurd h (by decide), by decide, own_local _ _ hown (by decide) (by decide) (by decide), .inr ⟨⟨.inl rfl, rfl, .inl rfl, by decide, ?_, ?_⟩, fun _ => by decide⟩⟩
      · intro e he
        rw [show Spec.Cidr.networks checkedEnv.parseCIDR [str "10.0.0.0/8"] = [([10, 0, 0, 0], ⟨[10, 0, 0, 0], 8⟩)] from by decide +kernel] at he
        cases List.mem_singleton.1 he
        unfold Spec.Cidr.Regular
        decide +kernel
      · rintro ip ⟨x, y, z, rfl⟩
        refine ⟨.inl rfl, ([10, 0, 0, 0], ⟨[10, 0, 0, 0], 8⟩), by decide +kernel, ?_⟩
        exact ⟨rfl, rfl⟩
    · refine ⟨?_, fun h => absurd h (by decide), by decide, own_local _ _ hown (by decide) (by decide) (by decide), .inl ?_⟩
      · rintro (h | ⟨-, b, h, _⟩)
        · exact absurd h (by decide)
        · cases h
      · rintro x (h | ⟨h1, rfl | rfl | rfl | rfl⟩)
        · cases List.mem_singleton.1 h; decide
        all_goals exact absurd rfl h1
  · intro id rs hS hr
    cases hr

/-- Only the record of the static responder does not come from a validated message. -/
example : BeforeValidated checkedEnv checked (· = .a [127, 0, 0, 1]) False (fun x => x ∈ [str "sec", str "local", str "filter", str "cache"]) := by
  refine ⟨?_, ?_, ?_, ?_⟩
  · intro id r hS h
    simp only [checked, List.mem_cons, List.not_mem_nil, or_false, Prod.mk.injEq] at h
    obtain ⟨rfl, rfl⟩ := h
    exact absurd hS (by decide)
  · intro _; rfl
  · intro id g hS hg
    simp only [checked, List.mem_cons, List.not_mem_nil, or_false, Prod.mk.injEq] at hg
    rcases hg with ⟨rfl, rfl⟩ | ⟨rfl, rfl⟩ | ⟨rfl, rfl⟩ | ⟨rfl, rfl⟩
    · exact ⟨by rintro (h | ⟨h, _⟩) <;> exact absurd h (by decide), fun h => absurd h (by decide), by decide, own_local _ _ rfl (by decide) (by decide) (by decide), by rintro (h | h | h) <;> exact absurd h (by decide), .inr ⟨rfl, rfl⟩⟩
    · refine ⟨by rintro (h | ⟨h, _⟩) <;> exact absurd h (by decide), fun h => absurd h (by decide), by decide, own_local _ _ rfl (by decide) (by decide) (by decide), by rintro (h | h | h) <;> exact absurd h (by decide), .inl ?_⟩
      rintro x (h | ⟨h1, rfl | rfl | rfl | rfl⟩) <;> first | exact absurd rfl h1 | cases h
    · refine ⟨by rintro (h | ⟨h, _⟩) <;> exact absurd h (by decide), fun h => absurd h (by decide), by decide, own_local _ _ rfl (by decide) (by decide) (by decide), by rintro (h | h | h) <;> exact absurd h (by decide), .inl ?_⟩
      rintro x (h | ⟨h1, rfl | rfl | rfl | rfl⟩)
      · cases List.mem_singleton.1 h; decide
      all_goals first | exact absurd rfl h1 | decide
    · refine ⟨?_, fun h => absurd h (by decide), by decide, own_local _ _ rfl (by decide) (by decide) (by decide), by rintro (h | h | h) <;> exact absurd h (by decide), .inl ?_⟩
      · rintro (h | ⟨-, b, h, _⟩)
        · exact absurd h (by decide)
        · cases h
      · rintro x (h | ⟨h1, rfl | rfl | rfl | rfl⟩)
        · cases List.mem_singleton.1 h; decide
        all_goals exact absurd rfl h1
  · intro id rs hS hr
    cases hr

/-- In the same configuration there is one cache and no de-duplication on the way. -/
example : Counted checkedEnv checked (fun d ttl => d = .a [127, 0, 0, 1] ∧ ttl = 60) (fun x => if x = str "cache" then 1 else 0) (fun _ => 0) (fun _ => True) := by
  refine ⟨?_, ?_⟩
  · intro id g hS hg
    simp only [checked, List.mem_cons, List.not_mem_nil, or_false, Prod.mk.injEq] at hg
    rcases hg with ⟨rfl, rfl⟩ | ⟨rfl, rfl⟩ | ⟨rfl, rfl⟩ | ⟨rfl, rfl⟩
    all_goals refine ⟨?_, by decide, own_local _ _ ⟨rfl, rfl⟩ (by decide) (by decide) (by decide), fun h => absurd h (by decide), fun h => absurd h (by decide), ?_⟩
    · rintro (h | ⟨h, _⟩) <;> exact absurd h (by decide)
    · rintro x (h | ⟨h1, rfl | rfl | rfl | rfl⟩)
      · cases List.mem_singleton.1 h; decide
      all_goals exact absurd rfl h1
    · rintro (h | ⟨h, _⟩) <;> exact absurd h (by decide)
    · rintro x (h | ⟨h1, rfl | rfl | rfl | rfl⟩) <;> first | exact absurd rfl h1 | cases h
    · rintro (h | ⟨h, _⟩) <;> exact absurd h (by decide)
    · rintro x (h | ⟨h1, rfl | rfl | rfl | rfl⟩)
      · cases List.mem_singleton.1 h; decide
      all_goals first | exact absurd rfl h1 | decide
    · rintro (h | ⟨-, b, h, _⟩)
      · exact absurd h (by decide)
      · cases h
    · rintro x (h | ⟨h1, rfl | rfl | rfl | rfl⟩)
      · cases List.mem_singleton.1 h; decide
      all_goals exact absurd rfl h1
  · intro id rs hS hr
    cases hr

/-- A configuration with a response blocklist for names, which refuses what points to `ads.test` -/
private def pointing : Cfg :=
  { resolvers := [(str "a", { protocol := str "udp" })]
    groups := [(str "names", { type := str "response-blocklist-name", resolvers := [str "a"], blocklist := [str "ads.test"], blocklistFormat := str "domain" })]
    listeners := [(str "l", { protocol := str "tcp", resolver := str "names" })] }

example : (start toy someOrder pointing).map (·.map (·.isSome)) = some [true] ∧ BeforeNames toyEnv pointing (fun n => Spec.Domain.labels n = [str "test", str "ads"]) (fun x => x = str "names") := by
  have ha : (Spec.Domain.ruleOf false (str "ads.test")).Matches [str "test", str "ads"] := by
    rw [show Spec.Domain.ruleOf false (str "ads.test") = .exact [str "test", str "ads"] from by decide +kernel]
    rfl
  refine ⟨by decide +kernel, ?_, ?_, ?_, ?_⟩
  · intro id r hS h
    simp only [pointing, List.mem_cons, List.not_mem_nil, or_false, Prod.mk.injEq] at h
    obtain ⟨rfl, rfl⟩ := h
    exact absurd hS (by decide)
  · intro _; rfl
  · intro id g hS hg
    simp only [pointing, List.mem_cons, List.not_mem_nil, or_false, Prod.mk.injEq] at hg
    obtain ⟨rfl, rfl⟩ := hg
    refine ⟨by rintro (h | ⟨h, _⟩) <;> exact absurd h (by decide), fun h => absurd h (by decide), by decide,
      ⟨fun h => absurd h (by decide), fun h => absurd h (by decide), fun h => absurd h (by decide), fun h => absurd h (by decide)⟩,
      .inr ⟨⟨rfl, rfl, by decide, fun n hn => ⟨_, List.mem_singleton_self _, .domain (by rw [hn]; exact ha)⟩⟩, fun h => absurd rfl h⟩⟩
  · intro id rs hS hr
    cases hr

private def exQ : Msg := { id := 5, question := [⟨str "a.", 1, 1⟩] }
private def exA : Msg := { id := 5, question := [⟨str "a.", 1, 1⟩], response := true, answer := [⟨str "a.", 1, 1, 60, .a [1, 2, 3, 4]⟩] }
private def exLib : Listeners.Lib := { len := fun _ => 0, truncate := fun m _ => m, pack := fun _ => none, unpack := fun _ => none, parseIP := fun _ => none }
private def exE : History.Episode Nat :=
  ⟨.dnssec false (.client 0), exQ, {}, .ok { exA with ad := true }, 1700000000000000000, 1700000000030000000, fun _ _ _ o => o = some (.ok exA)⟩

/-- A query over TCP to a validator before a server whose response is validated: the client gets the response. -/
example : Nonempty (Asked (H := Nat) (fun _ m v => m = exA ∧ v = .valid) (.dnssec false (.client 0)) (str "l") [exE] { exA with ad := true } exLib) := by
  have hr : RepliesIn (H := Nat) (History.since (H := Nat) (fun _ m v => m = exA ∧ v = .valid) [] exE.start exE.stop) exE.servers (.dnssec false (.client 0)) exQ {} _ :=
    .dnssec (o := some (.ok exA)) (v := fun _ => .valid) (.client rfl) (fun m h => by cases h; exact ⟨rfl, rfl⟩)
  rw [show ((some (Res.ok exA)).bind fun r => DnssecResolver.resolve false (fun _ => .valid) (fun _ _ => r) exQ {}) = some (.ok { exA with ad := true }) from by decide +kernel] at hr
  exact ⟨{ runs := .next .start (by decide) (by simp) hr, e := exE, mem := List.mem_singleton_self _, element := rfl, tr := .tcp 0, valid := .inl rfl, any := (fun _ h => by cases h), nets := [], peer := [127, 0, 0, 1],
           sni := [], well := ⟨by simp, .inr (.inl rfl)⟩, r := fun _ _ => .ok { exA with ad := true }, reply := rfl, decoded := (fun h => h.elim), sent := by decide +kernel }⟩

end Verif.Props.ReplyConfig
