import Verif.Spec.AsksConfig
import Verif.Props.Asks
import Verif.Props.Assemble
import Verif.Props.Domain
import Verif.Props.Lists
import Verif.Props.Cidr
/-
C85: the same for whole configurations, from the rules written in their sections.
-/
set_option linter.unusedVariables false
set_option linter.unusedSimpArgs false
namespace Verif.Props.AsksConfig
open Verif Verif.Composition Verif.Assemble Verif.Asks Verif.Spec.Asks Verif.Spec.Assemble
variable {H : Type}

/-! ### Lists -/

private theorem inline_rules {env : Env H} {l : ListCfg} {rules : List Str} (hr : rules ≠ []) {d : NameList} (hd : NamesRead env l rules d) {db : Msg → Option Lists.Hit}
    (hm : nameListMay env d db) : nameDB env d rules = some db := by
  obtain ⟨rs, h1, h2⟩ := hm
  obtain ⟨s, _, hf⟩ := hd.source
  cases hf' : d.loader with
  | static x =>
    rw [hf'] at hf h1
    cases hf
    cases h1
    exact h2
  | http _ _ _ => rw [hf'] at hf; cases hf; exact absurd ‹rules = []› hr
  | file _ _ => rw [hf'] at hf; cases hf; exact absurd ‹rules = []› hr

private theorem domain_on {h : Domain.Heap} {list : Str} {q : Msg} {n : Str} (hn : Named q n) : Spec.Blocklist.On (Blocklist.domainMatch h list) q ↔ (Domain.lookupName h n).isSome = true := by
  obtain ⟨qu, rest, hq, rfl⟩ := hn
  unfold Spec.Blocklist.On Blocklist.domainMatch
  rw [hq]
  cases hx : Domain.lookupName h qu.name <;> simp [hx]

private theorem regexp_on {db : List (Str × (Str → Bool))} {list : Str} {q : Msg} {qu : Question} {rest : List Question} (hq : q.question = qu :: rest) :
    Spec.Blocklist.On (fun q => q.question.head?.bind (Lists.lookupRegexp db list)) q ↔ (Lists.lookupRegexp db list qu).isSome = true := by
  unfold Spec.Blocklist.On
  rw [Option.isSome_iff_exists]
  simp only [hq, List.head?_cons, Option.bind_some]

/-- What a list with rules in the configuration says -/
theorem said {env : Env H} {l : ListCfg} {rules : List Str} (hr : rules ≠ []) {d : NameList} (hd : NamesRead env l rules d) {db : Msg → Option Lists.Hit} (hm : nameListMay env d db)
    {q : Msg} {n : Str} (hn : Named q n) (h : ∃ line ∈ rules, About env l.format line n) : Spec.Blocklist.On db q := by
  have hdb := inline_rules hr hd hm
  obtain ⟨line, hl, ha⟩ := h
  have hf := hd.format
  unfold nameDB at hdb
  cases hx : d.format with
  | domain =>
    rw [hx] at hf hdb
    obtain ⟨hp, h1, rfl⟩ := Option.map_eq_some_iff.1 hdb
    rw [domain_on hn]
    generalize l.format = f at hf ha
    cases hf
    cases ha with
    | domain h2 => exact Domain.domain_complete false rules hp h1 n line hl h2
    | regexp h2 => rcases h2 with h2 | h2 <;> exact absurd h2 (by decide)
  | domainSubdomain =>
    rw [hx] at hf hdb
    obtain ⟨hp, h1, rfl⟩ := Option.map_eq_some_iff.1 hdb
    rw [domain_on hn]
    generalize l.format = f at hf ha
    cases hf
    cases ha with
    | domainSubdomain h2 => exact Domain.domain_complete true rules hp h1 n line hl h2
    | regexp h2 => rcases h2 with h2 | h2 <;> exact absurd h2 (by decide)
  | regexp =>
    rw [hx] at hf hdb
    obtain ⟨hp, h1, rfl⟩ := Option.map_eq_some_iff.1 hdb
    obtain ⟨qu, rest, hq, rfl⟩ := hn
    rw [regexp_on hq, Lists.regexp_match env.compile rules hp h1]
    generalize l.format = f at hf ha
    cases ha with
    | domain => cases hf
    | domainSubdomain => cases hf
    | regexp _ h2 h3 h4 h5 => exact ⟨line, _, hl, h2, h3, h4, h5⟩
  | hosts =>
    rw [hx] at hf
    generalize l.format = f at hf ha
    cases hf
    cases ha with
    | regexp h2 => rcases h2 with h2 | h2 <;> exact absurd h2 (by decide)
  | mac =>
    rw [hx] at hf
    generalize l.format = f at hf ha
    cases hf
    cases ha with
    | regexp h2 => rcases h2 with h2 | h2 <;> exact absurd h2 (by decide)

private theorem said_only {env : Env H} {l : ListCfg} {rules : List Str} (hr : rules ≠ []) {d : NameList} (hd : NamesRead env l rules d) {db : Msg → Option Lists.Hit} (hm : nameListMay env d db)
    (hh : ∀ line ∈ rules, Spec.Domain.NoHole line) (hform : l.format ∈ [[], str "regexp", str "domain", str "domain-subdomain"]) {q : Msg} {n : Str} (hn : Named q n)
    (h : Spec.Blocklist.On db q) : ∃ line ∈ rules, About env l.format line n := by
  have hdb := inline_rules hr hd hm
  have hf := hd.format
  unfold nameDB at hdb
  cases hx : d.format with
  | domain =>
    rw [hx] at hf hdb
    obtain ⟨hp, h1, rfl⟩ := Option.map_eq_some_iff.1 hdb
    rw [domain_on hn] at h
    obtain ⟨line, h2, h3⟩ := (Domain.domain_match_iff false rules hp h1 hh n).1 h
    refine ⟨line, h2, ?_⟩
    generalize l.format = f at hf
    cases hf
    exact .domain h3
  | domainSubdomain =>
    rw [hx] at hf hdb
    obtain ⟨hp, h1, rfl⟩ := Option.map_eq_some_iff.1 hdb
    rw [domain_on hn] at h
    obtain ⟨line, h2, h3⟩ := (Domain.domain_match_iff true rules hp h1 hh n).1 h
    refine ⟨line, h2, ?_⟩
    generalize l.format = f at hf
    cases hf
    exact .domainSubdomain h3
  | regexp =>
    rw [hx] at hf hdb
    obtain ⟨hp, h1, rfl⟩ := Option.map_eq_some_iff.1 hdb
    obtain ⟨qu, rest, hq, rfl⟩ := hn
    rw [regexp_on hq, Lists.regexp_match env.compile rules hp h1] at h
    obtain ⟨line, f, h2, h3, h4, h5, h6⟩ := h
    refine ⟨line, h2, .regexp ?_ h3 h4 h5 h6⟩
    generalize l.format = f at hf
    cases hf
    · exact .inl rfl
    · exact .inr rfl
  | hosts =>
    rw [hx] at hf
    generalize l.format = f at hf hform
    cases hf
    exact absurd hform (by decide)
  | mac =>
    rw [hx] at hf
    generalize l.format = f at hf hform
    cases hf
    exact absurd hform (by decide)

private theorem db_says {env : Env H} {d : NameList} {rules : List Str} {db : Msg → Option Lists.Hit} (h : nameDB env d rules = some db) : Says env d rules db := by
  unfold nameDB at h
  have hd : ∀ sub, d.format = (if sub then NameFormat.domainSubdomain else .domain) → ∃ hp, Domain.load sub rules Domain.initial = some hp ∧ Blocklist.domainMatch hp d.name = db := by
    intro sub hf
    cases sub <;> simp only [Bool.false_eq_true, if_false, if_true] at hf <;> rw [hf] at h <;> exact Option.map_eq_some_iff.1 h
  have hr : d.format = .regexp → ∃ r, Lists.loadRegexp env.compile rules = some r ∧ (fun q => q.question.head?.bind (Lists.lookupRegexp r d.name)) = db := by
    intro hf
    rw [hf] at h
    exact Option.map_eq_some_iff.1 h
  have hh : d.format = .hosts → (fun q => q.question.head?.bind ((Lists.loadHosts env.parseIP env.reverseAddr rules).lookup d.name)) = db := by
    intro hf
    rw [hf] at h
    exact Option.some.inj h
  have hm : d.format = .mac → ∃ macs, Lists.loadMAC rules = some macs ∧ (fun q => (Lists.matchMAC macs q).map fun rule => { rule := ⟨d.name, rule⟩ }) = db := by
    intro hf
    rw [hf] at h
    exact Option.map_eq_some_iff.1 h
  clear h
  refine ⟨?_, ?_, ?_, ?_, ?_, ?_⟩
  · intro q hit hq
    cases hf : d.format with
    | domain =>
      obtain ⟨hp, -, rfl⟩ := hd false hf
      obtain ⟨qu, -, h2⟩ := Option.bind_eq_some_iff.1 hq
      obtain ⟨r, -, rfl⟩ := Option.map_eq_some_iff.1 h2
      rfl
    | domainSubdomain =>
      obtain ⟨hp, -, rfl⟩ := hd true hf
      obtain ⟨qu, -, h2⟩ := Option.bind_eq_some_iff.1 hq
      obtain ⟨r, -, rfl⟩ := Option.map_eq_some_iff.1 h2
      rfl
    | regexp =>
      obtain ⟨r, -, rfl⟩ := hr hf
      obtain ⟨qu, -, h2⟩ := Option.bind_eq_some_iff.1 hq
      obtain ⟨r, -, rfl⟩ := Option.map_eq_some_iff.1 h2
      rfl
    | hosts =>
      cases hh hf
      obtain ⟨qu, -, h2⟩ := Option.bind_eq_some_iff.1 hq
      unfold Lists.HostsDB.lookup at h2
      split at h2
      · obtain ⟨r, -, rfl⟩ := Option.map_eq_some_iff.1 h2
        rfl
      · obtain ⟨r, -, rfl⟩ := Option.map_eq_some_iff.1 h2
        rfl
    | mac =>
      obtain ⟨r, -, rfl⟩ := hm hf
      obtain ⟨r, -, rfl⟩ := Option.map_eq_some_iff.1 hq
      rfl
  · intro sub hf hno q qu rest hq
    obtain ⟨hp, h1, rfl⟩ := hd sub hf
    rw [domain_on ⟨qu, rest, hq, rfl⟩]
    exact Domain.domain_match_iff sub rules hp h1 hno qu.name
  · intro hf q qu rest hq
    obtain ⟨r, h1, rfl⟩ := hr hf
    rw [regexp_on hq, Lists.regexp_match env.compile rules r h1]
  · intro hf hp q qu rest hq ht
    cases hh hf
    obtain ⟨h1, h2⟩ := Lists.hosts_match env.parseIP env.reverseAddr hp rules d.name qu ht
    by_cases he : ∃ e ∈ Spec.Lists.listed rules, Spec.Lists.sameName e.2 qu.name
    · refine ⟨⟨fun _ => he, fun _ => ⟨_, by simp only [hq, List.head?_cons, Option.bind_some]; exact h1 he⟩⟩, fun hit hx => ?_⟩
      simp only [hq, List.head?_cons, Option.bind_some, h1 he] at hx
      cases hx
      rfl
    · have hn := h2 fun e h1 h2 => he ⟨e, h1, h2⟩
      refine ⟨⟨fun ⟨x, hx⟩ => ?_, fun h => (he h).elim⟩, fun hit hx => ?_⟩
      · simp only [hq, List.head?_cons, Option.bind_some, hn] at hx
        cases hx
      · simp only [hq, List.head?_cons, Option.bind_some, hn] at hx
        cases hx
  · intro hf q qu rest hq ht
    cases hh hf
    have h1 := (Lists.hosts_ptr env.parseIP env.reverseAddr rules d.name qu ht).1
    unfold Spec.Blocklist.On
    simp only [hq, List.head?_cons, Option.bind_some]
    rw [← Option.isSome_iff_exists, h1, decide_eq_true_eq]
  · intro hf q
    obtain ⟨macs, h1, rfl⟩ := hm hf
    rw [← Lists.mac_match_iff rules macs h1 q]
    unfold Spec.Blocklist.On
    rw [← Option.isSome_iff_exists, Option.isSome_map]

/-- Whatever a list of a configuration is at some time, it says what some rules say: those of the section if they are written there. And a list from a server or file may be any that loads. -/
theorem list_says (env : Env H) (d : NameList) :
    (∀ db, nameListMay env d db → ∃ rules, (∀ rs, d.loader = .static rs → rules = rs) ∧ Says env d rules db) ∧
    (d.format = .hosts → (∀ rs, d.loader ≠ .static rs) → ∀ rules, ∃ db, nameListMay env d db ∧ Says env d rules db) := by
  constructor
  · rintro db ⟨rules, h1, h2⟩
    refine ⟨rules, fun rs hs => ?_, db_says h2⟩
    rw [hs] at h1
    exact h1
  · intro hf hl rules
    have h2 : nameDB env d rules = some fun q => q.question.head?.bind ((Lists.loadHosts env.parseIP env.reverseAddr rules).lookup d.name) := by
      unfold nameDB
      rw [hf]
    refine ⟨_, ⟨rules, ?_, h2⟩, db_says h2⟩
    cases hd : d.loader with
    | static rs => exact (hl rs hd).elim
    | http _ _ _ => trivial
    | file _ _ => trivial

theorem several_one {δ α β : Type} {may : δ → (α → Option β) → Prop} {d : δ} {db : α → Option β} (h : Several may [d] db) : ∃ f, may d f ∧ ∀ x, db x = f x := by
  obtain ⟨dbs, he, hx⟩ := h
  cases he with
  | cons h1 h2 =>
    cases h2
    refine ⟨_, h1, fun x => ?_⟩
    rw [hx x]
    simp only [List.findSome?_cons, List.findSome?_nil]
    split <;> simp_all

private theorem several_none {δ α β : Type} {may : δ → (α → Option β) → Prop} {db : α → Option β} (h : Several may [] db) (x : α) : db x = none := by
  obtain ⟨dbs, he, hx⟩ := h
  cases he
  exact hx x

/-- The old type of blocklist with rules in its section -/
theorem old_blocks (env : Env H) (id : Str) (g : Group) (bad : Str → Prop) (hb : g.blocklist ≠ []) (hl : ∀ n, bad n → ∃ line ∈ g.blocklist, About env g.format line n) (d : NameList)
    (hd : NamesRead env { name := id, format := g.format, source := g.source } g.blocklist d) : Blocks (BlocklistIs env [d] none none (none : Option (Tree H)) none) bad := by
  intro opt ho q n hn hbad
  obtain ⟨f, h1, h2⟩ := several_one ho.blockDB
  refine ⟨?_, fun db h => ?_⟩
  · obtain ⟨x, hx⟩ := said hb hd h1 hn (hl n hbad)
    exact ⟨x, by rw [h2, hx]⟩
  · rw [ho.noAllow rfl] at h
    cases h

/-- Blocklists with rules in their section, and perhaps rules for what is allowed nevertheless -/
theorem v2_blocks (env : Env H) (id : Str) (g : Group) (bad : Str → Prop) (hb : g.blocklist ≠ []) (hl : ∀ n, bad n → ∃ line ∈ g.blocklist, About env g.blocklistFormat line n)
    (has : g.allowlistSource = []) (hal : ∀ line ∈ g.allowlist, Spec.Domain.NoHole line ∧ ∀ n, bad n → ¬ About env g.blocklistFormat line n)
    (hform : g.blocklistFormat ∈ [[], str "regexp", str "domain", str "domain-subdomain"]) (b a : List NameList)
    (h1 : NameLists env { name := id, format := g.blocklistFormat } g.blocklist g.blocklistSource b) (h2 : NameLists env { format := g.blocklistFormat } g.allowlist g.allowlistSource a)
    (e : Option Blocklist.Ede) (allow block : Option (Tree H)) : Blocks (BlocklistIs env b (some a) e allow block) bad := by
  intro opt ho q n hn hbad
  constructor
  · cases h1 with
    | rules _ _ hd =>
      obtain ⟨f, h3, h4⟩ := several_one ho.blockDB
      obtain ⟨x, hx⟩ := said hb hd h3 hn (hl n hbad)
      exact ⟨x, by rw [h4, hx]⟩
    | sources h => exact absurd h hb
  · intro db hdb hon
    obtain ⟨db', h3, h4⟩ := ho.allowDB a rfl
    rw [hdb] at h3
    cases h3
    cases h2 with
    | rules hne _ hd =>
      obtain ⟨f, h5, h6⟩ := several_one h4
      obtain ⟨x, hx⟩ := hon
      obtain ⟨line, h7, h8⟩ := said_only hne hd h5 (fun line h => (hal line h).1) hform hn ⟨x, by rw [← h6, hx]⟩
      exact (hal line h7).2 n hbad h8
    | sources _ he =>
      rw [has] at he
      cases he
      obtain ⟨x, hx⟩ := hon
      rw [several_none h4 q] at hx
      cases hx

/-! ### Sections -/

private theorem nth_all {P : Tree H → Prop} (hd : P .drop) {gr : List (Tree H)} (h : ∀ (i : Nat) (t : Tree H), gr[i]? = some t → P t) (i : Nat) : P (nth gr i) := by
  unfold nth
  cases hi : gr[i]? with
  | none => exact hd
  | some t => exact h i t hi

private theorem opt_all {P : Tree H → Prop} {x : Option (Tree H)} (h : ∀ t, x = some t → P t) {d : Tree H} (hd : P d) : P (x.getD d) := by
  cases x with
  | none => exact hd
  | some t => exact h t rfl

private theorem ne_of_some {x : Option (Tree H)} {s : Str} (h : x = none ↔ s = []) {t : Tree H} (ht : x = some t) : s ≠ [] := by
  intro e
  rw [h.2 e] at ht
  cases ht

/-- Sections that leave names alone make elements that do. -/
theorem plain_keeps (w : World H) (c : Cfg) (K : Str → Prop) (hk : Plain c K) (id : Str) (t : Tree H) (h : Denotes w c id t) (hS : K id) : Keeps t := by
  induction h with
  | resolver h1 => exact trivial
  | bootstrap h1 => exact trivial
  | router h1 h2 h3 h4 ih =>
    refine fun i => nth_all trivial (fun i t ht => ?_) i
    have hi : i < _ := (List.getElem?_eq_some_iff.1 ht).1
    rw [h2] at hi
    exact ih i _ t (List.getElem?_eq_getElem hi) ht (hk.router _ _ hS h1 _ (List.getElem_mem hi))
  | @group id g gr o b h1 h2 h3 a1 a2 b1 b2 l1 l2 r1 r2 hb ih ia ib il ir =>
    obtain ⟨hty, href⟩ := hk.group _ _ hS h1
    have hm : ∀ (i : Nat) (t : Tree H), gr[i]? = some t → Keeps t := by
      intro i t ht
      have hi : i < gr.length := (List.getElem?_eq_some_iff.1 ht).1
      rw [h2] at hi
      exact ih i _ t (List.getElem?_eq_getElem hi) ht (href _ <| .inl <| (List.getElem_mem hi))
    have ho : ∀ {t}, gr = [t] → Keeps t := fun {t} ht => hm 0 t (by rw [ht]; rfl)
    have pa : ∀ t, o.allow = some t → Keeps t := fun t ht => ia t ht (href _ <| .inr <| ⟨ne_of_some a1 ht, .inl rfl⟩)
    have pb : ∀ t, o.block = some t → Keeps t := fun t ht => ib t ht (href _ <| .inr <| ⟨ne_of_some b1 ht, .inr (.inl rfl)⟩)
    have pl : ∀ t, o.limit = some t → Keeps t := fun t ht => il t ht (href _ <| .inr <| ⟨ne_of_some l1 ht, .inr (.inr (.inl rfl))⟩)
    have pr : ∀ t, o.retry = some t → Keeps t := fun t ht => ir t ht (href _ <| .inr <| ⟨ne_of_some r1 ht, .inr (.inr (.inr rfl))⟩)
    cases hb with
    | roundRobin h => exact nth_all trivial hm
    | failRotate h => exact nth_all trivial hm
    | failBackEach h => exact nth_all trivial hm
    | failBack h => exact nth_all trivial hm
    | fastest h => exact nth_all trivial hm
    | loadBalance h => exact nth_all trivial hm
    | random h => exact nth_all trivial hm
    | ttlModifier h ht => exact (ho ht :)
    | requestDedup h ht => exact (ho ht :)
    | fastestTcp h ht => exact (ho ht :)
    | ecsModifier h ht => exact (ho ht :)
    | edns0Modifier h ht => exact (ho ht :)
    | syslog h ht => exact (ho ht :)
    | cache h ht => exact (ho ht :)
    | minimize h ht => exact (ho ht :)
    | collapse h ht => exact (ho ht :)
    | queryLog h ht => exact (ho ht :)
    | dns64 h ht => exact (ho ht :)
    | blocklist h ht => exact ⟨ho ht, ho ht, trivial⟩
    | blocklistV2 h ht => exact ⟨ho ht, opt_all pa (ho ht), opt_all pb trivial⟩
    | truncateRetry h ht hr => exact ⟨ho ht, pr _ hr⟩
    | responseIp h ht => exact ⟨ho ht, opt_all pb trivial⟩
    | responseName h ht => exact ⟨ho ht, opt_all pb trivial⟩
    | clientBlocklist h ht => exact ⟨ho ht, opt_all pb trivial⟩
    | rateLimiter h ht hl' => exact ⟨ho ht, pl _ hl'⟩
    | rateLimiterDrop h ht => exact ⟨ho ht, trivial⟩
    | replace h ht => exact absurd h (by simp at hty; exact hty.1)
    | prefetch h ht => exact absurd h (by simp at hty; exact hty.2.1)
    | dnssec h ht => exact absurd h (by simp at hty; exact hty.2.2)
    | staticResponder => trivial
    | staticTemplate => trivial
    | drop => trivial
    | redis => trivial
    | lua => trivial

/-- And every way from sections before blocklists leads through the blocklists. -/
theorem before_guarded (w : World H) (c : Cfg) (bad : Str → Prop) (K S : Str → Prop) (hk : Plain c K) (hg : Before w.env c bad K S) (id : Str) (t : Tree H) (h : Denotes w c id t) (hS : S id) :
    Guarded bad t := by
  induction h with
  | resolver h1 => exact (hg.resolver _ _ hS h1).elim
  | bootstrap h1 => exact by rw [hg.bootstrap hS] at h1; cases h1
  | router h1 h2 h3 h4 ih =>
    refine fun i => nth_all trivial (fun i t ht => ?_) i
    have hi : i < _ := (List.getElem?_eq_some_iff.1 ht).1
    rw [h2] at hi
    exact ih i _ t (List.getElem?_eq_getElem hi) ht (hg.router _ _ hS h1 _ (List.getElem_mem hi))
  | @group id g gr o b h1 h2 h3 a1 a2 b1 b2 l1 l2 r1 r2 hb ih ia ib il ir =>
    obtain ⟨hop, href | ⟨hl, hK, hKa, hSb⟩⟩ := hg.group _ _ hS h1
    · have hm : ∀ (i : Nat) (t : Tree H), gr[i]? = some t → Guarded bad t := by
        intro i t ht
        have hi : i < gr.length := (List.getElem?_eq_some_iff.1 ht).1
        rw [h2] at hi
        exact ih i _ t (List.getElem?_eq_getElem hi) ht (href _ <| .inl <| (List.getElem_mem hi))
      have ho : ∀ {t}, gr = [t] → Guarded bad t := fun {t} ht => hm 0 t (by rw [ht]; rfl)
      have pa : ∀ t, o.allow = some t → Guarded bad t := fun t ht => ia t ht (href _ <| .inr <| ⟨ne_of_some a1 ht, .inl rfl⟩)
      have pb : ∀ t, o.block = some t → Guarded bad t := fun t ht => ib t ht (href _ <| .inr <| ⟨ne_of_some b1 ht, .inr (.inl rfl)⟩)
      have pl : ∀ t, o.limit = some t → Guarded bad t := fun t ht => il t ht (href _ <| .inr <| ⟨ne_of_some l1 ht, .inr (.inr (.inl rfl))⟩)
      have pr : ∀ t, o.retry = some t → Guarded bad t := fun t ht => ir t ht (href _ <| .inr <| ⟨ne_of_some r1 ht, .inr (.inr (.inr rfl))⟩)
      cases hb with
      | roundRobin h => exact nth_all trivial hm
      | failRotate h => exact nth_all trivial hm
      | failBackEach h => exact nth_all trivial hm
      | failBack h => exact nth_all trivial hm
      | fastest h => exact nth_all trivial hm
      | loadBalance h => exact nth_all trivial hm
      | random h => exact nth_all trivial hm
      | ttlModifier h ht => exact (ho ht :)
      | requestDedup h ht => exact (ho ht :)
      | fastestTcp h ht => exact (ho ht :)
      | ecsModifier h ht => exact (ho ht :)
      | edns0Modifier h ht => exact (ho ht :)
      | syslog h ht => exact (ho ht :)
      | cache h ht => exact (ho ht :)
      | minimize h ht => exact (ho ht :)
      | collapse h ht => exact (ho ht :)
      | queryLog h ht => exact (ho ht :)
      | dns64 h ht => exact (ho ht :)
      | blocklist h ht => exact .inr ⟨ho ht, ho ht, trivial⟩
      | blocklistV2 h ht => exact .inr ⟨ho ht, opt_all pa (ho ht), opt_all pb trivial⟩
      | truncateRetry h ht hr => exact ⟨ho ht, pr _ hr⟩
      | responseIp h ht => exact ⟨ho ht, opt_all pb trivial⟩
      | responseName h ht => exact ⟨ho ht, opt_all pb trivial⟩
      | clientBlocklist h ht => exact ⟨ho ht, opt_all pb trivial⟩
      | rateLimiter h ht hl' => exact ⟨ho ht, pl _ hl'⟩
      | rateLimiterDrop h ht => exact ⟨ho ht, trivial⟩
      | replace h ht => exact (ho ht :)
      | prefetch h ht => exact (ho ht :)
      | dnssec h ht => exact (ho ht :)
      | redis h ht _ _ hbk hbt => exact absurd (.inr ⟨h, _, hbk, hbt⟩) hop
      | lua h => exact absurd (.inl h) hop
      | staticResponder => trivial
      | staticTemplate => trivial
      | drop => trivial
    · have hm : ∀ {t}, gr = [t] → Keeps t := by
        intro t ht
        have hl1 : 0 < g.resolvers.length := by rw [← h2, ht]; exact Nat.one_pos
        exact plain_keeps w c K hk _ t (h3 0 _ t (List.getElem?_eq_getElem hl1) (by rw [ht]; rfl)) (hK _ (List.getElem_mem hl1))
      have pa : ∀ t, o.allow = some t → Keeps t := fun t ht => plain_keeps w c K hk _ t (a2 t ht) (hKa (ne_of_some a1 ht))
      have pb : ∀ t, o.block = some t → Guarded bad t := fun t ht => ib t ht (hSb (ne_of_some b1 ht))
      cases hl with
      | old hty hne hl =>
        cases hb with
        | blocklist h ht _ hd => exact .inl ⟨old_blocks w.env id g bad hne hl _ hd, hm ht, hm ht, trivial⟩
        | responseIp h => rw [hty] at h; rcases h with h | h <;> exact absurd h (by decide)
        | _ h => rw [hty] at h; exact absurd h (by decide)
      | v2 hty hne hl has hal hform =>
        cases hb with
        | blocklistV2 h ht hb ha => exact .inl ⟨v2_blocks w.env id g bad hne hl has hal hform _ _ hb ha _ _ _, hm ht, opt_all pa (hm ht), opt_all pb trivial⟩
        | responseIp h => rw [hty] at h; rcases h with h | h <;> exact absurd h (by decide)
        | _ h => rw [hty] at h; exact absurd h (by decide)

/-- Lists of clients with networks in their section -/
theorem client_blocks (env : Env H) (id : Str) (g : Group) (ip : Str) (hip : ip.length = 4 ∨ ip.length = 16) (hl : ListsClient env g ip) (b : List IpList)
    (h : IpLists env { name := id, format := g.blocklistFormat } g.locationDB g.blocklist g.blocklistSource b) (block : Option (Tree H)) : BlocksClient (ClientIs env g b block) ip := by
  intro useECS hasBlock db ho
  refine ⟨by rw [ho.useECS, hl.useECS], ?_⟩
  cases h with
  | @rules d hne hs hd =>
    obtain ⟨f, h1, h2⟩ := several_one ho.db
    have hfmt : d.format = .cidr := by
      have hf := hd.format
      generalize hx : d.format = x at hf
      have hl' := hl.format
      dsimp only at hf
      generalize g.blocklistFormat = s at hf hl'
      cases hf with
      | default => rfl
      | cidr => rfl
      | location => rcases hl' with h | h <;> exact absurd h (by decide)
      | asn => rcases hl' with h | h <;> exact absurd h (by decide)
    unfold ipListMay at h1
    rw [hfmt] at h1
    obtain ⟨rs, cd, h3, h4, h5⟩ := h1
    have hrs : rs = g.blocklist := by
      obtain ⟨s, _, hf⟩ := hd.source
      cases hf' : d.loader with
      | static x =>
        rw [hf'] at hf h3
        cases hf
        exact h3
      | http _ _ _ => rw [hf'] at hf; cases hf; exact absurd ‹g.blocklist = []› hne
      | file _ _ => rw [hf'] at hf; cases hf; exact absurd ‹g.blocklist = []› hne
    subst hrs
    have := (Cidr.cidr_match_iff env.parseCIDR g.blocklist cd h4 hl.regular ip hip).2 hl.inNet
    rw [← h5 ip] at this
    obtain ⟨m, hm⟩ := Option.isSome_iff_exists.1 this
    exact ⟨m, by rw [h2, hm]⟩
  | sources h => exact absurd h hl.inline

/-- The same for clients. -/
theorem before_guarded_client (w : World H) (c : Cfg) (ip : Str) (hip : ip.length = 4 ∨ ip.length = 16) (S : Str → Prop) (hg : BeforeClient w.env c ip S) (id : Str) (t : Tree H) (h : Denotes w c id t) (hS : S id) :
    GuardedFrom ip t := by
  induction h with
  | resolver h1 => exact (hg.resolver _ _ hS h1).elim
  | bootstrap h1 => exact by rw [hg.bootstrap hS] at h1; cases h1
  | router h1 h2 h3 h4 ih =>
    refine fun i => nth_all trivial (fun i t ht => ?_) i
    have hi : i < _ := (List.getElem?_eq_some_iff.1 ht).1
    rw [h2] at hi
    exact ih i _ t (List.getElem?_eq_getElem hi) ht (hg.router _ _ hS h1 _ (List.getElem_mem hi))
  | @group id g gr o b h1 h2 h3 a1 a2 b1 b2 l1 l2 r1 r2 hb ih ia ib il ir =>
    obtain ⟨hop, hpre, hsec, href | ⟨hl, hSb⟩⟩ := hg.group _ _ hS h1
    · have hm : ∀ (i : Nat) (t : Tree H), gr[i]? = some t → GuardedFrom ip t := by
        intro i t ht
        have hi : i < gr.length := (List.getElem?_eq_some_iff.1 ht).1
        rw [h2] at hi
        exact ih i _ t (List.getElem?_eq_getElem hi) ht (href _ <| .inl <| (List.getElem_mem hi))
      have ho : ∀ {t}, gr = [t] → GuardedFrom ip t := fun {t} ht => hm 0 t (by rw [ht]; rfl)
      have pa : ∀ t, o.allow = some t → GuardedFrom ip t := fun t ht => ia t ht (href _ <| .inr <| ⟨ne_of_some a1 ht, .inl rfl⟩)
      have pb : ∀ t, o.block = some t → GuardedFrom ip t := fun t ht => ib t ht (href _ <| .inr <| ⟨ne_of_some b1 ht, .inr (.inl rfl)⟩)
      have pl : ∀ t, o.limit = some t → GuardedFrom ip t := fun t ht => il t ht (href _ <| .inr <| ⟨ne_of_some l1 ht, .inr (.inr (.inl rfl))⟩)
      have pr : ∀ t, o.retry = some t → GuardedFrom ip t := fun t ht => ir t ht (href _ <| .inr <| ⟨ne_of_some r1 ht, .inr (.inr (.inr rfl))⟩)
      cases hb with
      | roundRobin h => exact nth_all trivial hm
      | failRotate h => exact nth_all trivial hm
      | failBackEach h => exact nth_all trivial hm
      | failBack h => exact nth_all trivial hm
      | fastest h => exact nth_all trivial hm
      | loadBalance h => exact nth_all trivial hm
      | random h => exact nth_all trivial hm
      | ttlModifier h ht => exact (ho ht :)
      | requestDedup h ht => exact (ho ht :)
      | fastestTcp h ht => exact (ho ht :)
      | ecsModifier h ht => exact (ho ht :)
      | edns0Modifier h ht => exact (ho ht :)
      | syslog h ht => exact (ho ht :)
      | cache h ht => exact (ho ht :)
      | minimize h ht => exact (ho ht :)
      | collapse h ht => exact (ho ht :)
      | queryLog h ht => exact (ho ht :)
      | dns64 h ht => exact (ho ht :)
      | blocklist h ht => exact ⟨ho ht, ho ht, trivial⟩
      | blocklistV2 h ht => exact ⟨ho ht, opt_all pa (ho ht), opt_all pb trivial⟩
      | truncateRetry h ht hr => exact ⟨ho ht, pr _ hr⟩
      | responseIp h ht => exact ⟨ho ht, opt_all pb trivial⟩
      | responseName h ht => exact ⟨ho ht, opt_all pb trivial⟩
      | clientBlocklist h ht => exact ⟨.inr (ho ht), opt_all pb trivial⟩
      | rateLimiter h ht hl' => exact ⟨ho ht, pl _ hl'⟩
      | rateLimiterDrop h ht => exact ⟨ho ht, trivial⟩
      | replace h ht => exact (ho ht :)
      | prefetch h => exact absurd h hpre
      | dnssec h => exact absurd h hsec
      | redis h ht _ _ hbk hbt => exact absurd (.inr ⟨h, _, hbk, hbt⟩) hop
      | lua h => exact absurd (.inl h) hop
      | staticResponder => trivial
      | staticTemplate => trivial
      | drop => trivial
    · have pb : ∀ t, o.block = some t → GuardedFrom ip t := fun t ht => ib t ht (hSb (ne_of_some b1 ht))
      have hty := hl.type
      cases hb with
      | clientBlocklist h ht hb => exact ⟨.inl (client_blocks w.env id g ip hip hl _ hb _), opt_all pb trivial⟩
      | responseIp h => rw [hty] at h; rcases h with h | h <;> exact absurd h (by decide)
      | _ h => rw [hty] at h; exact absurd h (by decide)

/-! ### The program -/

/-- In a configuration that the program has accepted, no server is asked about names that the rules in the sections on all ways to servers block. -/
theorem names_never_asked (w : World H) (o : Config.Orders) (ho : Spec.Config.AnyOrder o) (c : Cfg) (ts : List (Option (Tree H))) (hs : start w o c = some ts) (bad : Str → Prop) (K S : Str → Prop)
    (hk : Plain c K) (hg : Before w.env c bad K S) (i : Nat) (id : Str) (l : Listener) (hl : c.listeners[i]? = some (id, l)) (hS : S l.resolver) (t : Tree H) (ht : ts[i]? = some (some t))
    (q : Msg) (ci : ClientInfo) (j : Nat) (q' : Msg) (ci' : ClientInfo) (h : Asks t q ci j q' ci') (n : Str) (hn : Named q' n) : ¬ bad n :=
  Asks.guarded_never_asked bad t q ci j q' ci' (before_guarded w c bad K S hk hg _ t ((((Assemble.program_start w o ho c ts hs).2 i id l _ hl ht).2.1 t).1 rfl) hS) h n hn

/-- And nothing is asked for a client on lists on all ways to servers. -/
theorem clients_never_ask (w : World H) (o : Config.Orders) (ho : Spec.Config.AnyOrder o) (c : Cfg) (ts : List (Option (Tree H))) (hs : start w o c = some ts) (ip : Str)
    (hip : ip.length = 4 ∨ ip.length = 16) (S : Str → Prop) (hg : BeforeClient w.env c ip S) (i : Nat) (id : Str) (l : Listener) (hl : c.listeners[i]? = some (id, l)) (hS : S l.resolver)
    (t : Tree H) (ht : ts[i]? = some (some t)) (q : Msg) (ci : ClientInfo) (hci : ci.sourceIP = ip) (j : Nat) (q' : Msg) (ci' : ClientInfo) : ¬ Asks t q ci j q' ci' :=
  Asks.client_never_asks ip (by rintro rfl; simp at hip) t q ci j q' ci' (before_guarded_client w c ip hip S hg _ t ((((Assemble.program_start w o ho c ts hs).2 i id l _ hl ht).2.1 t).1 rfl) hS) hci

/-! ### Cases -/

open _root_.Verif.Props.Assemble (toy toyEnv sample someOrder)

private def keep : Str → Prop := fun x => x ∈ [str "cache", str "ttl", str "router", str "none", str "pair", str "a", str "b"]
private def front : Str → Prop := fun x => x ∈ [str "block", str "local"]

/-- In the configuration of C79, the name on the list, in whatever case, never reaches the servers from the first listener. -/
example : Plain sample keep ∧ Before toy.env sample (fun n => Spec.Domain.labels n = [str "test", str "ads"]) keep front ∧ front (str "block") := by
  have ha : (Spec.Domain.ruleOf false (str "ads.test")).Matches [str "test", str "ads"] := by
    rw [show Spec.Domain.ruleOf false (str "ads.test") = .exact [str "test", str "ads"] from by decide +kernel]
    rfl
  refine ⟨⟨?_, ?_⟩, ⟨?_, ?_, ?_, ?_⟩, by unfold front; decide⟩
  · intro id g hk hg
    simp only [sample, List.mem_cons, List.not_mem_nil, or_false, Prod.mk.injEq] at hg
    rcases hg with ⟨rfl, rfl⟩ | ⟨rfl, rfl⟩ | ⟨rfl, rfl⟩ | ⟨rfl, rfl⟩ | ⟨rfl, rfl⟩ | ⟨rfl, rfl⟩
    all_goals
      refine ⟨by decide, ?_⟩
      intro x hx
      simp only [Refers, List.mem_cons, List.not_mem_nil, or_false, false_or] at hx
    · rcases hx with (rfl | rfl) | ⟨h1, rfl | rfl | rfl | rfl⟩ <;> first | exact absurd rfl h1 | (show _ ∈ _; decide)
    · obtain ⟨h1, rfl | rfl | rfl | rfl⟩ := hx <;> exact absurd rfl h1
    · rcases hx with rfl | ⟨h1, rfl | rfl | rfl | rfl⟩ <;> first | exact absurd rfl h1 | (show _ ∈ _; decide)
    · rcases hx with rfl | ⟨h1, rfl | rfl | rfl | rfl⟩ <;> first | exact absurd rfl h1 | (show _ ∈ _; decide)
    · exact absurd hk (by unfold keep; decide)
    · exact absurd hk (by unfold keep; decide)
  · intro id rs hk hr r hm
    simp only [sample, List.mem_cons, List.not_mem_nil, or_false, Prod.mk.injEq] at hr
    obtain ⟨rfl, rfl⟩ := hr
    simp only [List.mem_cons, List.not_mem_nil, or_false] at hm
    rcases hm with rfl | rfl <;> (show _ ∈ _; decide)
  · intro id r hS h
    simp only [sample, List.mem_cons, List.not_mem_nil, or_false, Prod.mk.injEq] at h
    rcases h with ⟨rfl, rfl⟩ | ⟨rfl, rfl⟩ <;> exact absurd hS (by unfold front; decide)
  · intro h; exact absurd h (by unfold front; decide)
  · intro id g hS hg
    simp only [sample, List.mem_cons, List.not_mem_nil, or_false, Prod.mk.injEq] at hg
    rcases hg with ⟨rfl, rfl⟩ | ⟨rfl, rfl⟩ | ⟨rfl, rfl⟩ | ⟨rfl, rfl⟩ | ⟨rfl, rfl⟩ | ⟨rfl, rfl⟩
    all_goals first
      | exact absurd hS (by unfold front; decide)
      | skip
    · refine ⟨by rintro (h | ⟨h, _⟩) <;> exact absurd h (by decide), .inl ?_⟩
      intro x hx
      simp only [Refers, List.mem_cons, List.not_mem_nil, or_false, false_or] at hx
      obtain ⟨h1, rfl | rfl | rfl | rfl⟩ := hx <;> exact absurd rfl h1
    · refine ⟨by rintro (h | ⟨h, _⟩) <;> exact absurd h (by decide), .inr ⟨.v2 rfl (by decide) ?_ rfl (fun _ h => by cases h) (by decide), ?_, fun h => absurd rfl h, fun _ => by unfold front; decide⟩⟩
      · intro n hn
        exact ⟨_, List.mem_cons_self .., .domain (by rw [hn]; exact ha)⟩
      · intro x hx
        simp only [List.mem_cons, List.not_mem_nil, or_false] at hx
        subst hx
        show _ ∈ _
        decide
  · intro id rs hS hr
    simp only [sample, List.mem_cons, List.not_mem_nil, or_false, Prod.mk.injEq] at hr
    obtain ⟨rfl, rfl⟩ := hr
    exact absurd hS (by unfold front; decide)

-- lists as `list_says` speaks of: one with its rules in the section, and one from a file that may hold anything
example : ∃ db, nameListMay toy.env { name := str "x", format := .mac, loader := .static [str "00:11:22:33:44:55"] } db := by
  obtain ⟨db, h⟩ := Option.isSome_iff_exists.1 (show (nameDB toy.env { name := str "x", format := .mac, loader := .static [str "00:11:22:33:44:55"] } [str "00:11:22:33:44:55"]).isSome = true by decide +kernel)
  exact ⟨db, _, rfl, h⟩

example : ∃ db, nameListMay toy.env { name := str "h", format := .hosts, loader := .file (str "/etc/hosts") true } db ∧
    Says toy.env { name := str "h", format := .hosts, loader := .file (str "/etc/hosts") true } [str "127.0.0.1 a.test"] db :=
  (list_says toy.env _).2 rfl (fun _ h => by cases h) _

example : Spec.Domain.labels (str "ADS.test.") = [str "test", str "ads"] := by decide +kernel

/-- A configuration that refuses a network -/
private def closed : Cfg :=
  { resolvers := [(str "a", { protocol := str "udp" })]
    groups := [(str "refuse", { type := str "client-blocklist", resolvers := [str "a"], blocklist := [str "10.0.0.0/8"] })]
    listeners := [(str "l", { protocol := str "udp", resolver := str "refuse" })] }

private def closedEnv : Env Nat := { toyEnv with parseCIDR := fun s => if s = str "10.0.0.0/8" then some ([10, 0, 0, 0], ⟨[10, 0, 0, 0], 8⟩) else none }

example : (start { toy with env := closedEnv } someOrder closed).map (·.map (·.isSome)) = some [true] ∧ BeforeClient closedEnv closed [10, 9, 8, 7] (fun x => x = str "refuse") := by
  refine ⟨by decide +kernel, ?_, ?_, ?_, ?_⟩
  · intro id r hS h
    simp only [closed, List.mem_cons, List.not_mem_nil, or_false, Prod.mk.injEq] at h
    obtain ⟨rfl, rfl⟩ := h
    exact absurd hS (by decide)
  · intro _; rfl
  · intro id g hS hg
    simp only [closed, List.mem_cons, List.not_mem_nil, or_false, Prod.mk.injEq] at hg
    obtain ⟨rfl, rfl⟩ := hg
    refine ⟨by rintro (h | ⟨h, _⟩) <;> exact absurd h (by decide), by decide, by decide, .inr ⟨⟨rfl, rfl, .inl rfl, by decide, ?_, ?_⟩, fun h => absurd rfl h⟩⟩
    · intro e he
      rw [show Spec.Cidr.networks closedEnv.parseCIDR [str "10.0.0.0/8"] = [([10, 0, 0, 0], ⟨[10, 0, 0, 0], 8⟩)] from by decide +kernel] at he
      cases List.mem_singleton.1 he
      unfold Spec.Cidr.Regular
      decide +kernel
    · refine ⟨([10, 0, 0, 0], ⟨[10, 0, 0, 0], 8⟩), by decide +kernel, ?_⟩
      show _ ∧ _
      decide +kernel
  · intro id rs hS hr
    cases hr

end Verif.Props.AsksConfig
