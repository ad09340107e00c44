import Verif.Model.History
import Verif.Props.Filters
import Verif.Props.Fresh
import Verif.Props.Validated
import Verif.Props.Available
/-
C115: what whole configurations promise, from the start of the program on.
-/
namespace Verif.Props.History
open Verif Verif.Net Verif.Composition Verif.History

variable {H : Type} [DecidableEq H] {V : Tree H → Msg → DnssecResolver.Verdict → Prop}

/-- There is at least as much in `W'`. -/
structure Within (W W' : Around H) : Prop where
  stored : ∀ t m ts, W.stored t m ts → W'.stored t m ts
  shared : ∀ t y, W.shared t y → W'.shared t y
  clock : ∀ τ, W.clock τ → W'.clock τ
  verdict : ∀ t m v, W.verdict t m v → W'.verdict t m v
  replied : ∀ t y, W.replied t y → W'.replied t y

/-- Where there is more, and servers say more, there are more replies. -/
theorem replies_more {W W' : Around H} {C C' : Nat → Msg → ClientInfo → Option Res → Prop} (hW : Within W W') (hC : ∀ i q ci o, C i q ci o → C' i q ci o) {t : Tree H} {q : Msg} {ci : ClientInfo}
    {o : Option Res} (h : RepliesIn W C t q ci o) : RepliesIn W' C' t q ci o := by
  induction h with
  | client h => exact .client (hC _ _ _ _ h)
  | ttl _ ih => exact .ttl ih
  | truncateKeep _ h ih => exact .truncateKeep ih h
  | truncateAsk _ h _ ih ih2 => exact .truncateAsk ih h ih2
  | truncateCrash _ ih => exact .truncateCrash ih
  | truncateCrash2 _ _ ih ih2 => exact .truncateCrash2 ih ih2
  | collapse _ ih => exact .collapse ih
  | minimize _ ih => exact .minimize ih
  | drop => exact .drop
  | modify _ ih => exact .modify ih
  | blocklistDone h1 h2 => exact .blocklistDone h1 h2
  | blocklistForward h1 h2 _ ih => exact .blocklistForward h1 h2 ih
  | blocklistCrash h1 h2 => exact .blocklistCrash h1 h2
  | clientDone h1 h2 => exact .clientDone h1 h2
  | clientForward h1 h2 _ ih => exact .clientForward h1 h2 ih
  | ipDone h1 _ h2 ih => exact .ipDone h1 ih h2
  | ipForward h1 _ h2 _ ih ih2 => exact .ipForward h1 ih h2 ih2
  | ipCrash _ ih => exact .ipCrash ih
  | nameDone h1 _ h2 ih => exact .nameDone h1 ih h2
  | nameForward h1 _ h2 _ ih ih2 => exact .nameForward h1 ih h2 ih2
  | nameCrash _ ih => exact .nameCrash ih
  | rateOn h _ ih => exact .rateOn h ih
  | rateLimit h _ ih => exact .rateLimit h ih
  | rateDrop h => exact .rateDrop h
  | static => exact .static
  | template => exact .template
  | replace _ ih => exact .replace ih
  | syslog _ ih => exact .syslog ih
  | queryLog _ ih => exact .queryLog ih
  | dns64One _ h ih => exact .dns64One ih h
  | dns64Two _ _ ih ih2 => exact .dns64Two ih ih2
  | dns64Crash _ ih => exact .dns64Crash ih
  | dns64Crash2 _ _ ih ih2 => exact .dns64Crash2 ih ih2
  | failRotate h1 h2 hx _ ih => exact .failRotate h1 h2 (fun pre j x post s1 i m e1 e2 e3 e4 => hW.replied _ _ (hx pre j x post s1 i m e1 e2 e3 e4)) fun pre x post s1 i m e1 e2 e3 => ih pre x post s1 i m e1 e2 e3
  | failRotateCrash _ ih => exact .failRotateCrash ih
  | failBack h1 h2 hx _ ih => exact .failBack h1 h2 (fun pre j x post s1 i m e1 e2 e3 e4 => hW.replied _ _ (hx pre j x post s1 i m e1 e2 e3 e4)) fun pre x post s1 i m e1 e2 e3 => ih pre x post s1 i m e1 e2 e3
  | failBackCrash _ ih => exact .failBackCrash ih
  | failBackEach _ ih => exact .failBackEach fun m hm => ih m hm
  | failBackEachCrash _ ih => exact .failBackEachCrash ih
  | roundRobin h _ ih => exact .roundRobin h ih
  | roundRobinEmpty => exact .roundRobinEmpty
  | random h1 h2 hx _ ih => exact .random h1 h2 (fun pre j x post s1 m e1 e2 e3 e4 => hW.replied _ _ (hx pre j x post s1 m e1 e2 e3 e4)) fun pre x post s1 m e1 e2 e3 => ih pre x post s1 m e1 e2 e3
  | randomCrash _ ih => exact .randomCrash ih
  | loadBalance h _ ih => exact .loadBalance h fun m hm => ih m hm
  | loadBalanceCrash _ ih => exact .loadBalanceCrash ih
  | fastest h h1 h2 _ ih => exact .fastest h h1 h2 fun i x hx => ih i x hx
  | fastestCrash _ ih => exact .fastestCrash ih
  | fastestTcp _ ih => exact .fastestTcp ih
  | router h1 h2 _ ih => exact .router h1 h2 ih
  | routerNone h1 h2 => exact .routerNone h1 h2
  | routerCrash h => exact .routerCrash h
  | dedup h1 h2 h3 h4 h5 => exact .dedup h1 h2 h3 h4 fun l y hy => hW.shared _ _ (h5 l y hy)
  | dedupCrash _ ih => exact .dedupCrash ih
  | dedupNoKey h => exact .dedupNoKey h
  | cache h1 h0 hk h2 h3 h4 _ ih => exact .cache h1 (fun q' m ts' hm => hW.stored _ _ _ (h0 q' m ts' hm)) (fun i => hW.clock _ (hk i)) h2 h3 h4 fun x hx hxa => ih x hx hxa
  | cacheCrash _ ih => exact .cacheCrash ih
  | prefetch _ ih => exact .prefetch ih
  | dnssec _ hv ih => exact .dnssec ih fun m hm => hW.verdict _ _ _ (hv m hm)

/-- An episode of a history, and what it saw -/
private theorem seen {l : List (Episode H)} (h : Runs V l) {e : Episode H} (he : e ∈ l) : ∃ past, e :: past <:+ l ∧ RepliesIn (since V past e.start e.stop) e.servers e.element e.query e.client (some e.reply) := by
  induction h with
  | start => cases he
  | @next past x _ _ _ hr ih =>
    rcases List.mem_cons.mp he with rfl | he
    · exact ⟨past, List.suffix_refl _, hr⟩
    · obtain ⟨p, h1, h2⟩ := ih he
      exact ⟨p, h1.trans (List.suffix_cons _ _), h2⟩

/-- All replies of servers in a history -/
def servers (l : List (Episode H)) (i : Nat) (q : Msg) (ci : ClientInfo) (o : Option Res) : Prop := ∃ e, e ∈ l ∧ e.servers i q ci o

/-- All there was in a history -/
private def whole (V : Tree H → Msg → DnssecResolver.Verdict → Prop) (l : List (Episode H)) : Around H where
  stored t m _ := ∃ e, e ∈ l ∧ e.element = t ∧ e.reply = .ok m
  shared t y := ∃ e, e ∈ l ∧ e.element = t ∧ e.reply = y
  clock _ := True
  verdict := V
  replied t y := ∃ e, e ∈ l ∧ e.element = t ∧ e.reply = y

private theorem in_whole {l : List (Episode H)} (h : Runs V l) {e : Episode H} (he : e ∈ l) : RepliesIn (whole V l) (servers l) e.element e.query e.client (some e.reply) := by
  obtain ⟨past, h1, h2⟩ := seen h he
  have hp : ∀ x, x ∈ past → x ∈ l := fun x hx => h1.subset (List.mem_cons_of_mem _ hx)
  have hW : Within (since V past e.start e.stop) (whole V l) := by
    refine ⟨?_, ?_, fun _ _ => trivial, fun _ _ _ h => h, ?_⟩
    · rintro t m ts ⟨x, hx, g1, g2, -⟩
      exact ⟨x, hp x hx, g1, g2⟩
    · rintro t y ⟨x, hx, g1, g2, -⟩
      exact ⟨x, hp x hx, g1, g2⟩
    · rintro t y ⟨x, hx, g1, g2⟩
      exact ⟨x, hp x hx, g1, g2⟩
  exact replies_more hW (fun _ _ _ _ h => ⟨e, he, h⟩) h2

private theorem whole_stored {l : List (Episode H)} (h : Runs V l) : Filters.Stored (whole V l) (servers l) := by
  refine ⟨?_, ?_⟩
  · rintro t m ts ⟨e, he, rfl, h2⟩
    exact ⟨e.query, e.client, h2 ▸ in_whole h he⟩
  · rintro t y ⟨e, he, rfl, rfl⟩
    exact ⟨e.query, e.client, in_whole h he⟩

/-- C115 for C76: from the start of the program on, replies belong to their queries. -/
theorem run_belongs {l : List (Episode H)} (h : Runs V l) (hC : ∀ e, e ∈ l → ∀ i q ci o, FromWire q → e.servers i q ci o → ∃ r, o = some r ∧ Fits q r)
    {e : Episode H} (he : e ∈ l) (ht : Composition.Sane e.element) (hq : FromWire e.query) : Fits e.query e.reply := by
  obtain ⟨past, -, h2⟩ := seen h he
  exact Composition.reply_belongs (hC e he) e.element ht e.query hq e.client e.reply (replies_more ⟨fun _ _ _ _ => trivial, fun _ _ _ => trivial, fun _ _ => trivial, fun _ _ _ _ => trivial, fun _ _ _ => trivial⟩ (fun _ _ _ _ h => h) h2)

/-- C115 for C76: and no query crashes the program. -/
theorem run_no_crash {past : List (Episode H)} {C : Nat → Msg → ClientInfo → Option Res → Prop} (hC : ∀ i q ci o, FromWire q → C i q ci o → ∃ r, o = some r ∧ Fits q r)
    {t : Tree H} (ht : Composition.Sane t) {q : Msg} (hq : FromWire q) (ci : ClientInfo) (start stop : Int) : ¬ RepliesIn (since V past start stop) C t q ci none := fun h =>
  Composition.no_crash hC t ht q hq ci (replies_more ⟨fun _ _ _ _ => trivial, fun _ _ _ => trivial, fun _ _ => trivial, fun _ _ _ _ => trivial, fun _ _ _ => trivial⟩ (fun _ _ _ _ h => h) h)

/-- C115 for C111: from the start of the program on, no client gets a message with a forbidden record if a response blocklist that objects to it is on every way to a server (or the servers never send any). -/
theorem run_clean {codes : Nat → Prop} {bad : RData → Prop} (ho : ∀ s d o, ¬ bad (.opt s d o)) {l : List (Episode H)} (h : Runs V l) {e : Episode H} (he : e ∈ l)
    (ht : Filters.Filtered codes bad (servers l) e.element) : Filters.Clean codes bad e.reply :=
  Filters.replies_clean ho (whole_stored h) e.element ht e.query e.client e.reply (in_whole h he)

/-- The parts of a history, each up to the end of one episode -/
private abbrev Ends (l : List (Episode H)) := { s : List (Episode H) // s <:+ l ∧ s ≠ [] }
private def startOf {l : List (Episode H)} (s : Ends l) : Int := match s.1 with | [] => 0 | e :: _ => e.start
private def stopOf {l : List (Episode H)} (s : Ends l) : Int := match s.1 with | [] => 0 | e :: _ => e.stop
private def aroundOf (V : Tree H → Msg → DnssecResolver.Verdict → Prop) {l : List (Episode H)} (s : Ends l) : Around H := match s.1 with | [] => Around.any | e :: past => since V past e.start e.stop
private def serversOf {l : List (Episode H)} (s : Ends l) (i : Nat) (q : Msg) (ci : ClientInfo) (o : Option Res) : Prop := match s.1 with | [] => False | e :: _ => e.servers i q ci o

private theorem runs_suffix {l : List (Episode H)} (h : Runs V l) : ∀ s, s <:+ l → Runs V s := by
  induction h with
  | start => intro s hs; rw [List.suffix_nil.mp hs]; exact .start
  | next h1 h2 h3 h4 ih =>
    intro s hs
    rcases List.suffix_cons_iff.mp hs with rfl | hs
    · exact .next h1 h2 h3 h4
    · exact ih s hs

private theorem line {D : Int} {l : List (Episode H)} (h : Runs V l) (hD : ∀ e, e ∈ l → e.stop ≤ e.start + D) :
    Fresh.Timeline (startOf (l := l)) stopOf (aroundOf V) serversOf D := by
  have back : ∀ (e : Episode H) (past : List (Episode H)) (hs : e :: past <:+ l) (e' : Episode H), e' ∈ past → e'.stop ≤ e.stop ∧ ∃ x : Ends l, startOf x = e'.start ∧ stopOf x = e'.stop ∧
      RepliesIn (aroundOf V x) (serversOf x) e'.element e'.query e'.client (some e'.reply) := by
    intro e past hs e' he'
    have hr := runs_suffix h _ hs
    cases hr with
    | next h1 _ h3 _ =>
      obtain ⟨p, g1, g2⟩ := seen h1 he'
      exact ⟨h3 e' he', ⟨e' :: p, (g1.trans (List.suffix_cons _ _)).trans hs, by simp⟩, rfl, rfl, g2⟩
  refine ⟨?_, ?_, ?_, ?_⟩
  · rintro ⟨s, hs, hne⟩
    cases s with
    | nil => exact absurd rfl hne
    | cons e past =>
      have hr := runs_suffix h _ hs
      cases hr with
      | next _ h2 _ _ => exact ⟨h2, hD e (hs.subset List.mem_cons_self)⟩
  · rintro ⟨s, hs, hne⟩ τ hτ
    cases s with
    | nil => exact absurd rfl hne
    | cons e past => exact hτ
  · rintro ⟨s, hs, hne⟩ t m ts hst
    cases s with
    | nil => exact absurd rfl hne
    | cons e past =>
      obtain ⟨e', he', rfl, h2, h3, h4⟩ := hst
      obtain ⟨g0, x, g1, g2, g3⟩ := back e past hs e' he'
      exact ⟨x, e'.query, e'.client, h2 ▸ g3, by rw [g1]; exact h3, by rw [g2]; exact h4, by rw [g2]; exact g0⟩
  · rintro ⟨s, hs, hne⟩ t y hsh
    cases s with
    | nil => exact absurd rfl hne
    | cons e past =>
      obtain ⟨e', he', rfl, rfl, h3⟩ := hsh
      obtain ⟨g0, x, g1, g2, g3⟩ := back e past hs e' he'
      exact ⟨x, e'.query, e'.client, g3, by rw [g2]; exact h3, by rw [g2]; exact g0⟩

/-- C115 for C112: from the start of the program on, for each record a client gets there is an episode that was over, in which a server sent it (or the configuration says it), and the time to live the
client sees ends at most `D + c (1 s + D) + d D` after the one the server gave, if no episode takes longer than `D`. -/
theorem run_fresh {own : RData → Nat → Prop} {D : Int} {l : List (Episode H)} (h : Runs V l) (hD : ∀ e, e ∈ l → e.stop ≤ e.start + D) {e : Episode H} (he : e ∈ l) {c d : Nat}
    (ht : Fresh.Ages own c d e.element) {m : Msg} (hm : e.reply = .ok m) (r : RR) (hr : r ∈ m.answer ++ m.ns ++ m.extra) (hopt : ¬ ∃ s b o, r.data = .opt s b o) :
    ∃ e0, e0 ∈ l ∧ ∃ d0 ttl0, (Fresh.Sent e0.servers d0 ttl0 ∨ own d0 ttl0) ∧ Fresh.Comes d0 r.data ∧ e0.stop ≤ e.stop ∧
      e.stop + r.ttl * Fresh.sec ≤ e0.start + ttl0 * Fresh.sec + (D + c * (Fresh.sec + D) + d * D) := by
  obtain ⟨past, hsuf, hrep⟩ := seen h he
  have T := line h hD
  let x : Ends l := ⟨e :: past, hsuf, by simp⟩
  obtain ⟨⟨y, hy, hne⟩, d0, t0, h1, h2, h3, h4⟩ := Fresh.records_fresh T e.element c d ht x e.query e.client m (hm ▸ hrep) r hr hopt
  cases y with
  | nil => exact absurd rfl hne
  | cons e0 p0 => exact ⟨e0, hy.subset List.mem_cons_self, d0, t0, h1, h2, h3, h4⟩

/-- C115 for C114: from the start of the program on, with validators on every way, every record of a positive or negative response comes from a message for which a validation did not fail and that
the elements behind the validator gave (or an element of the configuration made it). -/
theorem run_validated {own : RData → Prop} {ren : Prop} {l : List (Episode H)} (h : Runs V l) {e : Episode H} (he : e ∈ l) (ht : Validated.Screened own ren e.element) {m : Msg} (hm : e.reply = .ok m)
    (hc : m.rcode = 0 ∨ m.rcode = 3) (r : RR) (hr : r ∈ m.answer) (hopt : r.isOpt = false) :
    own r.data ∨ ∃ t' a r0, (V t' a .valid ∨ V t' a .insecure) ∧ (a.rcode = 0 ∨ a.rcode = 3) ∧ (∃ q ci, Replies (servers l) t' q ci (some (.ok a))) ∧ r0 ∈ a.answer ∧ Validated.Comes ren r0 r := by
  rcases (Validated.records_validated (whole_stored h) e.element ht e.query e.client m (hm ▸ in_whole h he) hc r hopt).1 hr with h | ⟨t', a, r0, ⟨⟨q, ci, h1⟩, h2, h3⟩, h4, h5⟩
  · exact .inl h
  · exact .inr ⟨t', a, r0, h3, h2, ⟨q, ci, replies_more ⟨fun _ _ _ _ => trivial, fun _ _ _ => trivial, fun _ _ => trivial, fun _ _ _ _ => trivial, fun _ _ _ => trivial⟩ (fun _ _ _ _ h => h) h1⟩, h4, h5⟩

/-- C115 for C114: from the start of the program on, with validators on every way, the same for the other sections: every record there of a positive or negative response comes from a message for which a validation did not fail and that
the elements behind the validator gave (or an element of the configuration made it). -/
theorem run_validated_rest {own : RData → Prop} {ren : Prop} {l : List (Episode H)} (h : Runs V l) {e : Episode H} (he : e ∈ l) (ht : Validated.Screened own ren e.element) {m : Msg} (hm : e.reply = .ok m)
    (hc : m.rcode = 0 ∨ m.rcode = 3) (r : RR) (hr : r ∈ m.ns ++ m.extra) (hopt : r.isOpt = false) :
    own r.data ∨ ∃ t' a r0, (V t' a .valid ∨ V t' a .insecure) ∧ (a.rcode = 0 ∨ a.rcode = 3) ∧ (∃ q ci, Replies (servers l) t' q ci (some (.ok a))) ∧ r0 ∈ a.ns ++ a.extra ∧ Validated.Comes ren r0 r := by
  rcases (Validated.records_validated (whole_stored h) e.element ht e.query e.client m (hm ▸ in_whole h he) hc r hopt).2 hr with h | ⟨t', a, r0, ⟨⟨q, ci, h1⟩, h2, h3⟩, h4, h5⟩
  · exact .inl h
  · exact .inr ⟨t', a, r0, h3, h2, ⟨q, ci, replies_more ⟨fun _ _ _ _ => trivial, fun _ _ _ => trivial, fun _ _ => trivial, fun _ _ _ _ => trivial, fun _ _ _ => trivial⟩ (fun _ _ _ _ h => h) h1⟩, h4, h5⟩

/-- C117: from the start of the program on, with servers that reply as `S` says all the time (those of which it says nothing reply in any way), replies are of the kinds promised. -/
theorem run_served {S : Nat → Available.Kind → Prop} {P : Available.Kind → Prop} {l : List (Episode H)} (h : Runs V l)
    (hS : ∀ e, e ∈ l → ∀ i q ci r, e.servers i q ci (some r) → S i (Available.kind r)) {e : Episode H} (he : e ∈ l) (ht : Available.Serves S P e.element) : P (Available.kind e.reply) :=
  Available.replies_served (fun i q ci r ⟨x, hx, hr⟩ => hS x hx i q ci r hr)
    ⟨(whole_stored h).cache, (whole_stored h).dedup, by rintro t y ⟨x, hx, rfl, rfl⟩; exact ⟨x.query, x.client, in_whole h hx⟩⟩ ht e.query e.client e.reply (in_whole h he)

/-! ### A history: the server is asked, its response is cached, and two minutes later the cache replies -/

private def exQ : Msg := { id := 5, question := [⟨str "a.", 1, 1⟩] }
private def exA (ttl : Nat) : Msg := { id := 5, question := [⟨str "a.", 1, 1⟩], response := true, answer := [⟨str "a.", 1, 1, ttl, .a [1, 2, 3, 4]⟩] }
/-- An environment in which only this message can be encoded -/
private def exEnv : CacheM.Env Nat where
  ipStr a := 49 :: a
  hash _ := 7
  encode m := if m = exA 200 then some [] else none
  decode _ := some (exA 200)
private def t0 : Int := 1700000000000000000
private def first : Episode Nat := ⟨.client 0, exQ, {}, .ok (exA 200), t0, t0 + 30000000, fun _ _ _ o => o = some (.ok (exA 200))⟩
private def second : Episode Nat := ⟨.cache exEnv {} 10 (.client 0), exQ, {}, .ok (exA 80), t0 + 120020000000, t0 + 120020000000, fun _ _ _ _ => False⟩

private theorem exWF : Props.Cache.WellFormed exEnv.ipStr exQ := ⟨by simp [exQ], by simp [exQ], by intro x hx; simp [Spec.Cache.subnet, exQ, Msg.edns?] at hx⟩

/-- The response of the server was stored 20 ms after it was asked, and is 120 s old when the cache hands it out: of 200 s to live there are 80 left. -/
theorem cached_reply : Runs (H := Nat) (fun _ _ _ => False) [second, first] := by
  refine .next (.next .start (by decide) (by simp) (.client rfl)) (by decide) (by simp [first, second]) ?_
  have hs : ∃ c, Props.Cache.runEv exEnv {} (Lru.new 10) [.store exQ (exA 200) (t0 + 20000000)] = some c ∧
      (CacheM.resolve exEnv {} c exQ (.fail "") (fun _ => t0 + 120020000000) (t0 + 120020000000)).map (fun x => (x.res, x.asked)) = some (.ok (exA 80), false) := ⟨_, rfl, by decide⟩
  obtain ⟨c, h1, h2⟩ := hs
  cases hx : CacheM.resolve exEnv {} c exQ (.fail "") (fun _ => t0 + 120020000000) (t0 + 120020000000) with
  | none => rw [hx] at h2; cases h2
  | some x =>
    rw [hx] at h2
    simp only [Option.map_some, Option.some.injEq, Prod.mk.injEq] at h2
    have := RepliesIn.cache (W := since (fun _ _ _ => False) [first] second.start second.stop) (C := second.servers) (t := .client 0) (ci := {}) (hist := [.store exQ (exA 200) (t0 + 20000000)])
      (clock := fun _ => t0 + 120020000000) (ts := t0 + 120020000000) (up := .fail "")
      (fun e he => by
        simp only [List.mem_singleton] at he
        subst he
        refine ⟨?_, by simp, by simp⟩
        intro q m t h
        simp only [Props.Cache.Ev.store.injEq] at h
        obtain ⟨rfl, rfl, rfl⟩ := h
        exact ⟨exWF, by unfold Props.Cache.SaneTime t0; omega⟩)
      (fun q' m ts' h => by
        simp only [List.mem_singleton, Props.Cache.Ev.store.injEq] at h
        obtain ⟨rfl, rfl, rfl⟩ := h
        exact ⟨first, List.mem_singleton.mpr rfl, rfl, rfl, by simp only [first]; omega, by simp only [first]; omega⟩)
      (fun _ => ⟨Int.le_refl _, Int.le_refl _⟩) h1 exWF (by unfold Props.Cache.SaneTime t0; omega) (fun y hy ha => by
        rw [hx] at hy
        cases hy
        rw [h2.2] at ha
        cases ha)
    rw [hx, Option.map_some, h2.1] at this
    exact this

/-- The reply from the cache is of the kind that the server gives. -/
example : Available.kind second.reply = .code 0 :=
  run_served (S := fun _ k => k = .code 0) (P := fun k => k = .code 0) cached_reply (by
    intro e he i q ci r hr
    simp only [List.mem_cons, List.not_mem_nil, or_false] at he
    rcases he with rfl | rfl
    · exact hr.elim
    · cases hr; rfl) (List.mem_cons_self) (.cache (.client fun _ h => h) (by decide) (by simp [exEnv]) (by intro f hf; cases hf) (by
    intro m w m' h1 h2
    simp only [exEnv] at h1 h2
    cases h2
    split at h1
    · rename_i h; rw [h]; rfl
    · cases h1) (by simp))

end Verif.Props.History
