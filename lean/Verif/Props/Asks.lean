import Verif.Model.Asks
import Verif.Spec.Asks
import Verif.Props.Blocklist
import Verif.Props.Composition
/-
C85: names and clients on a list do not reach the servers behind it, in any composition of elements.
-/
set_option linter.unusedVariables false
set_option linter.unusedSimpArgs false
namespace Verif.Props.Asks
open Verif Verif.Composition Verif.Asks Verif.Spec.Asks
variable {H : Type}

private theorem named_of {q q' : Msg} (h : q'.question.head?.map (·.name) = q.question.head?.map (·.name)) (n : Str) : Named q' n ↔ Named q n := by
  unfold Named
  rcases hq : q.question with _ | ⟨a, l⟩ <;> rcases hq' : q'.question with _ | ⟨a', l'⟩ <;> rw [hq, hq'] at h <;> simp_all

private theorem named_eq {q q' : Msg} (h : q'.question = q.question) (n : Str) : Named q' n ↔ Named q n := named_of (by rw [h]) n

private theorem modify_question (m : Modifier) (q : Msg) (ci : ClientInfo) : (m.apply q ci).question = q.question := by
  have he : ∀ p, (Modifiers.withEdns p).question = p.question := by
    intro p; unfold Modifiers.withEdns; split <;> rfl
  cases m with
  | keep => rfl
  | ecsDelete => rfl
  | ecsAdd a p4 p6 => exact he (Modifiers.ecsDelete q)
  | ecsAddIfMissing a p4 p6 =>
    unfold Modifier.apply Modifiers.ecsAddIfMissing
    simp only
    split
    · rfl
    · exact he (Modifiers.ecsDelete q)
  | ecsPrivacy p4 p6 => rfl
  | edns0Delete c => rfl
  | edns0Add c d => exact he (Modifiers.edns0Delete c q)

theorem resolve_forward {o : Blocklist.Options} {q p : Msg} {t : Blocklist.Target} (h : Blocklist.resolve o q = some (.forward t p)) : p = q := by
  unfold Blocklist.resolve at h
  split at h
  · cases h
  · split at h
    · injection h with h; injection h with _ h; exact h.symm
    · split at h
      · injection h with h; injection h with _ h; exact h.symm
      · split at h
        · injection h with h; cases h
        · split at h
          · injection h with h; injection h with _ h; exact h.symm
          · split at h <;> (injection h with h; cases h)

theorem client_forward {e hb : Bool} {db : Str → Option Lists.Match} {q p : Msg} {ci : ClientInfo} {t : Blocklist.Target} (h : Blocklist.resolveClient e hb db q ci = .forward t p) : p = q := by
  simp only [Blocklist.resolveClient] at h
  repeat' split at h
  all_goals first
    | (injection h with _ h; exact h.symm)
    | cases h

private theorem block_forward {κ : Type} {key : RR → Option κ} {db : κ → Option Lists.Match} {inv hb : Bool} {ede : Option Blocklist.Ede} {q a p : Msg} {t : Blocklist.Target}
    (h : Blocklist.blockIfMatch key db inv hb ede q a = .forward t p) : p = q ∧ t = .block := by
  simp only [Blocklist.blockIfMatch] at h
  repeat' split at h
  all_goals first
    | (injection h with h1 h; exact ⟨h.symm, h1.symm⟩)
    | cases h

theorem ip_forward {o : Blocklist.IpOptions} {r : Res} {q p : Msg} {t : Blocklist.Target} (h : Blocklist.resolveIp o r q = .forward t p) : p = q ∧ t = .block := by
  unfold Blocklist.resolveIp at h
  split at h
  · split at h
    · cases h
    · split at h
      · unfold Blocklist.filterMatch at h
        repeat' split at h
        all_goals first
          | (injection h with h1 h; exact ⟨h.symm, h1.symm⟩)
          | cases h
      · exact block_forward h
  · cases h

theorem name_forward {o : Blocklist.NameOptions} {r : Res} {q p : Msg} {t : Blocklist.Target} (h : Blocklist.resolveName o r q = .forward t p) : p = q ∧ t = .block := by
  unfold Blocklist.resolveName at h
  split at h
  · exact block_forward h
  · cases h

theorem branch_all {P : Tree H → Prop} {t a b : Tree H} (ht : P t) (ha : P a) (hb : P b) (x : Blocklist.Target) : P (branch t a b x) := by
  cases x <;> assumption

/-- Behind a list names stay what they are unless there are elements that replace them or ask by themselves. -/
theorem keeps_name (t : Tree H) (q : Msg) (ci : ClientInfo) (i : Nat) (q' : Msg) (ci' : ClientInfo) (hk : Keeps t) (h : Asks t q ci i q' ci') (n : Str) :
    Named q' n ↔ Named q n := by
  induction h with
  | client => exact Iff.rfl
  | ttl _ ih => exact ih hk
  | truncate _ ih => exact ih hk.1
  | retry _ ih => exact ih hk.2
  | collapse _ ih => exact ih hk
  | minimize _ ih => exact ih hk
  | modify _ ih => exact (ih hk).trans (named_eq (modify_question _ _ _) n)
  | blocklist _ hr _ ih => rw [ih (branch_all hk.1 hk.2.1 hk.2.2 _), resolve_forward hr]
  | clientBlocklist _ hr _ ih => rw [ih (branch_all hk.1 hk.1 hk.2 _), client_forward hr]
  | responseIp _ ih => exact ih hk.1
  | responseIpBlock _ hr _ ih => rw [ih (branch_all hk.1 hk.1 hk.2 _), (ip_forward hr).1]
  | responseName _ ih => exact ih hk.1
  | responseNameBlock _ hr _ ih => rw [ih (branch_all hk.1 hk.1 hk.2 _), (name_forward hr).1]
  | rateOn _ ih => exact ih hk.1
  | rateLimited _ ih => exact ih hk.2
  | replace _ _ => exact hk.elim
  | syslog _ ih => exact ih hk
  | queryLog _ ih => exact ih hk
  | dns64 _ ih => exact ih hk
  | dns64A _ ih =>
    refine (ih hk).trans (named_of ?_ n)
    unfold Dns64.aQuery
    split <;> simp_all
  | failRotate _ ih => exact ih (hk _)
  | failBack _ ih => exact ih (hk _)
  | failBackEach _ ih => exact ih (hk _)
  | roundRobin _ ih => exact ih (hk _)
  | random _ ih => exact ih (hk _)
  | loadBalance _ ih => exact ih (hk _)
  | fastest _ ih => exact ih (hk _)
  | fastestTcp _ ih => exact ih hk
  | router _ _ _ ih => exact ih (hk _)
  | dedup _ ih => exact ih hk
  | cache _ ih => exact ih hk
  | prefetch _ _ => exact hk.elim
  | prefetchAgain _ _ => exact hk.elim
  | dnssec _ _ => exact hk.elim
  | dnssecLookup _ _ _ => exact hk.elim

/-- A query whose name is on the block list and not on the allow list goes nowhere but to the block resolver. -/
theorem blocked_forward {L : Blocklist.Options → Prop} {bad : Str → Prop} (hL : Blocks L bad) {opt : Blocklist.Options} (ho : L opt) {q p : Msg} {n : Str} (hn : Named q n) (hb : bad n)
    {x : Blocklist.Target} (h : Blocklist.resolve opt q = some (.forward x p)) : x = .block := by
  obtain ⟨⟨hit, hh⟩, ha⟩ := hL opt ho q n hn hb
  unfold Blocklist.resolve at h
  split at h
  · cases h
  · have hno : ¬ (opt.allowDB.bind fun db => db q).isSome = true := by
      intro h
      cases hdb : opt.allowDB with
      | none => rw [hdb] at h; cases h
      | some db =>
        rw [hdb] at h
        obtain ⟨v, hv⟩ := Option.isSome_iff_exists.mp h
        exact ha db hdb ⟨v, hv⟩
    rw [if_neg hno, hh] at h
    dsimp only at h
    repeat' split at h
    all_goals first
      | (injection h with h; injection h with h1 _; exact h1.symm)
      | (injection h with h; cases h)

/-- Nobody is asked about names that the lists on the way block, whatever the query, the client, the history of the elements and the replies of servers are. -/
theorem guarded_never_asked (bad : Str → Prop) (t : Tree H) (q : Msg) (ci : ClientInfo) (i : Nat) (q' : Msg) (ci' : ClientInfo) (hg : Guarded bad t) (h : Asks t q ci i q' ci')
    (n : Str) (hn : Named q' n) : ¬ bad n := by
  induction h with
  | client => exact hg.elim
  | ttl _ ih => exact ih hg hn
  | truncate _ ih => exact ih hg.1 hn
  | retry _ ih => exact ih hg.2 hn
  | collapse _ ih => exact ih hg hn
  | minimize _ ih => exact ih hg hn
  | modify _ ih => exact ih hg hn
  | blocklist ho hr ha ih =>
    rcases hg with ⟨hb, h1, h2, h3⟩ | ⟨h1, h2, h3⟩
    · rename_i x _ _ _ _ _ _
      by_cases hx : x = .block
      · subst hx; exact ih h3 hn
      · intro hbad
        have hp := resolve_forward hr
        subst hp
        refine hx (blocked_forward hb ho ((keeps_name _ _ _ _ _ _ ?_ ha n).mp hn) hbad hr)
        cases x with
        | upstream => exact h1
        | allow => exact h2
        | block => exact absurd rfl hx
    · exact ih (branch_all h1 h2 h3 _) hn
  | clientBlocklist _ hr _ ih => exact ih (branch_all hg.1 hg.1 hg.2 _) hn
  | responseIp _ ih => exact ih hg.1 hn
  | responseIpBlock _ hr _ ih => exact ih (branch_all hg.1 hg.1 hg.2 _) hn
  | responseName _ ih => exact ih hg.1 hn
  | responseNameBlock _ hr _ ih => exact ih (branch_all hg.1 hg.1 hg.2 _) hn
  | rateOn _ ih => exact ih hg.1 hn
  | rateLimited _ ih => exact ih hg.2 hn
  | replace _ ih => exact ih hg hn
  | syslog _ ih => exact ih hg hn
  | queryLog _ ih => exact ih hg hn
  | dns64 _ ih => exact ih hg hn
  | dns64A _ ih => exact ih hg hn
  | failRotate _ ih => exact ih (hg _) hn
  | failBack _ ih => exact ih (hg _) hn
  | failBackEach _ ih => exact ih (hg _) hn
  | roundRobin _ ih => exact ih (hg _) hn
  | random _ ih => exact ih (hg _) hn
  | loadBalance _ ih => exact ih (hg _) hn
  | fastest _ ih => exact ih (hg _) hn
  | fastestTcp _ ih => exact ih hg hn
  | router _ _ _ ih => exact ih (hg _) hn
  | dedup _ ih => exact ih hg hn
  | cache _ ih => exact ih hg hn
  | prefetch _ ih => exact ih hg hn
  | prefetchAgain _ ih => exact ih hg hn
  | dnssec _ ih => exact ih hg hn
  | dnssecLookup _ _ ih => exact ih hg hn

/-- A client on a list is answered without any server. -/
theorem client_never_asks (ip : Str) (hip : ip ≠ []) (t : Tree H) (q : Msg) (ci : ClientInfo) (i : Nat) (q' : Msg) (ci' : ClientInfo) (hg : GuardedFrom ip t) (hc : ci.sourceIP = ip) :
    ¬ Asks t q ci i q' ci' := by
  intro h
  induction h with
  | client => exact hg.elim
  | ttl _ ih => exact ih hg hc
  | truncate _ ih => exact ih hg.1 hc
  | retry _ ih => exact ih hg.2 hc
  | collapse _ ih => exact ih hg hc
  | minimize _ ih => exact ih hg hc
  | modify _ ih => exact ih hg hc
  | blocklist ho hr ha ih => exact ih (branch_all hg.1 hg.2.1 hg.2.2 _) hc
  | @clientBlocklist _ _ _ useECS hasBlock db x q0 _ ci0 _ _ _ ho hr _ ih =>
    rcases hg.1 with hb | ht
    · obtain ⟨rfl, m, hm⟩ := hb _ _ _ ho
      have hcip : Blocklist.clientIP false q0 ci0 = ip := hc
      simp only [Blocklist.resolveClient, hcip, if_neg hip, hm] at hr
      split at hr
      · injection hr with h1 _; subst h1; exact ih hg.2 hc
      · cases hr
    · exact ih (branch_all ht ht hg.2 _) hc
  | responseIp _ ih => exact ih hg.1 hc
  | responseIpBlock _ hr _ ih => exact ih (branch_all hg.1 hg.1 hg.2 _) hc
  | responseName _ ih => exact ih hg.1 hc
  | responseNameBlock _ hr _ ih => exact ih (branch_all hg.1 hg.1 hg.2 _) hc
  | rateOn _ ih => exact ih hg.1 hc
  | rateLimited _ ih => exact ih hg.2 hc
  | replace _ ih => exact ih hg hc
  | syslog _ ih => exact ih hg hc
  | queryLog _ ih => exact ih hg hc
  | dns64 _ ih => exact ih hg hc
  | dns64A _ ih => exact ih hg hc
  | failRotate _ ih => exact ih (hg _) hc
  | failBack _ ih => exact ih (hg _) hc
  | failBackEach _ ih => exact ih (hg _) hc
  | roundRobin _ ih => exact ih (hg _) hc
  | random _ ih => exact ih (hg _) hc
  | loadBalance _ ih => exact ih (hg _) hc
  | fastest _ ih => exact ih (hg _) hc
  | fastestTcp _ ih => exact ih hg hc
  | router _ _ _ ih => exact ih (hg _) hc
  | dedup _ ih => exact ih hg hc
  | cache _ ih => exact ih hg hc
  | prefetch _ _ => exact hg.elim
  | prefetchAgain _ _ => exact hg.elim
  | dnssec _ _ => exact hg.elim
  | dnssecLookup _ _ _ => exact hg.elim

/-- What an element replies only depends on what servers reply to the queries that they are asked. -/
theorem replies_only_asked [DecidableEq H] (C C' : Nat → Msg → ClientInfo → Option Res → Prop) (t : Tree H) (q : Msg) (ci : ClientInfo) (o : Option Res)
    (h : Replies C t q ci o) (hs : ∀ i q' ci' o', Asks t q ci i q' ci' → C i q' ci' o' → C' i q' ci' o') : Replies C' t q ci o := by
  induction h with
  | client h => exact .client (hs _ _ _ _ .client h)
  | ttl _ ih => exact .ttl (ih fun _ _ _ _ a => hs _ _ _ _ (.ttl a))
  | truncateKeep _ h ih => exact .truncateKeep (ih fun _ _ _ _ a => hs _ _ _ _ (.truncate a)) h
  | truncateAsk _ h _ ih ih2 => exact .truncateAsk (ih fun _ _ _ _ a => hs _ _ _ _ (.truncate a)) h (ih2 fun _ _ _ _ a => hs _ _ _ _ (.retry a))
  | truncateCrash _ ih => exact .truncateCrash (ih fun _ _ _ _ a => hs _ _ _ _ (.truncate a))
  | truncateCrash2 _ _ ih ih2 => exact .truncateCrash2 (ih fun _ _ _ _ a => hs _ _ _ _ (.truncate a)) (ih2 fun _ _ _ _ a => hs _ _ _ _ (.retry a))
  | collapse _ ih => exact .collapse (ih fun _ _ _ _ a => hs _ _ _ _ (.collapse a))
  | minimize _ ih => exact .minimize (ih fun _ _ _ _ a => hs _ _ _ _ (.minimize a))
  | drop => exact .drop
  | modify _ ih => exact .modify (ih fun _ _ _ _ a => hs _ _ _ _ (.modify a))
  | blocklistDone h1 h2 => exact .blocklistDone h1 h2
  | blocklistForward h1 h2 _ ih => exact .blocklistForward h1 h2 (ih fun _ _ _ _ a => hs _ _ _ _ (.blocklist h1 h2 a))
  | blocklistCrash h1 h2 => exact .blocklistCrash h1 h2
  | clientDone h1 h2 => exact .clientDone h1 h2
  | clientForward h1 h2 _ ih => exact .clientForward h1 h2 (ih fun _ _ _ _ a => hs _ _ _ _ (.clientBlocklist h1 h2 a))
  | ipDone h1 _ h2 ih => exact .ipDone h1 (ih fun _ _ _ _ a => hs _ _ _ _ (.responseIp a)) h2
  | ipForward h1 _ h2 _ ih ih2 => exact .ipForward h1 (ih fun _ _ _ _ a => hs _ _ _ _ (.responseIp a)) h2 (ih2 fun _ _ _ _ a => hs _ _ _ _ (.responseIpBlock h1 h2 a))
  | ipCrash _ ih => exact .ipCrash (ih fun _ _ _ _ a => hs _ _ _ _ (.responseIp a))
  | nameDone h1 _ h2 ih => exact .nameDone h1 (ih fun _ _ _ _ a => hs _ _ _ _ (.responseName a)) h2
  | nameForward h1 _ h2 _ ih ih2 => exact .nameForward h1 (ih fun _ _ _ _ a => hs _ _ _ _ (.responseName a)) h2 (ih2 fun _ _ _ _ a => hs _ _ _ _ (.responseNameBlock h1 h2 a))
  | nameCrash _ ih => exact .nameCrash (ih fun _ _ _ _ a => hs _ _ _ _ (.responseName a))
  | rateOn h _ ih => exact .rateOn h (ih fun _ _ _ _ a => hs _ _ _ _ (.rateOn a))
  | @rateLimit hl rej _ _ _ _ _ h _ ih =>
    have hl' : hl = true := by
      cases hl with
      | true => rfl
      | false => cases rej <;> cases h
    subst hl'
    exact .rateLimit h (ih fun _ _ _ _ a => hs _ _ _ _ (.rateLimited a))
  | rateDrop h => exact .rateDrop h
  | static => exact .static
  | template => exact .template
  | replace _ ih => exact .replace (ih fun _ _ _ _ a => hs _ _ _ _ (.replace a))
  | syslog _ ih => exact .syslog (ih fun _ _ _ _ a => hs _ _ _ _ (.syslog a))
  | queryLog _ ih => exact .queryLog (ih fun _ _ _ _ a => hs _ _ _ _ (.queryLog a))
  | dns64One _ h ih => exact .dns64One (ih fun _ _ _ _ a => hs _ _ _ _ (.dns64 a)) h
  | dns64Two _ _ ih ih2 => exact .dns64Two (ih fun _ _ _ _ a => hs _ _ _ _ (.dns64 a)) (ih2 fun _ _ _ _ a => hs _ _ _ _ (.dns64A a))
  | dns64Crash _ ih => exact .dns64Crash (ih fun _ _ _ _ a => hs _ _ _ _ (.dns64 a))
  | dns64Crash2 _ _ ih ih2 => exact .dns64Crash2 (ih fun _ _ _ _ a => hs _ _ _ _ (.dns64 a)) (ih2 fun _ _ _ _ a => hs _ _ _ _ (.dns64A a))
  | failRotate h1 h2 hx _ ih => exact .failRotate h1 h2 hx fun pre x post s1 i m e1 e2 e3 => ih pre x post s1 i m e1 e2 e3 fun _ _ _ _ a => hs _ _ _ _ (.failRotate a)
  | failRotateCrash _ ih => exact .failRotateCrash (ih fun _ _ _ _ a => hs _ _ _ _ (.failRotate a))
  | failBack h1 h2 hx _ ih => exact .failBack h1 h2 hx fun pre x post s1 i m e1 e2 e3 => ih pre x post s1 i m e1 e2 e3 fun _ _ _ _ a => hs _ _ _ _ (.failBack a)
  | failBackCrash _ ih => exact .failBackCrash (ih fun _ _ _ _ a => hs _ _ _ _ (.failBack a))
  | failBackEach _ ih => exact .failBackEach fun m hm => ih m hm fun _ _ _ _ a => hs _ _ _ _ (.failBackEach a)
  | failBackEachCrash _ ih => exact .failBackEachCrash (ih fun _ _ _ _ a => hs _ _ _ _ (.failBackEach a))
  | roundRobin h _ ih => exact .roundRobin h (ih fun _ _ _ _ a => hs _ _ _ _ (.roundRobin a))
  | roundRobinEmpty => exact .roundRobinEmpty
  | random h1 h2 hx _ ih => exact .random h1 h2 hx fun pre x post s1 m e1 e2 e3 => ih pre x post s1 m e1 e2 e3 fun _ _ _ _ a => hs _ _ _ _ (.random a)
  | randomCrash _ ih => exact .randomCrash (ih fun _ _ _ _ a => hs _ _ _ _ (.random a))
  | loadBalance h _ ih => exact .loadBalance h fun m hm => ih m hm fun _ _ _ _ a => hs _ _ _ _ (.loadBalance a)
  | loadBalanceCrash _ ih => exact .loadBalanceCrash (ih fun _ _ _ _ a => hs _ _ _ _ (.loadBalance a))
  | fastest h h1 h2 _ ih => exact .fastest h h1 h2 fun i x hx => ih i x hx fun _ _ _ _ a => hs _ _ _ _ (.fastest a)
  | fastestCrash _ ih => exact .fastestCrash (ih fun _ _ _ _ a => hs _ _ _ _ (.fastest a))
  | fastestTcp _ ih => exact .fastestTcp (ih fun _ _ _ _ a => hs _ _ _ _ (.fastestTcp a))
  | router h1 h2 _ ih => exact .router h1 h2 (ih fun _ _ _ _ a => hs _ _ _ _ (.router h1 h2 a))
  | routerNone h1 h2 => exact .routerNone h1 h2
  | routerCrash h => exact .routerCrash h
  | dedup h1 h2 h3 h4 h5 => exact .dedup h1 h2 h3 h4 h5
  | dedupCrash _ ih => exact .dedupCrash (ih fun _ _ _ _ a => hs _ _ _ _ (.dedup a))
  | dedupNoKey h => exact .dedupNoKey h
  | cache h1 h0 hk h2 h3 h4 _ ih => exact .cache h1 h0 hk h2 h3 h4 fun x hx hxa => ih x hx hxa fun _ _ _ _ a => hs _ _ _ _ (.cache a)
  | cacheCrash _ ih => exact .cacheCrash (ih fun _ _ _ _ a => hs _ _ _ _ (.cache a))
  | prefetch _ ih => exact .prefetch (ih fun _ _ _ _ a => hs _ _ _ _ (.prefetch a))
  | dnssec _ hv ih => exact .dnssec (ih fun _ _ _ _ a => hs _ _ _ _ (.dnssec a)) hv

/-- So replies about blocked names that servers would give make no difference. -/
theorem guarded_replies [DecidableEq H] (bad : Str → Prop) (C C' : Nat → Msg → ClientInfo → Option Res → Prop)
    (hC : ∀ i q ci o, (∀ n, Named q n → ¬ bad n) → (C i q ci o ↔ C' i q ci o)) (t : Tree H) (hg : Guarded bad t) (q : Msg) (ci : ClientInfo) (o : Option Res) :
    Replies C t q ci o ↔ Replies C' t q ci o :=
  ⟨fun h => replies_only_asked C C' t q ci o h fun i q' ci' o' a hc => (hC i q' ci' o' fun n hn => guarded_never_asked bad t q ci i q' ci' hg a n hn).mp hc,
   fun h => replies_only_asked C' C t q ci o h fun i q' ci' o' a hc => (hC i q' ci' o' fun n hn => guarded_never_asked bad t q ci i q' ci' hg a n hn).mpr hc⟩

/-- A client on a list gets the same replies whatever the servers do. -/
theorem client_replies [DecidableEq H] (ip : Str) (hip : ip ≠ []) (C C' : Nat → Msg → ClientInfo → Option Res → Prop) (t : Tree H) (hg : GuardedFrom ip t) (q : Msg) (ci : ClientInfo)
    (hc : ci.sourceIP = ip) (o : Option Res) : Replies C t q ci o ↔ Replies C' t q ci o :=
  ⟨fun h => replies_only_asked C C' t q ci o h fun i q' ci' o' a _ => (client_never_asks ip hip t q ci i q' ci' hg hc a).elim,
   fun h => replies_only_asked C' C t q ci o h fun i q' ci' o' a _ => (client_never_asks ip hip t q ci i q' ci' hg hc a).elim⟩

/-! ### Limits -/

/-- Prefetching in front of a list of clients asks servers for clients of no address, which no such list stops. -/
theorem prefetch_passes_client_lists (L : Bool → Bool → (Str → Option Lists.Match) → Prop) (hasBlock : Bool) (db : Str → Option Lists.Match) (hL : L false hasBlock db) (b : Tree H) (k : Nat)
    (q p : Msg) (ci : ClientInfo) : Asks (.prefetch (.clientBlocklist L (.client k) b)) q ci k p { listener := str "prefetch" } :=
  .prefetchAgain (.clientBlocklist (p := p) (target := .upstream) hL rfl .client)

/-- So does the validator: it asks for keys as for a client of no address. -/
theorem dnssec_passes_client_lists (L : Bool → Bool → (Str → Option Lists.Match) → Prop) (hasBlock : Bool) (db : Str → Option Lists.Match) (hL : L false hasBlock db) (b : Tree H) (k : Nat)
    (lo : Bool) (q : Msg) (ci : ClientInfo) (name : Str) :
    ∃ q', q'.question = [⟨name, 48, 1⟩] ∧ Asks (.dnssec lo (.clientBlocklist L (.client k) b)) q ci k q' {} :=
  ⟨_, rfl, .dnssecLookup ⟨0, name, 48, Or.inl rfl, rfl⟩ (.clientBlocklist (target := .upstream) hL rfl .client)⟩

/-- Replacing names behind a blocklist brings blocked names to servers. -/
theorem replace_passes_lists : ∃ (L : Blocklist.Options → Prop) (bad : Str → Prop) (f : Str → Str) (q : Msg) (n : Str) (q' : Msg), Blocks L bad ∧ bad n ∧ Named q' n ∧
    Asks (.blocklist L (.replace [f] (.client 0)) .drop .drop : Tree Nat) q {} 0 q' {} := by
  refine ⟨fun o => o = { blockDB := fun q => if q.question.head?.map (·.name) = some (str "bad.") then some { rule := ⟨[], []⟩ } else none }, (· = str "bad."), fun _ => str "bad.",
    { question := [⟨str "good.", 1, 1⟩] }, str "bad.", replaceAsk [fun _ => str "bad."] { question := [⟨str "good.", 1, 1⟩] }, ?_, rfl, ⟨⟨str "bad.", 1, 1⟩, [], rfl, rfl⟩, ?_⟩
  · rintro opt rfl q n ⟨qu, rest, hq, rfl⟩ hn
    refine ⟨⟨{ rule := ⟨[], []⟩ }, ?_⟩, fun db h => by cases h⟩
    simp [hq, hn]
  · refine .blocklist (p := { question := [⟨str "good.", 1, 1⟩] }) (target := .upstream) rfl ?_ (.replace .client)
    have h : ¬ some (str "good.") = some (str "bad.") := by decide
    simp [Blocklist.resolve, h]

/-! ### A case -/

private def exBad : Blocklist.Options → Prop := fun o => (o.allowDB = none ∨ o.allowDB = some fun _ => none) ∧
  ∀ q, (o.blockDB q).isSome = (q.question.head?.map (·.name) == some (str "bad."))

/-- Names are replaced before the list; behind it there are a group and DNS64; a static responder answers for blocked names. -/
example : Guarded (· = str "bad.") (.replace [fun s => s] (.dedup (.blocklist exBad (.fastest 2 fun _ => .dns64 [] (.client 0)) .drop (.static { rcode := 3 }))) : Tree Nat) := by
  refine .inl ⟨?_, fun _ => trivial, trivial, trivial⟩
  rintro opt ⟨h1, h2⟩ q n ⟨qu, rest, hq, rfl⟩ hn
  refine ⟨Option.isSome_iff_exists.1 (by rw [h2 q, hq]; simpa using hn), ?_⟩
  rintro db hdb ⟨x, hx⟩
  rcases h1 with h1 | h1 <;> rw [h1] at hdb <;> cases hdb
  cases hx

end Verif.Props.Asks
