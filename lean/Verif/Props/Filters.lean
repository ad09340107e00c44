import Verif.Spec.Filters
import Verif.Props.Blocklist
import Verif.Props.Records
/-
C111: what response blocklists keep out stays out, whatever is put in front of them.
-/
namespace Verif.Props.Filters
open Verif Verif.Net Verif.Composition Verif.Filters Verif.Spec.Blocklist Verif.Props.Composition Verif.Props.Records

variable {codes : Nat → Prop} {bad : RData → Prop}

/-- The filter at work: whatever the reply was -/
private theorem ip_blocks {L : Blocklist.IpOptions → Prop} (hL : IpBlocks codes bad L) {o : Blocklist.IpOptions} (hl : L o) {r x : Res} {q : Msg}
    (hx : Blocklist.resolveIp o r q = .done x) : Holds codes (fun _ r => ¬ bad r.data) x := by
  intro he a ha
  refine holds_all.mpr fun hc r' hr hb => ?_
  obtain ⟨m, e⟩ := x
  simp only at he ha
  subst he ha
  exact Blocklist.response_ip_clean o r q a hx (hL.1 _ hc) r' hr (hL.2 o hl r' hb)

private theorem name_blocks (ho : ∀ s d o, ¬ bad (.opt s d o)) {L : Blocklist.NameOptions → Prop} (hL : NameBlocks bad L) {o : Blocklist.NameOptions} (hl : L o) {r x : Res} {q : Msg}
    (hx : Blocklist.resolveName o r q = .done x) : Holds codes (fun _ r => ¬ bad r.data) x := by
  obtain ⟨m, e⟩ := r
  cases e with
  | some e =>
    rw [Blocklist.response_name_passthrough o _ q (.inl (by simp))] at hx
    cases hx
    exact hold_err (by simp)
  | none =>
    cases m with
    | none =>
      rw [Blocklist.response_name_passthrough o _ q (.inr rfl)] at hx
      cases hx
      exact hold_none rfl
    | some a =>
      by_cases h : ∃ r, r ∈ a.records ∧ BadName (nameRule o.db) o.inverted r
      · have h1 := (Blocklist.response_name o a q).2 h
        cases hb : o.hasBlockResolver with
        | true =>
          have h2 := h1.1 hb
          rw [show Blocklist.resolveName o ⟨some a, none⟩ q = Blocklist.resolveName o (.ok a) q from rfl, h2] at hx
          cases hx
        | false =>
          obtain ⟨m, h2, h3⟩ := h1.2 hb
          rw [show Blocklist.resolveName o ⟨some a, none⟩ q = Blocklist.resolveName o (.ok a) q from rfl, h2] at hx
          cases hx
          refine hold_ok (holds_all.mpr fun _ r hr hbad => ?_)
          obtain ⟨-, -, e1, e2, e3⟩ := h3
          rw [e1, e2] at hr
          rcases e3 with e3 | ⟨c, t, r', e3, e4⟩
          · rw [e3] at hr; simp at hr
          · rw [e3] at hr
            simp only [List.nil_append, List.mem_singleton] at hr
            rw [hr, e4] at hbad
            exact ho _ _ _ hbad
      · have h1 := (Blocklist.response_name o a q).1 fun r hr hb => h ⟨r, hr, hb⟩
        rw [show Blocklist.resolveName o ⟨some a, none⟩ q = Blocklist.resolveName o (.ok a) q from rfl, h1] at hx
        cases hx
        exact hold_ok (holds_all.mpr fun _ r hr hb => h ⟨r, hr, hL o hl r hb⟩)

/-! ### The theorems -/

private theorem replies_hold {H : Type} [DecidableEq H] {W : Around H} {C : Nat → Msg → ClientInfo → Option Res → Prop} (ho : ∀ s d o, ¬ bad (.opt s d o)) (hS : Stored W C)
    (t : Tree H) (ht : Filtered codes bad C t) (q : Msg) (ci : ClientInfo) (r : Res) (h : RepliesIn W C t q ci (some r)) : Holds codes (fun _ r => ¬ bad r.data) r := by
  have hopt : Opts (fun _ r => ¬ bad r.data) := by
    intro _ r hr
    unfold RR.isOpt at hr
    split at hr
    · rename_i hd
      show ¬ bad r.data
      rw [hd]
      exact ho _ _ _
    · cases hr
  induction t generalizing q ci r with
  | client i => cases h with | client h => exact fun he a ha => holds_all.mpr (ht q ci r h he a ha)
  | ttl o t ih =>
    generalize ho' : some r = o' at h
    cases h with
    | ttl h =>
      obtain ⟨x, rfl, rfl⟩ := Option.map_eq_some_iff.mp ho'.symm
      exact ttl_hold (.inl fun _ _ _ h => h) (ih ht _ _ _ h)
  | truncateRetry t u iht ihu =>
    cases h with
    | truncateKeep h1 h2 => exact truncate_hold (iht ht.1 _ _ _ h1) fun h => by rw [h2] at h; cases h
    | truncateAsk h1 _ h3 => exact truncate_hold (iht ht.1 _ _ _ h1) fun _ => ihu ht.2 _ _ _ h3
  | collapse n t ih =>
    generalize ho' : some r = o' at h
    cases h with
    | collapse h =>
      obtain ⟨x, rfl, hx⟩ := Option.bind_eq_some_iff.mp ho'.symm
      exact collapse_hold (fun _ _ _ h => h) (ih ht _ _ _ h) hx
  | minimize t ih =>
    generalize ho' : some r = o' at h
    cases h with
    | minimize h =>
      obtain ⟨x, rfl, rfl⟩ := Option.map_eq_some_iff.mp ho'.symm
      exact minimize_hold (ih ht _ _ _ h)
  | drop => cases h; exact hold_none rfl
  | modify m t ih => cases h with | modify h => exact ih ht _ _ _ h
  | blocklist L t a b iht iha ihb =>
    cases h with
    | blocklistDone hl h => exact blocklist_hold hopt (fun q h hh => ⟨fun ip hip r hr _ => by rcases hr with hr | hr <;> rw [hr]; exact ((ht.1 _ hl q h hh).1 ip hip).1; exact ((ht.1 _ hl q h hh).1 ip hip).2, fun n hn r hr _ => by rw [hr]; exact (ht.1 _ hl q h hh).2 n hn⟩) h
    | @blocklistForward _ _ _ _ _ target _ _ _ _ hl _ h =>
      cases target with
      | upstream => exact iht ht.2.1 _ _ _ h
      | allow => exact iha ht.2.2.1 _ _ _ h
      | block => exact ihb ht.2.2.2 _ _ _ h
  | clientBlocklist L t b iht ihb =>
    cases h with
    | clientDone _ h => exact client_hold h
    | @clientForward _ _ _ _ _ _ target _ _ _ _ _ _ h =>
      cases target with
      | upstream => exact iht ht.1 _ _ _ h
      | allow => exact iht ht.1 _ _ _ h
      | block => exact ihb ht.2 _ _ _ h
  | responseIp L t b iht ihb =>
    cases h with
    | ipDone hl h1 h2 =>
      rcases ht.1 with hb | hf
      · exact ip_blocks hb hl h2
      · exact ip_hold hopt (iht hf _ _ _ h1) h2
    | ipForward hl h1 h2 h3 =>
      obtain ⟨-, rfl⟩ := Asks.ip_forward h2
      exact ihb ht.2 _ _ _ h3
  | responseName L t b iht ihb =>
    cases h with
    | nameDone hl h1 h2 =>
      rcases ht.1 with hb | hf
      · exact name_blocks ho hb hl h2
      · exact name_hold hopt (iht hf _ _ _ h1) h2
    | nameForward hl h1 h2 h3 =>
      obtain ⟨-, rfl⟩ := Asks.name_forward h2
      exact ihb ht.2 _ _ _ h3
  | rateLimit l t u iht ihu =>
    cases h with
    | rateOn _ h => exact iht ht.1 _ _ _ h
    | rateLimit _ h => exact ihu ht.2 _ _ _ h
    | rateDrop _ => exact hold_none rfl
  | static s =>
    generalize ho' : some r = o' at h
    cases h
    exact static_hold hopt (fun rr hrr _ r hr _ => by rw [hr]; exact ht rr hrr) ho'.symm
  | template newRR s =>
    generalize ho' : some r = o' at h
    cases h
    exact template_hold hopt (fun f hf i text rr h1 h2 _ => ht f hf i text rr h1 h2) ho'.symm
  | replace exps t ih =>
    generalize ho' : some r = o' at h
    cases h with
    | replace h =>
      obtain ⟨x, rfl, hx⟩ := Option.bind_eq_some_iff.mp ho'.symm
      exact replace_hold (fun _ _ _ h => h) (ih ht _ _ _ h) hx
  | syslog o t ih =>
    generalize ho' : some r = o' at h
    cases h with
    | syslog h =>
      obtain ⟨x, rfl, hx⟩ := Option.bind_eq_some_iff.mp ho'.symm
      obtain rfl := syslog_same hx
      exact ih ht _ _ _ h
  | queryLog t ih =>
    generalize ho' : some r = o' at h
    cases h with
    | queryLog h =>
      obtain ⟨x, rfl, hx⟩ := Option.bind_eq_some_iff.mp ho'.symm
      obtain rfl := queryLog_same hx
      exact ih ht _ _ _ h
  | dns64 ps t ih =>
    generalize ho' : some r = o' at h
    cases h with
    | dns64One h1 h2 =>
      have h3 := h2 .drop
      rw [← ho'] at h3
      exact dns64_hold (fun p hp ip ip4 ip6 h4 h6 r r' hn h1 h2 _ hb => hn (by rw [h1]; rw [h2] at hb; exact ht.1 p hp ip ip4 ip6 h4 h6 hb)) (two_hold (ih ht.2 _ _ _ h1) (hold_none rfl)) (two_hold (ih ht.2 _ _ _ h1) (hold_none rfl)) h3
    | dns64Two h1 h2 =>
      exact dns64_hold (fun p hp ip ip4 ip6 h4 h6 r r' hn h1 h2 _ hb => hn (by rw [h1]; rw [h2] at hb; exact ht.1 p hp ip ip4 ip6 h4 h6 hb)) (two_hold (ih ht.2 _ _ _ h1) (ih ht.2 _ _ _ h2)) (two_hold (ih ht.2 _ _ _ h1) (ih ht.2 _ _ _ h2)) ho'.symm
    | dns64Crash => cases ho'
    | dns64Crash2 => cases ho'
  | failRotate n ok member ih =>
    cases h with
    | failRotate h1 h2 _ h3 =>
      exact rotate_run (P := Holds codes (fun _ r => ¬ bad r.data)) (hold_none rfl) _ _ _ h1 (by simp) (fun pre x post s1 i m e1 e2 e3 => ih m (ht m) _ _ _ (h3 pre x post s1 i m e1 e2 e3)) _ _ h2 rfl
  | failBack n ok member ih =>
    cases h with
    | failBack h1 h2 _ h3 =>
      exact back_run (P := Holds codes (fun _ r => ¬ bad r.data)) (hold_none rfl) _ _ _ h1 (by simp [Group.Back.init]) (fun pre x post s1 i m e1 e2 e3 => ih m (ht m) _ _ _ (h3 pre x post s1 i m e1 e2 e3)) _ _ h2 rfl
  | failBackEach n ok member ih =>
    cases h with
    | failBackEach h => exact each_run (P := Holds codes (fun _ r => ¬ bad r.data)) _ _ _ (hold_none rfl) fun m hm => ih m (ht m) _ _ _ (h m hm)
  | roundRobin n member ih => cases h with | roundRobin _ h => exact ih _ (ht _) _ _ _ h
  | random n ok member ih =>
    generalize ho' : some r = o' at h
    cases h with
    | @random _ _ _ _ _ _ _ _ r' h1 h2 _ h3 =>
      cases ho'
      cases r' with
      | none => exact hold_err (by simp [Res.fail])
      | some x => exact random_run (P := Holds codes (fun _ r => ¬ bad r.data)) _ _ _ h1 (by simp) (fun pre x post s1 m e1 e2 e3 => ih m (ht m) _ _ _ (h3 pre x post s1 m e1 e2 e3)) _ h2
    | randomCrash => cases ho'
  | loadBalance n ok member ih =>
    cases h with
    | loadBalance h1 h2 => exact balance_run (P := Holds codes (fun _ r => ¬ bad r.data)) (fun e => hold_err (by simp [Res.fail])) _ _ _ _ _ _ (hold_none rfl) h1 fun m hm => ih m (ht m) _ _ _ (h2 m hm)
  | fastest n member ih =>
    cases h with
    | fastest h1 _ _ h2 =>
      obtain ⟨i, hi⟩ := List.getElem?_of_mem (fastest_mem _ _ _ h1)
      exact ih _ (ht _) _ _ _ (h2 i _ hi)
  | fastestTcp w n t ih =>
    generalize ho' : some r = o' at h
    cases h with
    | fastestTcp h =>
      obtain ⟨x, rfl, hx⟩ := Option.bind_eq_some_iff.mp ho'.symm
      exact tcp_hold (.inl fun _ _ _ h => h) (ih ht _ _ _ h) hx
  | router routes member ih =>
    cases h with
    | router _ _ h => exact ih _ (ht _) _ _ _ h
    | routerNone _ _ => exact hold_err (by simp [Res.fail])
  | dedup t ih =>
    cases h with
    | dedup h1 h2 h3 h4 h5 =>
      obtain ⟨r', rfl, hr'⟩ := (dedup_from (Q := Holds codes (fun _ r => ¬ bad r.data)) _ _ _ h1 (fun l y hy => by
        obtain ⟨q', ci', hy'⟩ := hS.dedup t y (h5 l y hy)
        exact ih ht _ _ _ hy') (by simp) _ _ h2).2 _ h4
      exact restore_hold hr'
  | cache env o cap t ih =>
    generalize ho' : some r = o' at h
    cases h with
    | cache h1 h0 _ h2 h3 h4 h5 =>
      refine cache_hold h1 h2 h3 ht.1 ht.2.1 (fun f hf m hm => holds_all.mpr fun hc r hr hb => ?_) (fun q' m ts' w m' a hm hw hd ha => holds_all.mpr fun hc r hr hb => ?_) (fun x hx ha => ih ht.2.2.2.2 _ _ _ (h5 x hx ha)) ho'.symm
      · obtain ⟨k1, k2⟩ := ht.2.2.1 f hf m
        obtain ⟨r0, e1, e2⟩ := k2 r hr
        exact holds_all.mp hm (by rw [← k1]; exact hc) r0 e1 (by rw [e2]; exact hb)
      · obtain ⟨q'', ci', hy'⟩ := hS.cache t m ts' (h0 q' m ts' hm)
        obtain ⟨k1, k2⟩ := ht.2.2.2.1 m w m' hw hd
        obtain ⟨k3, k4⟩ := aged_all ha
        obtain ⟨r1, e3, e4⟩ := k4 r hr
        obtain ⟨r0, e1, e2⟩ := k2 r1 e3
        have hdata : r.data = r1.data := by
          unfold Spec.Cache.Lowered at e4
          split at e4
          · rw [e4]
          · rw [e4.2]
        exact holds_all.mp (ih ht.2.2.2.2 _ _ _ hy' rfl m rfl) (by rw [← k1, ← k3]; exact hc) r0 e1 (by rw [e2, ← hdata]; exact hb)
    | cacheCrash => cases ho'
  | prefetch t ih => cases h with | prefetch h => exact ih ht _ _ _ h
  | dnssec l t ih =>
    generalize ho' : some r = o' at h
    cases h with
    | dnssec h _ =>
      obtain ⟨x, rfl, hx⟩ := Option.bind_eq_some_iff.mp ho'.symm
      exact dnssec_hold hopt (ih ht _ _ _ h) hx

/-- C111: no message with a forbidden record gets to the client if a response blocklist that objects to it is on every way: whatever else there is, in front or behind, whatever
was stored before, and whatever other queries are under way. -/
theorem replies_clean {H : Type} [DecidableEq H] {W : Around H} {C : Nat → Msg → ClientInfo → Option Res → Prop} (ho : ∀ s d o, ¬ bad (.opt s d o)) (hS : Stored W C)
    (t : Tree H) (ht : Filtered codes bad C t) (q : Msg) (ci : ClientInfo) (r : Res) (h : RepliesIn W C t q ci (some r)) : Clean codes bad r :=
  fun he a ha => holds_all.mp (replies_hold ho hS t ht q ci r h he a ha)

/-- C111 for addresses: answers that are not errors have no address of a set, if every address list on the way objects to all of them. -/
theorem no_listed_address {H : Type} [DecidableEq H] {W : Around H} {C : Nat → Msg → ClientInfo → Option Res → Prop} (hS : Stored W C) (listed : Str → Prop)
    (t : Tree H) (ht : Filtered (· = 0) (Address listed) C t) (q : Msg) (ci : ClientInfo) (a : Msg) (h : RepliesIn W C t q ci (some (.ok a))) (hc : a.rcode = 0) :
    ∀ r, r ∈ a.answer ++ a.ns ++ a.extra → ∀ ip, r.data = .a ip ∨ r.data = .aaaa ip → ¬ listed ip :=
  fun r hr ip hd hl => replies_clean (by rintro s d o ⟨ip, h | h, -⟩ <;> cases h) hS t ht q ci _ h rfl a rfl hc r hr ⟨ip, hd, hl⟩

/-- C111 for names: messages, errors included, have no record with a name of a set, if every name list on the way objects to all of them. -/
theorem no_listed_name {H : Type} [DecidableEq H] {W : Around H} {C : Nat → Msg → ClientInfo → Option Res → Prop} (hS : Stored W C) (listed : Str → Prop)
    (t : Tree H) (ht : Filtered (fun _ => True) (Named listed) C t) (q : Msg) (ci : ClientInfo) (a : Msg) (h : RepliesIn W C t q ci (some (.ok a))) :
    ∀ r, r ∈ a.answer ++ a.ns ++ a.extra → ∀ n, Text r.data n → ¬ listed n :=
  fun r hr n hd hl => replies_clean (by rintro s d o ⟨n, h, -⟩; cases h) hS t ht q ci _ h rfl a rfl trivial r hr ⟨n, hd, hl⟩

/-- A list of addresses to block objects to the addresses on it, whatever was on it besides at any time. -/
theorem address_list_blocks (listed : Str → Prop) (L : Blocklist.IpOptions → Prop) (h : ∀ opt, L opt → opt.inverted = false ∧ ∀ ip, listed ip → ∃ m, opt.db ip = some m) :
    IpBlocks (· = 0) (Address listed) L := by
  refine ⟨fun n hn => hn, fun opt hl r hb => ?_⟩
  obtain ⟨ip, hd, hp⟩ := hb
  refine ⟨ip, hd, ?_⟩
  rw [(h opt hl).1]
  exact (h opt hl).2 ip hp

/-- A list of the only addresses allowed objects to all others. -/
theorem allowed_addresses_block (allowed : Str → Prop) (L : Blocklist.IpOptions → Prop) (h : ∀ opt, L opt → opt.inverted = true ∧ ∀ ip m, opt.db ip = some m → allowed ip) :
    IpBlocks (· = 0) (Address fun ip => ¬ allowed ip) L := by
  refine ⟨fun n hn => hn, fun opt hl r hb => ?_⟩
  obtain ⟨ip, hd, hp⟩ := hb
  refine ⟨ip, hd, ?_⟩
  rw [(h opt hl).1, if_pos rfl]
  cases hdb : opt.db ip with
  | none => rfl
  | some m => exact absurd ((h opt hl).2 ip m hdb) hp

/-- A list of names objects to the names on it. -/
theorem name_list_blocks (listed : Str → Prop) (L : Blocklist.NameOptions → Prop) (h : ∀ opt, L opt → opt.inverted = false ∧ ∀ n, listed n → ∃ m, nameRule opt.db n = some m) :
    NameBlocks (Named listed) L := by
  rintro opt hl r ⟨n, hd, hp⟩
  refine ⟨n, hd, ?_⟩
  rw [(h opt hl).1]
  exact (h opt hl).2 n hp

/-! ### Limits -/

private def mapped (a b c d : UInt8) : Str := [0, 0x64, 0xff, 0x9b, 0, 0, 0, 0, 0, 0, 0, 0, a, b, c, d]

/-- Finding: in front of DNS64, a list of IPv4 addresses is passed by: each of them reaches the client inside an IPv6 address. -/
theorem dns64_behind_list {H : Type} [DecidableEq H] (W : Around H) (a b c d : UInt8) (name : Str) (opt : Blocklist.IpOptions) (hi : opt.inverted = false)
    (hf : opt.filter = false) (ho : ∀ ip, ip.length = 16 → opt.db ip = none) (block : Tree H) (ci : ClientInfo) :
    ∃ (q : Msg) (C : Nat → Msg → ClientInfo → Option Res → Prop) (m : Msg),
      (∀ i p ci x, C i p ci (some x) → ∀ y, x.msg = some y → ∀ r, r ∈ y.answer ++ y.ns ++ y.extra → r.data = .a [a, b, c, d]) ∧
      RepliesIn W C (.responseIp (· = opt) (.dns64 [⟨mapped 0 0 0 0, 96⟩] (.client 0)) block) q ci (some (.ok m)) ∧ m.rcode = 0 ∧
      ∃ r, r ∈ m.answer ∧ r.data = .aaaa (mapped a b c d) := by
  let q : Msg := { question := [⟨name, typeAAAA, 1⟩] }
  let e : Msg := setReply q
  let y : Msg := { setReply (Dns64.aQuery q) with answer := [⟨name, typeA, 1, 60, .a [a, b, c, d]⟩] }
  let m : Msg := { setReply q with answer := [⟨name, typeAAAA, 1, 60, .aaaa (mapped a b c d)⟩] }
  have hne : Dns64.aQuery q ≠ q := by simp [q, Dns64.aQuery, typeA, typeAAAA]
  let C : Nat → Msg → ClientInfo → Option Res → Prop := fun _ p _ o => o = some (two q (.ok e) (.ok y) p)
  have h64 : Dns64.resolve [⟨mapped 0 0 0 0, 96⟩] (two q (.ok e) (.ok y)) q = some (.ok m) := by
    have h1 : two q (.ok e) (.ok y) q = .ok e := if_pos rfl
    have h2 : two q (.ok e) (.ok y) (Dns64.aQuery q) = .ok y := if_neg hne
    have h3 : Dns64.synthesizeAAAA [⟨mapped 0 0 0 0, 96⟩] y ⟨name, typeAAAA, 1⟩ = m.answer := by
      simp [Dns64.synthesizeAAAA, y, Dns64.synthesizeAll, Dns64.synthesize, to4, Dns64.copy16, mapped, m]
    have hq : q.question = [⟨name, typeAAAA, 1⟩] := rfl
    have he : q.edns? = none := rfl
    have hm : m.answer ≠ [] := by simp [m]
    unfold Dns64.resolve
    rw [hq]
    simp only [h1, h2, he]
    simp only [Res.ok, h3, if_neg hm]
    rfl
  refine ⟨q, C, m, ?_, ?_, rfl, ⟨_, List.mem_singleton.mpr rfl, rfl⟩⟩
  · intro i p ci x hx z hz r hr
    cases hx
    unfold two at hz
    split at hz
    · cases hz; simp [e, setReply] at hr
    · cases hz; simp only [y, setReply, List.append_nil, List.mem_singleton] at hr; subst hr; rfl
  · refine RepliesIn.ipDone rfl (r := .ok m) ?_ ?_
    · rw [← h64]
      refine RepliesIn.dns64Two (.client ?_) (.client ?_)
      · show some _ = some _; rw [two, if_pos rfl]
      · show some _ = some _; rw [two, if_neg hne]
    · refine (Blocklist.response_ip_block opt m q rfl hf).1 fun r hr hb => ?_
      simp only [Msg.records, m, setReply, List.append_nil, List.mem_singleton] at hr
      subst hr
      obtain ⟨ip, h1, h2⟩ := hb
      rw [hi] at h2
      obtain ⟨x, hx⟩ := h2
      rcases h1 with h1 | h1
      · cases h1
      · cases h1
        rw [ho _ rfl] at hx
        cases hx

/-- Finding: in front of a list of clients, de-duplication lets a client on the list share the answer that another client gets at the same time. -/
theorem dedup_before_client_list {H : Type} [DecidableEq H] (db : Str → Option Lists.Match) (ci ci' : ClientInfo) (m : Lists.Match) (hl : db ci.sourceIP = some m) (hl' : db ci'.sourceIP = none)
    (qu : Question) (a : Msg) (block : Tree H) :
    let t : Tree H := .clientBlocklist (fun e h d => e = false ∧ h = false ∧ d = db) (.client 0) block
    let q : Msg := { id := 7, question := [qu] }
    ∃ (W : Around H) (C : Nat → Msg → ClientInfo → Option Res → Prop), Stored W C ∧ RepliesIn W C (.dedup t) q ci (some (.ok { a with id := 7, question := [qu] })) ∧
      (ci.sourceIP ≠ [] → ∀ r, RepliesIn W C t q ci (some r) → r = .ok (refused q)) := by
  intro t q
  refine ⟨⟨fun _ _ _ => False, fun u y => u = t ∧ y = .ok a, fun _ => True, fun _ _ _ => True, fun _ _ => True⟩, fun _ _ _ o => o = some (.ok a), ⟨fun _ _ _ h => h.elim, ?_⟩, ?_, ?_⟩
  · rintro u y ⟨rfl, rfl⟩
    refine ⟨q, ci', RepliesIn.clientForward ⟨rfl, rfl, rfl⟩ (target := .upstream) (q' := q) ?_ (RepliesIn.client rfl)⟩
    simp only [Blocklist.resolveClient, Blocklist.clientIP]
    simp [hl']
  · refine RepliesIn.dedup (evs := [.arrive q, .arrive q, .reply 0 (.ok a), .finish 0, .wake 1]) (c := 1) (x := ⟨q, .returned (.ok { a with id := 7, question := [qu] }), none⟩)
      (s := ⟨[], [⟨q, .returned (.ok { a with id := 7, question := [qu] }), some (.ok a)⟩, ⟨q, .returned (.ok { a with id := 7, question := [qu] }), none⟩]⟩) ?_ rfl rfl rfl ?_
    · have hk : ∃ k, Dedup.key q = some k := ⟨_, rfl⟩
      obtain ⟨k, hk⟩ := hk
      simp [Dedup.run, Dedup.step, hk, Dedup.Sys.setCaller, Dedup.restore, Res.ok, q]
    · intro l y hy
      simp only [List.mem_cons, reduceCtorEq, List.not_mem_nil, or_false, false_or, Dedup.Ev.reply.injEq] at hy
      exact ⟨rfl, hy.2⟩
  · intro hne r h
    simp only [t] at h
    cases h with
    | clientDone hd h =>
      obtain ⟨rfl, rfl, rfl⟩ := hd
      simp only [Blocklist.resolveClient, Blocklist.clientIP] at h
      simp [hl, hne] at h
      exact h.symm
    | clientForward hd h _ =>
      obtain ⟨rfl, rfl, rfl⟩ := hd
      simp only [Blocklist.resolveClient, Blocklist.clientIP] at h
      simp [hl, hne] at h

/-! ### An example -/

private def exIP : Str → Option Lists.Match := fun ip => if ip = [10, 0, 0, 1] ∨ ip = [10, 0, 0, 2] then some ⟨str "l", str "10.0.0.0/30"⟩ else none
/-- De-duplication in front of a group: one member behind a list that blocks, the other behind one that removes records and with a static answer as its other way. -/
private def exTree : Tree Nat := .dedup (.failRotate 2 (fun r => r.err.isNone) fun
  | 0 => .ttl ⟨.lowest, 5, 100⟩ (.responseIp (fun o => o.inverted = false ∧ ∀ ip, ip = [10, 0, 0, 1] → ∃ m, o.db ip = some m) (.client 0) .drop)
  | _ => .responseIp (· = { db := exIP, filter := true, hasBlockResolver := true }) (.minimize (.client 1)) (.static { answer := [some ⟨str "x.", 1, 1, 60, .a [127, 0, 0, 1]⟩] }))
private theorem exFiltered (C : Nat → Msg → ClientInfo → Option Res → Prop) : Filtered (· = 0) (Address (· = [10, 0, 0, 1])) C exTree := by
  intro m
  match m with
  | 0 => exact ⟨.inl (address_list_blocks _ _ fun opt h => ⟨h.1, fun ip hip => h.2 ip hip⟩), trivial⟩
  | n + 1 =>
    refine ⟨.inl (address_list_blocks _ _ fun opt h => ?_), ?_⟩
    · subst h
      exact ⟨rfl, fun ip hip => by subst hip; exact ⟨_, rfl⟩⟩
    · intro rr hr hb
      simp only [List.append_nil, List.mem_singleton, Option.some.injEq] at hr
      subst hr
      obtain ⟨ip, hd, rfl⟩ := hb
      rcases hd with hd | hd <;> cases hd

/-- The same behind a cache -/
example (C : Nat → Msg → ClientInfo → Option Res → Prop) (env : CacheM.Env Nat) (hip : ∀ a, env.ipStr a ≠ []) (he : ∀ m w m', env.encode m = some w → env.decode w = some m' → m' = m) :
    Filtered (· = 0) (Address (· = [10, 0, 0, 1])) C (.cache env { negativeTTL := 60 } 100 exTree) := by
  refine ⟨by decide, hip, ?_, ?_, exFiltered C⟩
  · intro f hf
    cases hf
  · intro m w m' h1 h2
    rw [he m w m' h1 h2]
    exact ⟨rfl, fun r hr => ⟨r, hr, rfl⟩⟩

private def exQ : Msg := { id := 7, question := [⟨str "x.", 1, 1⟩] }
private def exA : Msg := { id := 7, response := true, question := [⟨str "x.", 1, 1⟩], answer := [⟨str "x.", 1, 1, 60, .a [10, 0, 0, 1]⟩, ⟨str "x.", 1, 1, 60, .a [8, 8, 8, 8]⟩] }
example : Stored (H := Nat) ⟨fun _ _ _ => False, fun _ _ => False, fun _ => True, fun _ _ _ => True, fun _ _ => True⟩ (fun _ _ _ o => o = some (.ok exA)) := ⟨fun _ _ _ h => h.elim, fun _ _ h => h.elim⟩
/-- What is left of a reply with a listed address, in a tree without `dedup` -/
example : RepliesIn (H := Nat) ⟨fun _ _ _ => False, fun _ _ => False, fun _ => True, fun _ _ _ => True, fun _ _ => True⟩ (fun _ _ _ o => o = some (.ok exA))
    (.prefetch (.responseIp (· = { db := exIP, filter := true }) (.client 1) .drop)) exQ {} (some (.ok { exA with answer := [⟨str "x.", 1, 1, 60, .a [8, 8, 8, 8]⟩] })) :=
  RepliesIn.prefetch (RepliesIn.ipDone (r := .ok exA) rfl (RepliesIn.client rfl) rfl)

end Verif.Props.Filters
