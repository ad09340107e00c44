import Verif.Spec.Validated
import Verif.Props.Records
import Verif.Props.DnssecJoin
/-
C114: with validating elements on every way, clients get what was validated, whatever is put in front of them.
-/
namespace Verif.Props.Validated
open Verif Verif.Net Verif.Composition Verif.Filters Verif.Validated Verif.Props.Composition Verif.Props.Records

/-- The codes of responses that are validated -/
private abbrev Checked (n : Nat) : Prop := n = 0 ∨ n = 3

/-- The section of a message: answer, or authority and additional -/
private abbrev part (b : Bool) (a : Msg) : List RR := if b then a.answer else a.ns ++ a.extra

variable {H : Type} [DecidableEq H] {own : RData → Prop} {ren : Prop} {W : Around H} {C : Nat → Msg → ClientInfo → Option Res → Prop}

/-- What is proved of each record: it is an OPT record, or made by an element of the configuration, or comes from one of a message that passed. -/
private def Q (own : RData → Prop) (ren : Prop) (W : Around H) (C : Nat → Msg → ClientInfo → Option Res → Prop) (b : Bool) (r : RR) : Prop :=
  r.isOpt = true ∨ own r.data ∨ ∃ t a r0, Passed W C t a ∧ r0 ∈ part b a ∧ Comes ren r0 r

private theorem comes_refl (r : RR) : Comes ren r r := .inl ⟨rfl, rfl, rfl, .inl rfl⟩

private theorem isOpt_eq {r r' : RR} (h : r'.data = r.data) : r'.isOpt = r.isOpt := by unfold RR.isOpt; rw [h]

private theorem alike_q {b : Bool} {r0 r : RR} (h : Alike r0 r) (hq : Q own ren W C b r0) : Q own ren W C b r := by
  obtain ⟨h1, h2, h3, h4⟩ := h
  rcases hq with hq | hq | ⟨t, a, x, g1, g2, g3⟩
  · exact .inl (by rw [isOpt_eq h4]; exact hq)
  · exact .inr (.inl (by rw [h4]; exact hq))
  · refine .inr (.inr ⟨t, a, x, g1, g2, ?_⟩)
    unfold Comes at g3 ⊢
    rw [h1, h2, h3, h4]
    exact g3

private theorem other {b : Bool} {r : RR} (t : Nat) (h : Q own ren W C b r) : Q own ren W C b { r with ttl := t } := alike_q ⟨rfl, rfl, rfl, rfl⟩ h

private theorem renamed (hr : ren) {b : Bool} {r : RR} (n : Str) (hq : Q own ren W C b r) : Q own ren W C b { r with name := n } := by
  rcases hq with hq | hq | ⟨t, a, x, g1, g2, g3⟩
  · exact .inl hq
  · exact .inr (.inl hq)
  · refine .inr (.inr ⟨t, a, x, g1, g2, ?_⟩)
    rcases g3 with ⟨e1, e2, e3, -⟩ | g3
    · exact .inl ⟨e1, e2, e3, .inr hr⟩
    · exact .inr g3

private theorem kept {m m' : Msg} (hk : KeepsAlike m m') (h : HoldsMsg Checked (Q own ren W C) m) : HoldsMsg Checked (Q own ren W C) m' := by
  intro hc
  obtain ⟨k1, k2, k3⟩ := hk
  rw [k1] at hc
  refine ⟨fun r hr => ?_, fun r hr => ?_⟩
  · obtain ⟨r0, e1, e2⟩ := k2 r hr
    exact alike_q e2 ((h hc).1 r0 e1)
  · obtain ⟨r0, e1, e2⟩ := k3 r hr
    exact alike_q e2 ((h hc).2 r0 e1)

private theorem lowered {k : Nat} {b : Bool} {r0 r : RR} (h : Spec.Cache.Lowered k r0 r) (hq : Q own ren W C b r0) : Q own ren W C b r := by
  unfold Spec.Cache.Lowered at h
  split at h
  · rw [h]; exact hq
  · rw [h.2]; exact other _ hq

/-- The validator at work: whatever the reply was -/
private theorem screens {P : Bool → RR → Prop} (ho : Opts P) {t : Tree H} {v : Msg → DnssecResolver.Verdict} {r x : Res} {q : Msg} {ci : ClientInfo}
    (hv : ∀ m, r = .ok m → (∃ q ci, RepliesIn W C t q ci (some (.ok m))) ∧ W.verdict t m (v m)) (hP : ∀ b a x, Passed W C t a → x ∈ part b a → P b x)
    (hx : DnssecResolver.resolve false v (fun _ _ => r) q ci = some x) : Holds Checked P x := by
  unfold DnssecResolver.resolve at hx
  simp only at hx
  split at hx
  · cases hx
  · split at hx
    · rename_i he
      cases hx; exact hold_err (by rw [he]; simp)
    · rename_i hm
      cases hx; exact hold_none hm
    · rename_i a he ha
      have hr : r = .ok a := by
        obtain ⟨m, e⟩ := r
        simp only at he ha
        rw [he, ha]
        rfl
      obtain ⟨h1, h2⟩ := hv a hr
      have all : a.rcode = 0 ∨ a.rcode = 3 → (W.verdict t a .valid ∨ W.verdict t a .insecure) → HoldsMsg Checked P a := fun hc hd _ =>
        ⟨fun x hx => hP true a x ⟨h1, hc, hd⟩ hx, fun x hx => hP false a x ⟨h1, hc, hd⟩ hx⟩
      split at hx
      · rename_i hc
        cases hx
        exact hold_ok (strip_hold ho fun hc' => by
          simp only [rcodeSuccess, rcodeNameError] at hc
          omega)
      · rename_i hc
        have hc : a.rcode = 0 ∨ a.rcode = 3 := by
          simp only [rcodeSuccess, rcodeNameError] at hc
          omega
        split at hx
        · rename_i hi
          cases hx; exact hold_ok (strip_hold ho (all hc (.inr (hi ▸ h2))))
        · cases hx; exact hold_ok (hold_empty rfl rfl rfl)
        · rename_i hi
          cases hx; exact hold_ok (strip_hold ho (hold_from (all hc (.inl (hi ▸ h2))) ⟨rfl, fun r hr => hr, fun r hr => hr⟩))

private theorem replies_hold (hS : Stored W C) (t : Tree H) (ht : Screened own ren t) (q : Msg) (ci : ClientInfo) (r : Res) (h : RepliesIn W C t q ci (some r)) :
    Holds Checked (Q own ren W C) r := by
  have hopt : Opts (Q own ren W C) := fun _ _ h => .inl h
  have mapped64 : ren → ∀ {r r' : RR} {p : Dns64.Pfx} {ip ip4 ip6 : Str}, (own (.a ip) → own (.aaaa ip6)) → to4 ip = some ip4 → Dns64.synthesize p ip4 = some ip6 → Q own ren W C true r →
      r.data = .a ip → r'.data = .aaaa ip6 → Q own ren W C true r' := by
    intro hr r r' p ip ip4 ip6 h0 h4 h6 hq h1 h2
    rcases hq with hq | hq | ⟨t, a, x, g1, g2, g3⟩
    · unfold RR.isOpt at hq
      rw [h1] at hq
      cases hq
    · rw [h1] at hq
      exact .inr (.inl (by rw [h2]; exact h0 hq))
    · refine .inr (.inr ⟨t, a, x, g1, g2, .inr ⟨hr, p, ip, ip4, ip6, h4, h6, ?_, h2⟩⟩)
      rcases g3 with ⟨-, -, e3, -⟩ | ⟨-, _, _, _, _, -, -, -, e⟩
      · rw [← e3]; exact h1
      · rw [h1] at e; cases e
  induction t generalizing q ci r with
  | client i => cases h with | client h => exact ht.elim
  | ttl o t ih =>
    generalize ho' : some r = o' at h
    cases h with
    | ttl h =>
      obtain ⟨x, rfl, rfl⟩ := Option.map_eq_some_iff.mp ho'.symm
      exact ttl_hold (.inl fun _ _ t h => other t h) (ih ht _ _ _ h)
  | truncateRetry t u iht ihu =>
    cases h with
    | truncateKeep h1 h2 => exact truncate_hold (iht ht.1 _ _ _ h1) fun h => by rw [h2] at h; cases h
    | truncateAsk h1 _ h3 => exact truncate_hold (iht ht.1 _ _ _ h1) fun _ => ihu ht.2 _ _ _ h3
  | collapse n t ih =>
    generalize ho' : some r = o' at h
    cases h with
    | collapse h =>
      obtain ⟨x, rfl, hx⟩ := Option.bind_eq_some_iff.mp ho'.symm
      exact collapse_hold (fun _ _ n h => renamed ht.1 n h) (ih ht.2 _ _ _ h) hx
  | minimize t ih =>
    generalize ho' : some r = o' at h
    cases h with
    | minimize h =>
      obtain ⟨x, rfl, rfl⟩ := Option.map_eq_some_iff.mp ho'.symm
      exact minimize_hold (ih ht _ _ _ h)
  | drop => cases h; exact hold_none rfl
  | modify m t ih => cases h with | modify h => exact ih ht _ _ _ h
  | blocklist L t a b iht iha ihb =>
    cases h with
    | blocklistDone hl h =>
      exact blocklist_hold hopt (fun q h hh => ⟨fun ip hip r hr _ => by
        rcases hr with hr | hr
        · exact .inr (.inl (by rw [hr]; exact ((ht.1 _ hl q h hh).1 ip hip).1))
        · exact .inr (.inl (by rw [hr]; exact ((ht.1 _ hl q h hh).1 ip hip).2)), fun n hn r hr _ => .inr (.inl (by rw [hr]; exact (ht.1 _ hl q h hh).2 n hn))⟩) h
    | @blocklistForward _ _ _ _ _ target _ _ _ _ hl _ h =>
      cases target with
      | upstream => exact iht ht.2.1 _ _ _ h
      | allow => exact iha ht.2.2.1 _ _ _ h
      | block => exact ihb ht.2.2.2 _ _ _ h
  | clientBlocklist L t b iht ihb =>
    cases h with
    | clientDone _ h => exact client_hold h
    | @clientForward _ _ _ _ _ _ target _ _ _ _ _ _ h =>
      cases target with
      | upstream => exact iht ht.1 _ _ _ h
      | allow => exact iht ht.1 _ _ _ h
      | block => exact ihb ht.2 _ _ _ h
  | responseIp L t b iht ihb =>
    cases h with
    | ipDone hl h1 h2 =>
      exact ip_hold hopt (iht ht.1 _ _ _ h1) h2
    | ipForward hl h1 h2 h3 =>
      obtain ⟨-, rfl⟩ := Asks.ip_forward h2
      exact ihb ht.2 _ _ _ h3
  | responseName L t b iht ihb =>
    cases h with
    | nameDone hl h1 h2 =>
      exact name_hold hopt (iht ht.1 _ _ _ h1) h2
    | nameForward hl h1 h2 h3 =>
      obtain ⟨-, rfl⟩ := Asks.name_forward h2
      exact ihb ht.2 _ _ _ h3
  | rateLimit l t u iht ihu =>
    cases h with
    | rateOn _ h => exact iht ht.1 _ _ _ h
    | rateLimit _ h => exact ihu ht.2 _ _ _ h
    | rateDrop _ => exact hold_none rfl
  | static s =>
    generalize ho' : some r = o' at h
    cases h
    exact static_hold hopt (fun rr hrr _ r hr _ => .inr (.inl (by rw [hr]; exact ht rr hrr))) ho'.symm
  | template newRR s =>
    generalize ho' : some r = o' at h
    cases h
    exact template_hold hopt (fun f hf i text rr h1 h2 _ => .inr (.inl (ht f hf i text rr h1 h2))) ho'.symm
  | replace exps t ih =>
    generalize ho' : some r = o' at h
    cases h with
    | replace h =>
      obtain ⟨x, rfl, hx⟩ := Option.bind_eq_some_iff.mp ho'.symm
      exact replace_hold (fun _ _ n h => renamed ht.1 n h) (ih ht.2 _ _ _ h) hx
  | syslog o t ih =>
    generalize ho' : some r = o' at h
    cases h with
    | syslog h =>
      obtain ⟨x, rfl, hx⟩ := Option.bind_eq_some_iff.mp ho'.symm
      obtain rfl := syslog_same hx
      exact ih ht _ _ _ h
  | queryLog t ih =>
    generalize ho' : some r = o' at h
    cases h with
    | queryLog h =>
      obtain ⟨x, rfl, hx⟩ := Option.bind_eq_some_iff.mp ho'.symm
      obtain rfl := queryLog_same hx
      exact ih ht _ _ _ h
  | dns64 ps t ih =>
    generalize ho' : some r = o' at h
    cases h with
    | dns64One h1 h2 =>
      have h3 := h2 .drop
      rw [← ho'] at h3
      exact dns64_hold (fun p hp ip ip4 ip6 h4 h6 _ _ hn h1 h2 _ => mapped64 ht.1 (ht.2.1 p hp ip ip4 ip6 h4 h6) h4 h6 hn h1 h2) (two_hold (ih ht.2.2 _ _ _ h1) (hold_none rfl)) (two_hold (ih ht.2.2 _ _ _ h1) (hold_none rfl)) h3
    | dns64Two h1 h2 =>
      exact dns64_hold (fun p hp ip ip4 ip6 h4 h6 _ _ hn h1 h2 _ => mapped64 ht.1 (ht.2.1 p hp ip ip4 ip6 h4 h6) h4 h6 hn h1 h2) (two_hold (ih ht.2.2 _ _ _ h1) (ih ht.2.2 _ _ _ h2)) (two_hold (ih ht.2.2 _ _ _ h1) (ih ht.2.2 _ _ _ h2)) ho'.symm
    | dns64Crash => cases ho'
    | dns64Crash2 => cases ho'
  | failRotate n ok member ih =>
    cases h with
    | failRotate h1 h2 _ h3 =>
      exact rotate_run (P := Holds Checked (Q own ren W C)) (hold_none rfl) _ _ _ h1 (by simp) (fun pre x post s1 i m e1 e2 e3 => ih m (ht m) _ _ _ (h3 pre x post s1 i m e1 e2 e3)) _ _ h2 rfl
  | failBack n ok member ih =>
    cases h with
    | failBack h1 h2 _ h3 =>
      exact back_run (P := Holds Checked (Q own ren W C)) (hold_none rfl) _ _ _ h1 (by simp [Group.Back.init]) (fun pre x post s1 i m e1 e2 e3 => ih m (ht m) _ _ _ (h3 pre x post s1 i m e1 e2 e3)) _ _ h2 rfl
  | failBackEach n ok member ih =>
    cases h with
    | failBackEach h => exact each_run (P := Holds Checked (Q own ren W C)) _ _ _ (hold_none rfl) fun m hm => ih m (ht m) _ _ _ (h m hm)
  | roundRobin n member ih => cases h with | roundRobin _ h => exact ih _ (ht _) _ _ _ h
  | random n ok member ih =>
    generalize ho' : some r = o' at h
    cases h with
    | @random _ _ _ _ _ _ _ _ r' h1 h2 _ h3 =>
      cases ho'
      cases r' with
      | none => exact hold_err (by simp [Res.fail])
      | some x => exact random_run (P := Holds Checked (Q own ren W C)) _ _ _ h1 (by simp) (fun pre x post s1 m e1 e2 e3 => ih m (ht m) _ _ _ (h3 pre x post s1 m e1 e2 e3)) _ h2
    | randomCrash => cases ho'
  | loadBalance n ok member ih =>
    cases h with
    | loadBalance h1 h2 => exact balance_run (P := Holds Checked (Q own ren W C)) (fun e => hold_err (by simp [Res.fail])) _ _ _ _ _ _ (hold_none rfl) h1 fun m hm => ih m (ht m) _ _ _ (h2 m hm)
  | fastest n member ih =>
    cases h with
    | fastest h1 _ _ h2 =>
      obtain ⟨i, hi⟩ := List.getElem?_of_mem (fastest_mem _ _ _ h1)
      exact ih _ (ht _) _ _ _ (h2 i _ hi)
  | fastestTcp w n t ih =>
    generalize ho' : some r = o' at h
    cases h with
    | fastestTcp h =>
      obtain ⟨x, rfl, hx⟩ := Option.bind_eq_some_iff.mp ho'.symm
      exact tcp_hold (.inl fun _ _ t h => other t h) (ih ht _ _ _ h) hx
  | router routes member ih =>
    cases h with
    | router _ _ h => exact ih _ (ht _) _ _ _ h
    | routerNone _ _ => exact hold_err (by simp [Res.fail])
  | dedup t ih =>
    cases h with
    | dedup h1 h2 h3 h4 h5 =>
      obtain ⟨r', rfl, hr'⟩ := (dedup_from (Q := Holds Checked (Q own ren W C)) _ _ _ h1 (fun l y hy => by
        obtain ⟨q', ci', hy'⟩ := hS.dedup t y (h5 l y hy)
        exact ih ht _ _ _ hy') (by simp) _ _ h2).2 _ h4
      exact restore_hold hr'
  | cache env o cap t ih =>
    generalize ho' : some r = o' at h
    cases h with
    | cache h1 h0 _ h2 h3 h4 h5 =>
      refine cache_hold h1 h2 h3 ht.1 ht.2.1 (fun f hf m hm => kept (ht.2.2.1 f hf m) hm) (fun q' m ts' w m' a hm hw hd ha => ?_) (fun x hx ha => ih ht.2.2.2.2 _ _ _ (h5 x hx ha)) ho'.symm
      obtain ⟨q'', ci', hy'⟩ := hS.cache t m ts' (h0 q' m ts' hm)
      have hm' := kept (ht.2.2.2.1 m w m' hw hd) (ih ht.2.2.2.2 _ _ _ hy' rfl m rfl)
      obtain ⟨k1, k2, k3⟩ := aged_from ha
      intro hc
      rw [k1] at hc
      refine ⟨fun r hr => ?_, fun r hr => ?_⟩
      · obtain ⟨r0, e1, e2⟩ := k2 r hr
        exact lowered e2 ((hm' hc).1 r0 e1)
      · obtain ⟨r0, e1, e2⟩ := k3 r hr
        exact lowered e2 ((hm' hc).2 r0 e1)
    | cacheCrash => cases ho'
  | prefetch t ih => cases h with | prefetch h => exact ih ht _ _ _ h
  | dnssec l t ih =>
    generalize ho' : some r = o' at h
    cases h with
    | dnssec h hv =>
      obtain ⟨x, rfl, hx⟩ := Option.bind_eq_some_iff.mp ho'.symm
      by_cases hl : l = false
      · subst hl
        exact screens hopt (fun m hm => ⟨⟨_, _, hm ▸ h⟩, hv m (hm ▸ rfl)⟩) (fun b a x hp hx => .inr (.inr ⟨_, a, x, hp, hx, comes_refl x⟩)) hx
      · exact dnssec_hold hopt (ih (ht.resolve_left hl) _ _ _ h) hx

/-- C114: with a validating element on every way from the servers to the client, and whatever else there is, in front or behind, whatever was stored before, and whatever other queries are
under way: every record of a positive or negative response comes from a message that passed validation, from the same part of it, or was made by an element as the configuration says. -/
theorem records_validated (hS : Stored W C) (t : Tree H) (ht : Screened own ren t) (q : Msg) (ci : ClientInfo) (m : Msg) (h : RepliesIn W C t q ci (some (.ok m)))
    (hc : m.rcode = 0 ∨ m.rcode = 3) (r : RR) (hopt : r.isOpt = false) :
    (r ∈ m.answer → own r.data ∨ ∃ t' a r0, Passed W C t' a ∧ r0 ∈ a.answer ∧ Comes ren r0 r) ∧
    (r ∈ m.ns ++ m.extra → own r.data ∨ ∃ t' a r0, Passed W C t' a ∧ r0 ∈ a.ns ++ a.extra ∧ Comes ren r0 r) := by
  obtain ⟨h1, h2⟩ := replies_hold hS t ht q ci _ h rfl m rfl hc
  exact ⟨fun hr => (h1 r hr).resolve_left (by simp [hopt]), fun hr => (h2 r hr).resolve_left (by simp [hopt])⟩

/-- C114: if nothing passes validation, clients get errors, or responses without records (other than those the elements make up). -/
theorem nothing_passes (hS : Stored W C) (t : Tree H) (ht : Screened (fun _ => False) ren t) (hv : ∀ t m v, W.verdict t m v → v = .bogus) (q : Msg) (ci : ClientInfo) (m : Msg)
    (h : RepliesIn W C t q ci (some (.ok m))) (hc : m.rcode = 0 ∨ m.rcode = 3) : ∀ r, r ∈ m.answer ++ m.ns ++ m.extra → r.isOpt = true := by
  intro r hr
  cases ho : r.isOpt with
  | true => rfl
  | false =>
    have no : ∀ t' a, ¬ Passed W C t' a := by
      rintro t' a ⟨-, -, h | h⟩
      · cases hv _ _ _ h
      · cases hv _ _ _ h
    obtain ⟨h1, h2⟩ := records_validated hS t ht q ci m h hc r ho
    rw [List.append_assoc] at hr
    rcases List.mem_append.mp hr with hr | hr
    · obtain ⟨t', a, -, hp, -⟩ := (h1 hr).resolve_left id
      exact absurd hp (no _ _)
    · obtain ⟨t', a, -, hp, -⟩ := (h2 hr).resolve_left id
      exact absurd hp (no _ _)

open Verif.Dnssec Verif.DnssecSpec Verif.Spec.DnssecJoin

/-- How validations end is how those of the model do (C47, C90), which run in any number at the same time, with trust anchors `A t` in the element before `t`. -/
def RealVerdicts (K : Crypto) (A : Tree H → List Ds) (recOf : RR → Rec) (W : Around H) : Prop :=
  ∀ t m v, W.verdict t m v → ∃ (s0 s : Sys) (c : Call) (res : Except VErr Unit), Dnssec.Fresh s0 (A t) ∧ Sys.Reach K s0 s ∧ (∀ c ∈ s.calls, WireMsg c.msg) ∧
    c ∈ s.calls ∧ c.prog = .ret res ∧ Sees recOf m c.msg ∧ v = Verif.DnssecJoin.verdictOf res

/-- The message concerns a name below a delegation that is proven to be unsigned. -/
def BelowUnsigned (K : Crypto) (A : List Ds) (a : Msg) : Prop :=
  ∃ (n z : Name) (t0 t1 : Int), WfName n ∧ WfName z ∧ AncestorOrSelf z n ∧ InsecureAbove K A (present (canon z)) t0 t1 ∧ ∃ r ∈ a.answer, r.rtype ≠ 46 ∧ r.name = present n

/-- C114 with C90: every record in the answer section of such a response comes from one that signatures prove, up to the trust anchors of a validator, or that came with records below a
delegation proven to be unsigned; or it is a signature, or made by an element. -/
theorem answers_proven {K : Crypto} {A : Tree H → List Ds} {recOf : RR → Rec} (hf : Faithful recOf) (hR : RealVerdicts K A recOf W)
    (hS : Stored W C) (t : Tree H) (ht : Screened own ren t) (q : Msg) (ci : ClientInfo) (m : Msg) (h : RepliesIn W C t q ci (some (.ok m)))
    (hc : m.rcode = 0 ∨ m.rcode = 3) (r : RR) (hr : r ∈ m.answer) (hopt : r.isOpt = false) :
    own r.data ∨ ∃ t' a r0, r0 ∈ a.answer ∧ Comes ren r0 r ∧ (r0.rtype = 46 ∨ (∃ t0 t1, Proven K (A t') recOf a.answer r0 t0 t1) ∨ BelowUnsigned K (A t') a) := by
  rcases (records_validated hS t ht q ci m h hc r hopt).1 hr with h | ⟨t', a, r0, ⟨-, -, hv⟩, h0, hcm⟩
  · exact .inl h
  · refine .inr ⟨t', a, r0, h0, hcm, ?_⟩
    by_cases h46 : r0.rtype = 46
    · exact .inl h46
    rcases hv with hv | hv
    · obtain ⟨s0, s, c, res, g1, g2, g3, g4, g5, g6, g7⟩ := hR _ _ _ hv
      have hok : res = .ok () := by
        unfold Verif.DnssecJoin.verdictOf at g7
        split at g7 <;> first | rfl | cases g7
      subst hok
      exact .inr (.inl ⟨_, _, DnssecJoin.valid_proven hf g1 g2 g3 g4 g5 g6 h0 h46⟩)
    · obtain ⟨s0, s, c, res, g1, g2, g3, g4, g5, g6, g7⟩ := hR _ _ _ hv
      have hok : res = .error .insecure := by
        unfold Verif.DnssecJoin.verdictOf at g7
        split at g7 <;> first | rfl | cases g7
      subst hok
      obtain ⟨n, z, k1, k2, k3, k4, k5⟩ := DnssecJoin.insecure_proven hf g1 g2 g3 g4 g5 g6
      refine .inr (.inr ⟨n, z, _, _, k1, k2, k3, k4, ?_⟩)
      rcases k5 with k5 | ⟨k5, -⟩
      · exact k5
      · rw [k5] at h0; cases h0

/-- C114: if moreover no element makes up or renames records, no delegation can be proven unsigned, and under the usual assumptions on cryptography and those who run the zones: clients get
in answers only what a zone at or above the name has published (TTLs apart, and signatures), with the other records of this name and type at the validator. -/
theorem answers_published {K : Crypto} {A : Tree H → List Ds} {recOf : RR → Rec} (hf : Faithful recOf) (hR : RealVerdicts K A recOf W) {Own : Str → Key → Prop} {Pub : Str → List Rec → Prop}
    (hh : ∀ t, Dnssec.Honest K (A t) Own Pub) (hi : ∀ t z t0 t1, ¬ InsecureAbove K (A t) z t0 t1)
    (hS : Stored W C) (t : Tree H) (ht : Screened (fun _ => False) False t) (q : Msg) (ci : ClientInfo) (m : Msg) (h : RepliesIn W C t q ci (some (.ok m)))
    (hc : m.rcode = 0 ∨ m.rcode = 3) (r : RR) (hr : r ∈ m.answer) (hopt : r.isOpt = false) (hsig : r.rtype ≠ 46) :
    ∃ (z n : Name) (r0 : RR) (l : List RR), r0 ∈ l ∧ Alike r0 r ∧ r.name = present n ∧ AncestorOrSelf z n ∧ Pub (present (canon z)) ((setOf l r0).map recOf) := by
  obtain ⟨t', a, r0, h1, h2, h3⟩ := (answers_proven hf hR hS t ht q ci m h hc r hr hopt).resolve_left id
  have hal : Alike r0 r := by
    rcases h2 with ⟨e1, e2, e3, e4⟩ | ⟨e, -⟩
    · exact ⟨e4.resolve_right id, e1, e2, e3⟩
    · exact e.elim
  rcases h3 with h3 | ⟨t0, t1, h3⟩ | ⟨n, z, t0, t1, -, -, -, h3, -⟩
  · exact absurd (hal.2.1.trans h3) hsig
  · obtain ⟨z, n, g1, g2, g3⟩ := DnssecJoin.proven_is_published (hh t') h3
    exact ⟨z, n, r0, a.answer, h1, hal, hal.1.trans g1, g2, g3⟩
  · exact absurd h3 (hi _ _ _ _)

/-! ### The limit: other codes -/

private def exQ : Msg := { id := 5, question := [⟨str "a.", 1, 1⟩] }
private def good : Msg := { id := 5, question := [⟨str "a.", 1, 1⟩], response := true, answer := [⟨str "a.", 1, 1, 200, .a [1, 2, 3, 4]⟩] }
private def forged : Msg := { good with answer := [⟨str "a.", 1, 1, 200, .a [6, 6, 6, 6]⟩] }
/-- Nothing is stored or shared, and validations of `good` succeed while others fail. -/
private def exW : Around Nat where
  stored _ _ _ := False
  shared _ _ := False
  clock _ := True
  verdict _ m v := v = if m = good then .valid else .bogus
  replied _ _ := True

/-- Responses with other codes than 0 and 3 are passed on with whatever records they have, and no validation takes place. -/
theorem other_codes_pass : ∃ (W : Around Nat) (C : Nat → Msg → ClientInfo → Option Res → Prop) (t : Tree Nat) (q m : Msg), Stored W C ∧ Screened (fun _ => False) False t ∧
    (∀ t m v, W.verdict t m v → v = .bogus) ∧ RepliesIn W C t q {} (some (.ok m)) ∧ m.rcode = 5 ∧ m.answer ≠ [] := by
  let f : Msg := { forged with rcode := 5 }
  refine ⟨{ exW with verdict := fun _ _ v => v = .bogus }, fun _ _ _ o => o = some (.ok f), .dnssec false (.client 0), exQ, f, ⟨fun _ _ _ h => h.elim, fun _ _ h => h.elim⟩, .inl rfl,
    fun _ _ _ h => h, ?_, rfl, by simp [f, forged]⟩
  have h := RepliesIn.dnssec (W := { exW with verdict := fun _ _ v => v = .bogus }) (C := fun _ _ _ o => o = some (.ok f)) (logOnly := false) (v := fun _ => .bogus) (t := .client 0) (q := exQ) (ci := {})
    (.client rfl) fun _ _ => rfl
  exact h

/-- The response that can be validated gets through, with its TTL cut down. -/
example : RepliesIn exW (fun _ _ _ o => o = some (.ok good) ∨ o = some (.ok forged)) (.ttl ⟨.none, 0, 100⟩ (.dnssec false (.client 0))) exQ {}
    (some (.ok { good with ad := true, answer := [⟨str "a.", 1, 1, 100, .a [1, 2, 3, 4]⟩] })) := by
  have h := RepliesIn.ttl (opt := ⟨.none, 0, 100⟩) (RepliesIn.dnssec (W := exW) (C := fun _ _ _ o => o = some (.ok good) ∨ o = some (.ok forged)) (logOnly := false)
    (v := fun m => if m = good then .valid else .bogus) (t := .client 0) (q := exQ) (ci := {}) (.client (.inl rfl)) fun _ _ => rfl)
  exact h

/-- The forged one becomes SERVFAIL. -/
example : RepliesIn exW (fun _ _ _ o => o = some (.ok good) ∨ o = some (.ok forged)) (.ttl ⟨.none, 0, 100⟩ (.dnssec false (.client 0))) exQ {} (some (.ok (servfail exQ))) := by
  have h := RepliesIn.ttl (opt := ⟨.none, 0, 100⟩) (RepliesIn.dnssec (W := exW) (C := fun _ _ _ o => o = some (.ok good) ∨ o = some (.ok forged)) (logOnly := false)
    (v := fun m => if m = good then .valid else .bogus) (t := .client 0) (q := exQ) (ci := {}) (.client (.inr rfl)) fun _ _ => rfl)
  exact h

/-- De-duplication in front of two ways: one to a server behind a validator, with a static answer for queries that are too many, the other to a validator that only logs, behind one that does not -/
example : Screened (fun d => d = .a [127, 0, 0, 1]) True (.dedup (.failRotate 2 (fun r => r.err.isNone) fun
    | 0 => .collapse 2 (.dnssec false (.failBackEach 2 (fun r => r.err.isNone) fun | 0 => .client 0 | _ => .client 1))
    | _ => .truncateRetry (.dnssec false (.minimize (.dnssec true (.client 1)))) (.static { answer := [some ⟨str "x.", 1, 1, 60, .a [127, 0, 0, 1]⟩] })) : Tree Nat) := by
  rintro (_ | _)
  · exact ⟨trivial, .inl rfl⟩
  · refine ⟨.inl rfl, fun rr hr => ?_⟩
    simp only [List.append_nil, List.mem_singleton, Option.some.injEq] at hr
    rw [hr]

/-- All outcomes that validations have are real ones. -/
example (K : Crypto) (A : Tree H → List Ds) (recOf : RR → Rec) : ∃ W : Around H, RealVerdicts K A recOf W ∧ ∀ t m (s0 s : Sys) (c : Call) (res : Except VErr Unit), Dnssec.Fresh s0 (A t) → Sys.Reach K s0 s →
    (∀ c ∈ s.calls, WireMsg c.msg) → c ∈ s.calls → c.prog = .ret res → Sees recOf m c.msg → W.verdict t m (Verif.DnssecJoin.verdictOf res) :=
  ⟨⟨fun _ _ _ => True, fun _ _ => True, fun _ => True, fun t m v => ∃ (s0 s : Sys) (c : Call) (res : Except VErr Unit), Dnssec.Fresh s0 (A t) ∧ Sys.Reach K s0 s ∧ (∀ c ∈ s.calls, WireMsg c.msg) ∧
      c ∈ s.calls ∧ c.prog = .ret res ∧ Sees recOf m c.msg ∧ v = Verif.DnssecJoin.verdictOf res, fun _ _ => True⟩, fun _ _ _ h => h,
    fun _ _ s0 s c res h1 h2 h3 h4 h5 h6 => ⟨s0, s, c, res, h1, h2, h3, h4, h5, h6, rfl⟩⟩

end Verif.Props.Validated
