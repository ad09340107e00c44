import Verif.Model.DnssecResolver
import Verif.Spec.DnssecResolver
import Verif.Lemmas.Edns
/-
C52: what the DNSSEC resolver tells the client.
-/
set_option linter.unusedVariables false
set_option linter.unusedSimpArgs false
namespace Verif.Props.DnssecResolver
open Verif Verif.DnssecResolver Verif.DnssecView Verif.Edns0

theorem without_filter {P : RR → Prop} {p : RR → Bool} (h : ∀ r : RR, p r = true ↔ ¬ P r) (l : List RR) : Without P l (l.filter p) := by
  induction l with
  | nil => exact .nil
  | cons r rs ih =>
    rw [List.filter_cons]
    by_cases hp : p r = true
    · rw [if_pos hp]; exact .keep ((h r).mp hp) ih
    · rw [if_neg hp]
      refine .drop ?_ ih
      exact Classical.byContradiction fun hn => hp ((h r).mpr hn)

private theorem keep_iff (asked : Nat) (r : RR) :
    (if r.isOpt then true else if r.rtype = asked then true else if r.rtype = typeRRSIG ∨ r.rtype = typeNSEC ∨ r.rtype = typeNSEC3 then false else true) = true ↔ ¬ Hidden asked r := by
  unfold Hidden
  by_cases h1 : r.isOpt = true
  · simp [h1]
  · by_cases h2 : r.rtype = asked
    · simp [h1, h2]
    · by_cases h3 : r.rtype = 46 ∨ r.rtype = 47 ∨ r.rtype = 50
      · simp only [h1, h2, typeRRSIG, typeNSEC, typeNSEC3, h3, if_true, if_false, Bool.false_eq_true, ite_false, ite_true, false_iff]
        simp [h1, h2, h3]
      · simp only [h1, h2, typeRRSIG, typeNSEC, typeNSEC3, h3, if_true, if_false, Bool.false_eq_true, ite_false, ite_true, true_iff]
        simp [h3]

theorem filter_without (asked : Nat) (l : List RR) : Without (Hidden asked) l (filterDNSSECRR l asked) := without_filter (keep_iff asked) l

private theorem without_opt {asked : Nat} {l : List RR} : Without (fun r => Hidden asked r ∨ r.isOpt = true) l ((filterDNSSECRR l asked).filter fun rr => !rr.isOpt) := by
  unfold filterDNSSECRR
  rw [List.filter_filter]
  apply without_filter
  intro r
  have := keep_iff asked r
  rw [Bool.and_eq_true, this]
  simp only [Bool.not_eq_eq_eq_not, Bool.not_true, not_or, Bool.not_eq_true]
  constructor
  · rintro ⟨a, b⟩; exact ⟨b, a⟩
  · rintro ⟨a, b⟩; exact ⟨b, a⟩

theorem strip_view {q a : Msg} {qu : Question} {rest : List Question} (hq : q.question = qu :: rest) (ad : Bool) :
    View q a (stripDNSSEC { a with ad := ad } (match q.edns? with | some e => e.dnssecOk | none => false) q.edns?.isSome qu.qtype)
      ∧ (stripDNSSEC { a with ad := ad } (match q.edns? with | some e => e.dnssecOk | none => false) q.edns?.isSome qu.qtype).ad = ad := by
  cases he : q.edns? with
  | none =>
    have hnw : ¬ WantsDnssec q := by rintro ⟨e, h, _⟩; rw [he] at h; simp at h
    simp only [Option.isSome_none, stripDNSSEC]
    refine ⟨⟨by simp, fun h => absurd h hnw, ?_, ?_, ?_, ?_⟩, by simp⟩
    · intro _ qu' rest' h; rw [hq] at h; simp only [List.cons.injEq] at h; rw [← h.1]; exact filter_without _ _
    · intro _ qu' rest' h; rw [hq] at h; simp only [List.cons.injEq] at h; rw [← h.1]; exact filter_without _ _
    · intro _ qu' rest' h; rw [hq] at h; simp only [List.cons.injEq] at h; rw [← h.1]; exact without_opt
    · intro e h; rw [he] at h; simp at h
  | some e =>
    cases hd : e.dnssecOk with
    | true =>
      have hw : WantsDnssec q := ⟨e, he, hd⟩
      simp only [hd, stripDNSSEC, if_true]
      refine ⟨⟨by simp, fun _ => ⟨rfl, rfl, rfl⟩, fun h => absurd hw h, fun h => absurd hw h, ?_, ?_⟩, trivial⟩
      · intro h; rw [he] at h; simp at h
      · intro e' h hf; rw [he] at h; simp only [Option.some.injEq] at h; subst h; rw [hd] at hf; simp at hf
    | false =>
      have hnw : ¬ WantsDnssec q := by rintro ⟨e', h, h'⟩; rw [he] at h; simp only [Option.some.injEq] at h; subst h; rw [hd] at h'; simp at h'
      simp only [hd, stripDNSSEC, Option.isSome_some, Bool.false_eq_true, if_false, Bool.true_eq_false]
      refine ⟨⟨by simp [Msg.mapEdns], fun h => absurd h hnw, ?_, ?_, ?_, ?_⟩, by simp [Msg.mapEdns]⟩
      · intro _ qu' rest' h; rw [hq] at h; simp only [List.cons.injEq] at h; rw [← h.1]; exact filter_without _ _
      · intro _ qu' rest' h; rw [hq] at h; simp only [List.cons.injEq] at h; rw [← h.1]; exact filter_without _ _
      · intro h; rw [he] at h; simp at h
      · intro e' h hf qu' rest' h'
        rw [hq] at h'; simp only [List.cons.injEq] at h'; rw [← h'.1]
        refine ⟨{ a with ad := ad, answer := filterDNSSECRR a.answer qu.qtype, ns := filterDNSSECRR a.ns qu.qtype, extra := filterDNSSECRR a.extra qu.qtype }, filter_without _ _, ?_⟩
        generalize hb : ({ a with ad := ad, answer := filterDNSSECRR a.answer qu.qtype, ns := filterDNSSECRR a.ns qu.qtype, extra := filterDNSSECRR a.extra qu.qtype } : Msg) = b
        cases hbe : b.edns? with
        | none =>
          right
          exact ⟨rfl, by rw [mapEdns_none b _ hbe]⟩
        | some e0 => left; exact ⟨e0, mapEdns_some b _ e0 hbe⟩

/-! ### C52 -/

/-- C52: upstream sees one query, the client's with the DO bit set; the outcome depends on nothing else of the upstream. -/
theorem upstream_asked (q : Msg) (ci : ClientInfo) : ∃ q' : Msg, Asks q q' ∧ ∀ (logOnly : Bool) (v : Msg → Verdict) (up up' : Msg → ClientInfo → Res),
    up q' ci = up' q' ci → resolve logOnly v up q ci = resolve logOnly v up' q ci := by
  refine ⟨upstreamQuery q, ?_, ?_⟩
  · unfold upstreamQuery
    cases he : q.edns? with
    | none => exact .inr ⟨he, rfl⟩
    | some e => exact .inl ⟨e, he, mapEdns_some q _ e he⟩
  · intro logOnly v up up' h
    unfold resolve
    simp only [h]

/-- What upstream answers to the query with the DO bit -/
def Upstream (up : Msg → ClientInfo → Res) (q : Msg) (ci : ClientInfo) (r : Res) : Prop := ∃ q' : Msg, Asks q q' ∧ up q' ci = r

theorem asks_unique {q q' : Msg} (h : Asks q q') : q' = upstreamQuery q := by
  unfold upstreamQuery
  rcases h with ⟨e, he, pre, r, post, h1, h2, h3, h4⟩ | ⟨h1, h2⟩
  · rw [he, h4]
    simp only
    unfold Msg.mapEdns
    rw [h1, setLast_append _ pre r post e h3 h2]
  · rw [h1, h2]; rfl

/-- C52: failures and dropped queries are passed on unchanged. -/
theorem failure_passed_on {logOnly : Bool} {v : Msg → Verdict} {up : Msg → ClientInfo → Res} {q : Msg} {ci : ClientInfo} {r : Res} (hq : q.question ≠ [])
    (hu : Upstream up q ci r) (hr : r.err ≠ none ∨ r.msg = none) : resolve logOnly v up q ci = some r := by
  obtain ⟨q', hq', rfl⟩ := hu
  rw [asks_unique hq'] at *
  unfold resolve
  cases hqq : q.question with
  | nil => exact absurd hqq hq
  | cons qu rest =>
    simp only
    generalize up (upstreamQuery q) ci = r at *
    obtain ⟨m, e⟩ := r
    cases e with
    | some e => rfl
    | none => rcases hr with h | h
              · simp at h
              · simp only at h; subst h; rfl

/-- C52: bogus data is not passed on. The client gets SERVFAIL with nothing of the upstream message in it, even if it set CD. -/
theorem bogus_blocked {v : Msg → Verdict} {up : Msg → ClientInfo → Res} {q a : Msg} {ci : ClientInfo} (hq : q.question ≠ [])
    (hu : Upstream up q ci (.ok a)) (hc : a.rcode = 0 ∨ a.rcode = 3) (hv : v a = .bogus) :
    ∃ m : Msg, resolve false v up q ci = some (.ok m) ∧ m.rcode = 2 ∧ m.id = q.id ∧ m.response = true ∧ m.ad = false ∧ m.question = q.question.take 1 ∧ m.answer = [] ∧ m.ns = [] ∧ m.extra = [] := by
  obtain ⟨q', hq', hup⟩ := hu
  rw [asks_unique hq'] at hup
  refine ⟨servfail q, ?_, rfl, rfl, rfl, rfl, rfl, rfl, rfl, rfl⟩
  unfold resolve
  cases hqq : q.question with
  | nil => exact absurd hqq hq
  | cons qu rest =>
    simp only [hup, Res.ok]
    rw [if_neg (by simp only [rcodeSuccess, rcodeNameError]; omega), hv]
    rfl

/-- The client is shown the upstream message -/
def Shows (res : Option Res) (q a : Msg) (ad : Bool) : Prop := ∃ m : Msg, res = some (.ok m) ∧ View q a m ∧ m.ad = ad

/-- C52: validated data is passed on, stripped to what the client asked for, with the AD bit. -/
theorem valid_shown {logOnly : Bool} {v : Msg → Verdict} {up : Msg → ClientInfo → Res} {q a : Msg} {ci : ClientInfo} (hq : q.question ≠ [])
    (hu : Upstream up q ci (.ok a)) (hc : a.rcode = 0 ∨ a.rcode = 3) (hv : v a = .valid) : Shows (resolve logOnly v up q ci) q a true := by
  obtain ⟨q', hq', hup⟩ := hu
  rw [asks_unique hq'] at hup
  unfold resolve
  cases hqq : q.question with
  | nil => exact absurd hqq hq
  | cons qu rest =>
    simp only [hup, Res.ok]
    rw [if_neg (by simp only [rcodeSuccess, rcodeNameError]; omega), hv]
    have := strip_view hqq (a := a) true
    exact ⟨_, rfl, this.1, this.2⟩

/-- C52: data that is not validated (an insecure delegation, another response code, or bogus data in log-only mode) is passed on, stripped to what the client asked for.
The AD bit is the one of the upstream. -/
theorem unvalidated_shown {logOnly : Bool} {v : Msg → Verdict} {up : Msg → ClientInfo → Res} {q a : Msg} {ci : ClientInfo} (hq : q.question ≠ [])
    (hu : Upstream up q ci (.ok a)) (h : (a.rcode ≠ 0 ∧ a.rcode ≠ 3) ∨ v a = .insecure ∨ (v a = .bogus ∧ logOnly = true)) : Shows (resolve logOnly v up q ci) q a a.ad := by
  obtain ⟨q', hq', hup⟩ := hu
  rw [asks_unique hq'] at hup
  unfold resolve
  cases hqq : q.question with
  | nil => exact absurd hqq hq
  | cons qu rest =>
    simp only [hup, Res.ok]
    have hs := strip_view hqq (a := a) a.ad
    by_cases hc : a.rcode ≠ rcodeSuccess ∧ a.rcode ≠ rcodeNameError
    · rw [if_pos hc]; exact ⟨_, rfl, hs.1, hs.2⟩
    · rw [if_neg hc]
      rcases h with h | h | ⟨h, hl⟩
      · exact absurd h hc
      · rw [h]; exact ⟨_, rfl, hs.1, hs.2⟩
      · rw [h, hl]; exact ⟨_, rfl, hs.1, hs.2⟩

/-- C52: if upstream does not set the AD bit itself, the AD bit means that the answer was validated. -/
theorem ad_means_validated {logOnly : Bool} {v : Msg → Verdict} {up : Msg → ClientInfo → Res} {q : Msg} {ci : ClientInfo} {m : Msg} (hup : ∀ (q' : Msg) (ci : ClientInfo) (a : Msg), (up q' ci).msg = some a → a.ad = false)
    (h : resolve logOnly v up q ci = some (.ok m)) (had : m.ad = true) :
    ∃ a : Msg, Upstream up q ci (.ok a) ∧ v a = .valid ∧ (a.rcode = 0 ∨ a.rcode = 3) ∧ View q a m := by
  obtain ⟨q', hq', _⟩ := upstream_asked q ci
  have hqe := asks_unique hq'
  have hq : q.question ≠ [] := by intro h0; unfold resolve at h; rw [h0] at h; simp at h
  cases hr : up q' ci with
  | mk msg err =>
    have hU : Upstream up q ci (up q' ci) := ⟨q', hq', rfl⟩
    cases err with
    | some e =>
      rw [failure_passed_on hq hU (by rw [hr]; simp), hr] at h
      simp [Res.ok] at h
    | none =>
      cases msg with
      | none =>
        rw [failure_passed_on hq hU (by rw [hr]; simp), hr] at h
        simp [Res.ok] at h
      | some a =>
        have hU' : Upstream up q ci (.ok a) := ⟨q', hq', hr⟩
        have haf : a.ad = false := hup q' ci a (by rw [hr])
        have noshow : Shows (resolve logOnly v up q ci) q a a.ad → False := by
          rintro ⟨m', hm', _, had'⟩
          rw [h] at hm'
          simp only [Res.ok, Option.some.injEq, Res.mk.injEq, and_true] at hm'
          subst hm'
          rw [had, haf] at had'
          simp at had'
        by_cases hc : a.rcode = 0 ∨ a.rcode = 3
        · cases hv : v a with
          | valid =>
            obtain ⟨m', hm', hview, _⟩ := valid_shown (logOnly := logOnly) hq hU' hc hv
            rw [h] at hm'
            simp only [Res.ok, Option.some.injEq, Res.mk.injEq, and_true] at hm'
            subst hm'
            exact ⟨a, hU', hv, hc, hview⟩
          | insecure => exact absurd (unvalidated_shown hq hU' (.inr (.inl hv))) noshow
          | bogus =>
            cases logOnly with
            | true => exact absurd (unvalidated_shown hq hU' (.inr (.inr ⟨hv, rfl⟩))) noshow
            | false =>
              obtain ⟨m', hm', _, _, _, hmad, _⟩ := bogus_blocked hq hU' hc hv
              rw [h] at hm'
              simp only [Res.ok, Option.some.injEq, Res.mk.injEq, and_true] at hm'
              subst hm'
              rw [had] at hmad
              simp at hmad
        · exact absurd (unvalidated_shown hq hU' (.inl (by omega))) noshow

/-- Without the hidden records there is none -/
theorem without_hidden {P : RR → Prop} {l l' : List RR} (h : Without P l l') : (∀ r ∈ l', r ∈ l ∧ ¬ P r) ∧ ∀ r ∈ l, ¬ P r → r ∈ l' := by
  induction h with
  | nil => simp
  | drop hp _ ih =>
    refine ⟨fun r hr => ⟨List.mem_cons_of_mem _ (ih.1 r hr).1, (ih.1 r hr).2⟩, ?_⟩
    intro r hr hn
    rcases List.mem_cons.mp hr with rfl | hr
    · exact absurd hp hn
    · exact ih.2 r hr hn
  | keep hp _ ih =>
    refine ⟨?_, ?_⟩
    · intro r hr
      rcases List.mem_cons.mp hr with rfl | hr
      · exact ⟨by simp, hp⟩
      · exact ⟨List.mem_cons_of_mem _ (ih.1 r hr).1, (ih.1 r hr).2⟩
    · intro r hr hn
      rcases List.mem_cons.mp hr with rfl | hr
      · simp
      · exact List.mem_cons_of_mem _ (ih.2 r hr hn)

/-- Finding: the AD bit of an unvalidating upstream, or of an attacker on the way to it, reaches the client: for every insecure name, every response code that is not validated and in log-only mode. -/
theorem upstream_ad_passed_on {up : Msg → ClientInfo → Res} {q a : Msg} {ci : ClientInfo} {v : Msg → Verdict} (hq : q.question ≠ []) (hu : Upstream up q ci (.ok a)) (hv : v a = .insecure) (ha : a.ad = true) :
    ∃ m : Msg, resolve false v up q ci = some (.ok m) ∧ m.ad = true := by
  obtain ⟨m, h1, _, h2⟩ := unvalidated_shown (logOnly := false) hq hu (.inr (.inl hv))
  exact ⟨m, h1, h2.trans ha⟩

/-- Finding: a query without a question is not answered, the resolver panics. -/
theorem no_question_panics {logOnly : Bool} {v : Msg → Verdict} {up : Msg → ClientInfo → Res} {q : Msg} {ci : ClientInfo} (hq : q.question = []) : resolve logOnly v up q ci = none := by
  unfold resolve; rw [hq]

/-! ### Trust anchors -/

/-- C52: there is always an anchor; configured ones are used as they are and nothing else, the built-in ones only if there are no others. -/
theorem anchors_chosen (parse : Str → Option Int) (configured : List Anchor) (url : Str) (body : Option (List KeyDigest)) (now : Int) :
    chooseAnchors parse configured url body now ≠ [] ∧ (configured ≠ [] → chooseAnchors parse configured url body now = configured) := by
  unfold chooseAnchors
  simp only
  constructor
  · generalize (if configured.length = 0 ∧ url ≠ [] then (fetch parse body now).getD [] else configured) = l
    split
    · simp [defaultAnchors]
    · rename_i h; intro h0; rw [h0] at h; simp at h
  · intro hc
    have : ¬ (configured.length = 0 ∧ url ≠ []) := by intro h; exact hc (List.length_eq_zero_iff.mp h.1)
    rw [if_neg this, if_neg (by intro h; exact hc (List.length_eq_zero_iff.mp h))]

/-- C52: anchors taken from a URL are for the root and have not expired, and all of those are taken. -/
theorem fetched_anchors {parse : Str → Option Int} {url : Str} {kds : List KeyDigest} {now : Int} (hu : url ≠ []) {a : Anchor} :
    (a ∈ chooseAnchors parse [] url (some kds) now ∧ chooseAnchors parse [] url (some kds) now ≠ defaultAnchors →
      ∃ kd ∈ kds, a = ⟨str ".", kd.keyTag, kd.algorithm, kd.digestType, kd.digest⟩ ∧ ∀ t : Int, kd.validUntil ≠ [] → parse kd.validUntil = some t → now < t)
    ∧ (∀ kd ∈ kds, (∀ t : Int, kd.validUntil ≠ [] → parse kd.validUntil = some t → now < t) →
      (⟨str ".", kd.keyTag, kd.algorithm, kd.digestType, kd.digest⟩ : Anchor) ∈ chooseAnchors parse [] url (some kds) now) := by
  have hvalid : ∀ kd : KeyDigest, ianaValid parse kd now = true ↔ ∀ t : Int, kd.validUntil ≠ [] → parse kd.validUntil = some t → now < t := by
    intro kd
    unfold ianaValid
    by_cases h : kd.validUntil = []
    · simp [h]
    · simp only [if_neg h]
      cases hp : parse kd.validUntil with
      | none => simp
      | some t => simp [h]
  unfold chooseAnchors fetch
  simp only [List.length_nil, hu, ne_eq, not_false_eq_true, and_self, if_true]
  generalize hl : (kds.filter fun kd => ianaValid parse kd now).map (fun kd => (⟨str ".", kd.keyTag, kd.algorithm, kd.digestType, kd.digest⟩ : Anchor)) = l
  by_cases h0 : l.length = 0
  · simp only [h0, if_true, Option.getD_none, List.length_nil]
    refine ⟨fun h => absurd trivial h.2, ?_⟩
    intro kd hkd hval
    have : (⟨str ".", kd.keyTag, kd.algorithm, kd.digestType, kd.digest⟩ : Anchor) ∈ l := by
      rw [← hl]; exact List.mem_map.mpr ⟨kd, List.mem_filter.mpr ⟨hkd, (hvalid kd).mpr hval⟩, rfl⟩
    rw [List.length_eq_zero_iff.mp h0] at this
    simp at this
  · simp only [h0, if_false, Option.getD_some]
    constructor
    · rintro ⟨ha, _⟩
      rw [← hl] at ha
      obtain ⟨kd, hkd, rfl⟩ := List.mem_map.mp ha
      obtain ⟨h1, h2⟩ := List.mem_filter.mp hkd
      exact ⟨kd, h1, rfl, (hvalid kd).mp h2⟩
    · intro kd hkd hval
      rw [← hl]
      exact List.mem_map.mpr ⟨kd, List.mem_filter.mpr ⟨hkd, (hvalid kd).mpr hval⟩, rfl⟩

/-- Finding: the start of the validity is not looked at, a key that is announced for the future is trusted now. -/
theorem anchor_not_yet_valid (parse : Str → Option Int) (url : Str) (kd : KeyDigest) (now : Int) (hu : url ≠ []) (h : kd.validUntil = []) :
    chooseAnchors parse [] url (some [kd]) now = [⟨str ".", kd.keyTag, kd.algorithm, kd.digestType, kd.digest⟩] := by
  simp [chooseAnchors, fetch, ianaValid, h, hu]

/-! Examples: a query without EDNS; upstream answers an address with its signature and an OPT record -/

private def q0 : Msg := { id := 7, question := [⟨str "a.test.", 1, 1⟩] }
private def q1 : Msg := { q0 with extra := [{ name := str ".", rtype := 41, cls := 1232, ttl := 0, data := .opt 1232 false [] }] }
private def rA : RR := { name := str "a.test.", rtype := 1, cls := 1, ttl := 60, data := .a [1, 2, 3, 4] }
private def rSig : RR := { name := str "a.test.", rtype := 46, cls := 1, ttl := 60, data := .other [9] }
private def rOpt : RR := { name := str ".", rtype := 41, cls := 4096, ttl := 0, data := .opt 4096 true [] }
private def ans : Msg := { id := 7, response := true, question := q0.question, answer := [rA, rSig], extra := [rOpt] }

example : resolve false (fun _ => .valid) (fun _ _ => .ok ans) q0 {} = some (.ok { ans with ad := true, answer := [rA], extra := [] }) := by decide +kernel
example : resolve false (fun _ => .insecure) (fun _ _ => .ok ans) q1 {} = some (.ok { ans with answer := [rA], extra := [{ rOpt with data := .opt 4096 false [] }] }) := by decide +kernel
example : resolve false (fun _ => .bogus) (fun _ _ => .ok ans) { q0 with cd := true } {} = some (.ok (servfail { q0 with cd := true })) := by decide +kernel
example : Upstream (fun _ _ => .ok ans) q1 {} (.ok ans) := ⟨_, (upstream_asked q1 {}).choose_spec.1, rfl⟩

end Verif.Props.DnssecResolver
