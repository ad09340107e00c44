import Verif.Model.Composition
import Verif.Spec.Composition
import Verif.Lemmas.Edns
import Verif.Props.Pipeline
import Verif.Props.Clients
import Verif.Props.Group
import Verif.Props.Listeners
/-
C76: whatever elements are put together, replies belong to their queries and no query crashes the program.
-/
namespace Verif.Props.Composition
open Verif Verif.Composition
set_option linter.unusedVariables false
set_option linter.unusedSimpArgs false

/-- A configuration without the mistakes known to crash the program: static records are records (not blank text), no element adds a "padding" option as
raw data, round-robin groups have a member. Also: the shuffle given to a cache only touches records, and times fit. -/
def Sane {H : Type} : Tree H → Prop
  | .client _ => True
  | .ttl _ t => Sane t
  | .truncateRetry t u => Sane t ∧ Sane u
  | .collapse _ t => Sane t
  | .minimize t => Sane t
  | .drop => True
  | .modify m t => (∀ d, m ≠ .edns0Add 12 d) ∧ Sane t
  | .blocklist _ t a b => Sane t ∧ Sane a ∧ Sane b
  | .clientBlocklist _ t b => Sane t ∧ Sane b
  | .responseIp _ t b => Sane t ∧ Sane b
  | .responseName _ t b => Sane t ∧ Sane b
  | .rateLimit _ t l => Sane t ∧ Sane l
  | .static s => none ∉ s.answer ∧ none ∉ s.ns ∧ none ∉ s.extra
  | .template newRR s => ∀ t ∈ s.answer ++ s.ns ++ s.extra, ∀ i text, t i = some text → newRR text ≠ some none
  | .replace _ t => Sane t
  | .syslog _ t => Sane t
  | .queryLog t => Sane t
  | .dns64 _ t => Sane t
  | .failRotate _ _ member => ∀ m, Sane (member m)
  | .failBack _ _ member => ∀ m, Sane (member m)
  | .failBackEach _ _ member => ∀ m, Sane (member m)
  | .roundRobin n member => 0 < n ∧ ∀ m, Sane (member m)
  | .random _ _ member => ∀ m, Sane (member m)
  | .loadBalance _ _ member => ∀ m, Sane (member m)
  | .fastest _ member => ∀ m, Sane (member m)
  | .fastestTcp _ _ t => Sane t
  | .router _ member => ∀ m, Sane (member m)
  | .dedup t => Sane t
  | .cache env o _ t => o.negativeTTL ≤ 4294967295 ∧ (∀ a, env.ipStr a ≠ []) ∧ (∀ f a, o.shuffle = some f → (f a).id = a.id ∧ (f a).question = a.question) ∧ Sane t
  | .prefetch t => Sane t
  | .dnssec _ t => Sane t

/-- What holds of every reply. -/
def Good (q : Msg) (o : Option Res) : Prop := ∃ r, o = some r ∧ Fits q r

private theorem fits_ok {q a : Msg} (h : Belongs q a) : Fits q (.ok a) := by
  intro _ b hb
  simp only [Res.ok, Option.some.injEq] at hb
  exact hb ▸ h

private theorem fits_err {q : Msg} {r : Res} (h : r.err ≠ none) : Fits q r := fun he => absurd he h
private theorem fits_none {q : Msg} {r : Res} (h : r.msg = none) : Fits q r := by
  intro _ a ha; rw [h] at ha; cases ha

private theorem of_same {q a : Msg} (hq : q.question ≠ []) (h1 : a.id = q.id) (h2 : a.question.head? = q.question.head?) : Belongs q a := by
  obtain ⟨qu, qs, hqq⟩ := List.exists_cons_of_ne_nil hq
  refine ⟨h1, qu, qu, by rw [hqq]; rfl, by rw [h2, hqq]; rfl, rfl, rfl, rfl⟩

/-- same header, same question -/
private theorem of_eq {q a b : Msg} (h : Belongs q a) (h1 : b.id = a.id) (h2 : b.question = a.question) : Belongs q b :=
  ⟨h1.trans h.id, by rw [h2]; exact h.question⟩

private theorem setReply_belongs {q : Msg} (hq : q.question ≠ []) : Belongs q (setReply q) := by
  refine of_same hq rfl ?_
  obtain ⟨qu, qs, hqq⟩ := List.exists_cons_of_ne_nil hq
  simp [setReply, hqq]

private theorem mapEdns_id (m : Msg) (f : Edns → Edns) : (m.mapEdns f).id = m.id ∧ (m.mapEdns f).question = m.question := ⟨rfl, rfl⟩
private theorem setEdns_id (m : Msg) (s : Nat) (d : Bool) : (m.setEdns0 s d).id = m.id ∧ (m.setEdns0 s d).question = m.question := ⟨rfl, rfl⟩

private theorem ede_same (t : Option Blocklist.Ede) (msg q : Msg) (m : Option Lists.Match) :
    (Blocklist.applyEde t msg q m).id = msg.id ∧ (Blocklist.applyEde t msg q m).question = msg.question := by
  unfold Blocklist.applyEde
  split
  · exact ⟨rfl, rfl⟩
  · simp only
    split
    · exact ⟨rfl, rfl⟩
    · exact ⟨rfl, rfl⟩

/-! ### Elements that change replies -/

private theorem fits_map {q : Msg} {r r' : Res} (h : Fits q r)
    (hr : r' = r ∨ ∃ a b : Msg, r = .ok a ∧ r' = .ok b ∧ b.id = a.id ∧ b.question = a.question) : Fits q r' := by
  rcases hr with rfl | ⟨a, b, rfl, rfl, h1, h2⟩
  · exact h
  · exact fits_ok (of_eq (h rfl a rfl) h1 h2)

private theorem res_ok {r : Res} {a : Msg} (h1 : r.err = none) (h2 : r.msg = some a) : r = .ok a := by
  obtain ⟨m, e⟩ := r
  simp only at h1 h2
  subst h1; subst h2; rfl

private theorem ttl_fits {o : Elements.TTLOptions} {q : Msg} {r : Res} (h : Fits q r) : Fits q (Elements.ttlResolve o r) := by
  apply fits_map h
  unfold Elements.ttlResolve
  split
  · rename_i a he hm
    refine .inr ⟨a, _, res_ok he hm, rfl, ?_⟩
    split <;> exact ⟨rfl, rfl⟩
  · exact .inl rfl

private theorem minimize_fits {q : Msg} {r : Res} (h : Fits q r) : Fits q (Elements.minimize r) := by
  apply fits_map h
  unfold Elements.minimize
  split
  · rename_i a he hm
    exact .inr ⟨a, _, res_ok he hm, rfl, rfl, rfl⟩
  · exact .inl rfl

private theorem collapse_good {n : Nat} {q : Msg} {r : Res} (hq : q.question ≠ []) (h : Fits q r) : Good q (Elements.collapse n q r) := by
  unfold Elements.collapse
  split
  · rename_i a he hm
    split
    · exact ⟨_, rfl, h⟩
    · split
      · rename_i h0; exact absurd h0 hq
      · simp only
        split
        · exact ⟨_, rfl, fits_ok (of_eq (setReply_belongs hq) rfl rfl)⟩
        · exact ⟨_, rfl, fits_ok (of_eq (h he a hm) rfl rfl)⟩
  · exact ⟨_, rfl, h⟩

private theorem tcp_good {w : Bool} {minTTL : Nat} {q : Msg} {r : Res} {ps : List Balance.Tcp.Probe} (hq : q.question ≠ []) (h : Fits q r) :
    Good q (Balance.Tcp.resolve w minTTL q r ps) := by
  unfold Balance.Tcp.resolve
  split
  · rename_i a he hm
    have ha := h he a hm
    split
    · rename_i h0; exact absurd h0 hq
    · split
      · exact ⟨_, rfl, fits_ok ha⟩
      · simp only
        split
        · exact ⟨_, rfl, fits_ok ha⟩
        · split
          · exact ⟨_, rfl, fits_ok ha⟩
          · exact ⟨_, rfl, fits_ok (of_eq ha rfl rfl)⟩
  · exact ⟨_, rfl, h⟩

/-! ### Queries passed on -/

private theorem fromWire_edns {q q' : Msg} (h : FromWire q) (hq : q'.question ≠ []) (he : ∀ e, q'.edns? = some e → (∀ o ∈ e.options, o.code = 12 →
    (∃ n, o = .padding n) ∨ ∃ e0, q.edns? = some e0 ∧ o ∈ e0.options)) : FromWire q' := by
  refine ⟨hq, fun e h1 o ho hc => ?_⟩
  rcases he e h1 o ho hc with h2 | ⟨e0, h2, h3⟩
  · exact h2
  · exact h.padding e0 h2 o h3 hc

private theorem mapEdns_wire {q : Msg} (h : FromWire q) (f : Edns → Edns)
    (hf : ∀ e, q.edns? = some e → ∀ o ∈ (f e).options, o.code = 12 → o ∈ e.options) : FromWire (q.mapEdns f) := by
  refine fromWire_edns h h.question fun e he o ho hc => ?_
  rw [Edns0.edns_mapEdns] at he
  obtain ⟨e0, h0, rfl⟩ := Option.map_eq_some_iff.mp he
  exact .inr ⟨e0, h0, hf e0 h0 o ho hc⟩

private theorem withEdns_wire {q : Msg} (h : FromWire q) : FromWire (Modifiers.withEdns q) := by
  unfold Modifiers.withEdns
  split
  · refine fromWire_edns h h.question fun e he o ho hc => ?_
    rw [Edns0.edns_setEdns0] at he
    cases he
    cases ho
  · exact h

private theorem withEdns_same (q : Msg) : (Modifiers.withEdns q).id = q.id ∧ (Modifiers.withEdns q).question = q.question := by
  unfold Modifiers.withEdns; split <;> exact ⟨rfl, rfl⟩

private theorem modifier_same (m : Modifier) (q : Msg) (ci : ClientInfo) : (m.apply q ci).id = q.id ∧ (m.apply q ci).question = q.question := by
  have add : ∀ a p4 p6, (Modifiers.ecsAdd a p4 p6 q ci).id = q.id ∧ (Modifiers.ecsAdd a p4 p6 q ci).question = q.question :=
    fun a p4 p6 => withEdns_same (Modifiers.ecsDelete q)
  cases m with
  | keep => exact ⟨rfl, rfl⟩
  | ecsDelete => exact ⟨rfl, rfl⟩
  | ecsAdd a p4 p6 => exact add a p4 p6
  | ecsAddIfMissing a p4 p6 =>
    unfold Modifier.apply Modifiers.ecsAddIfMissing
    simp only
    split
    · exact ⟨rfl, rfl⟩
    · exact add a p4 p6
  | ecsPrivacy p4 p6 => exact ⟨rfl, rfl⟩
  | edns0Delete c => exact ⟨rfl, rfl⟩
  | edns0Add c d => exact withEdns_same (Modifiers.edns0Delete c q)

private theorem modifier_wire {m : Modifier} {q : Msg} (ci : ClientInfo) (h : FromWire q) (hm : ∀ d, m ≠ .edns0Add 12 d) : FromWire (m.apply q ci) := by
  have del : FromWire (Modifiers.ecsDelete q) := mapEdns_wire h _ fun e _ o ho _ => (List.mem_filter.mp ho).1
  have add : ∀ a p4 p6, FromWire (Modifiers.ecsAdd a p4 p6 q ci) := by
    intro a p4 p6
    refine mapEdns_wire (withEdns_wire del) _ fun e he o ho hc => ?_
    simp only [List.mem_append, List.mem_singleton] at ho
    rcases ho with ho | rfl
    · exact ho
    · unfold Modifiers.ecsSubnet at hc
      simp only at hc
      split at hc <;> simp [EOpt.code] at hc
  have del0 : ∀ c, FromWire (Modifiers.edns0Delete c q) := fun c => mapEdns_wire h _ fun e _ o ho _ => (List.mem_filter.mp ho).1
  cases m with
  | keep => exact h
  | ecsDelete => exact del
  | ecsAdd a p4 p6 => exact add a p4 p6
  | ecsAddIfMissing a p4 p6 =>
    unfold Modifier.apply Modifiers.ecsAddIfMissing
    simp only
    split
    · exact h
    · exact add a p4 p6
  | ecsPrivacy p4 p6 =>
    refine mapEdns_wire h _ fun e he o ho hc => ?_
    simp only [List.mem_map] at ho
    obtain ⟨o', ho', rfl⟩ := ho
    unfold Modifiers.ecsPrivacyOpt at hc ⊢
    split at hc
    · simp [EOpt.code] at hc
    · simp [EOpt.code] at hc
    · exact ho'
  | edns0Delete c => exact del0 c
  | edns0Add c d =>
    refine mapEdns_wire (withEdns_wire (del0 c)) _ fun e he o ho hc => ?_
    simp only [List.mem_append, List.mem_singleton] at ho
    rcases ho with ho | rfl
    · exact ho
    · simp only [EOpt.code] at hc
      subst hc
      exact absurd rfl (hm d)

private theorem upstream_wire {q : Msg} (h : FromWire q) : FromWire (DnssecResolver.upstreamQuery q) := by
  unfold DnssecResolver.upstreamQuery
  split
  · refine fromWire_edns h h.question fun e he o ho hc => ?_
    rw [Edns0.edns_setEdns0] at he
    cases he
    cases ho
  · exact mapEdns_wire h _ fun e _ o ho _ => ho

private theorem upstream_same (q : Msg) : (DnssecResolver.upstreamQuery q).id = q.id ∧ (DnssecResolver.upstreamQuery q).question = q.question := by
  unfold DnssecResolver.upstreamQuery; split <;> exact ⟨rfl, rfl⟩

private theorem edns_question (q : Msg) (l : List Question) : ({ q with question := l } : Msg).edns? = q.edns? := rfl

private theorem fits_same {q q' : Msg} {r : Res} (h1 : q'.id = q.id) (h2 : q'.question = q.question) (h : Fits q' r) : Fits q r := by
  intro he a ha
  obtain ⟨h3, h4⟩ := h he a ha
  exact ⟨h3.trans h1, by rw [← h2]; exact h4⟩

private theorem good_same {q q' : Msg} {o : Option Res} (h1 : q'.id = q.id) (h2 : q'.question = q.question) (h : Good q' o) : Good q o := by
  obtain ⟨r, hr, hf⟩ := h
  exact ⟨r, hr, fits_same h1 h2 hf⟩

/-! ### Blocklists -/

private theorem blocklist_act {o : Blocklist.Options} {q : Msg} (hq : q.question ≠ []) :
    ∃ act, Blocklist.resolve o q = some act ∧ (∀ r, act = .done r → Fits q r) ∧ (∀ t q', act = .forward t q' → q' = q) := by
  unfold Blocklist.resolve
  split
  · rename_i h0; exact absurd h0 hq
  · split
    · exact ⟨_, rfl, (by intro r h; cases h), (by intro t q' h; cases h; rfl)⟩
    · split
      · exact ⟨_, rfl, (by intro r h; cases h), (by intro t q' h; cases h; rfl)⟩
      · split
        · refine ⟨_, rfl, ?_, by simp⟩
          intro r hr
          cases hr
          exact fits_ok (of_eq (setReply_belongs hq) rfl rfl)
        · split
          · exact ⟨_, rfl, (by intro r h; cases h), (by intro t q' h; cases h; rfl)⟩
          · split
            · refine ⟨_, rfl, ?_, by simp⟩
              intro r hr
              cases hr
              exact fits_ok (of_eq (setReply_belongs hq) rfl rfl)
            · refine ⟨_, rfl, ?_, by simp⟩
              intro r hr
              cases hr
              refine fits_ok (of_eq (setReply_belongs hq) ?_ ?_)
              · exact (ede_same _ _ _ _).1
              · exact (ede_same _ _ _ _).2

private theorem client_act {useECS hasBlock : Bool} {db : Str → Option Lists.Match} {q : Msg} {ci : ClientInfo} (hq : q.question ≠ []) :
    (∀ r, Blocklist.resolveClient useECS hasBlock db q ci = .done r → Fits q r) ∧
    (∀ t q', Blocklist.resolveClient useECS hasBlock db q ci = .forward t q' → q' = q) := by
  unfold Blocklist.resolveClient
  simp only
  split
  · exact ⟨(by intro r h; cases h), (by intro t q' h; cases h; rfl)⟩
  · split
    · split
      · exact ⟨(by intro r h; cases h), (by intro t q' h; cases h; rfl)⟩
      · refine ⟨?_, by simp⟩
        intro r hr
        cases hr
        exact fits_ok (of_eq (setReply_belongs hq) rfl rfl)
    · exact ⟨(by intro r h; cases h), (by intro t q' h; cases h; rfl)⟩

private theorem block_act {κ : Type} {key : RR → Option κ} {db : κ → Option Lists.Match} {inv hb : Bool} {ede : Option Blocklist.Ede} {q a : Msg}
    (hq : q.question ≠ []) (ha : Belongs q a) :
    (∀ r, Blocklist.blockIfMatch key db inv hb ede q a = .done r → Fits q r) ∧
    (∀ t q', Blocklist.blockIfMatch key db inv hb ede q a = .forward t q' → q' = q) := by
  unfold Blocklist.blockIfMatch
  split
  · refine ⟨?_, by simp⟩
    intro r hr
    cases hr
    exact fits_ok ha
  · split
    · exact ⟨(by intro r h; cases h), (by intro t q' h; cases h; rfl)⟩
    · refine ⟨?_, by simp⟩
      intro r hr
      cases hr
      exact fits_ok (of_eq (setReply_belongs hq) (ede_same _ _ _ _).1 (ede_same _ _ _ _).2)

private theorem ip_act {o : Blocklist.IpOptions} {q : Msg} {up : Res} (hq : q.question ≠ []) (hu : Fits q up) :
    (∀ r, Blocklist.resolveIp o up q = .done r → Fits q r) ∧ (∀ t q', Blocklist.resolveIp o up q = .forward t q' → q' = q) := by
  unfold Blocklist.resolveIp
  split
  · rename_i a hm he
    split
    · refine ⟨?_, by simp⟩
      intro r hr; cases hr; exact hu
    · split
      · unfold Blocklist.filterMatch
        split
        · split
          · exact ⟨(by intro r h; cases h), (by intro t q' h; cases h; rfl)⟩
          · refine ⟨?_, by simp⟩
            intro r hr; cases hr
            exact fits_ok (of_eq (setReply_belongs hq) rfl rfl)
        · refine ⟨?_, by simp⟩
          intro r hr; cases hr
          exact fits_ok (of_eq (hu he a hm) rfl rfl)
      · exact block_act hq (hu he a hm)
  · refine ⟨?_, by simp⟩
    intro r hr; cases hr; exact hu

private theorem name_act {o : Blocklist.NameOptions} {q : Msg} {up : Res} (hq : q.question ≠ []) (hu : Fits q up) :
    (∀ r, Blocklist.resolveName o up q = .done r → Fits q r) ∧ (∀ t q', Blocklist.resolveName o up q = .forward t q' → q' = q) := by
  unfold Blocklist.resolveName
  split
  · rename_i a hm he
    exact block_act hq (hu he a hm)
  · refine ⟨?_, by simp⟩
    intro r hr; cases hr; exact hu

/-! ### Elements that answer themselves or ask something else -/

private theorem copy_some {l : List (Option RR)} (h : none ∉ l) : ∃ rs, Static.copyRRs l = some rs := by
  induction l with
  | nil => exact ⟨[], rfl⟩
  | cons x l ih =>
    simp only [List.mem_cons, not_or] at h
    obtain ⟨rs, hrs⟩ := ih h.2
    cases x with
    | none => exact absurd rfl h.1
    | some rr => exact ⟨rr :: rs, by simp [Static.copyRRs, hrs]⟩

private theorem static_good {s : Static.Static} {q : Msg} (hq : q.question ≠ []) (h1 : none ∉ s.answer) (h2 : none ∉ s.ns) (h3 : none ∉ s.extra) :
    Good q (Static.resolve s q) := by
  obtain ⟨a, ha⟩ := copy_some h1
  obtain ⟨n, hn⟩ := copy_some h2
  obtain ⟨e, he⟩ := copy_some h3
  unfold Static.resolve
  simp only [ha, hn, he, Option.bind_eq_bind, Option.bind_some]
  exact ⟨_, rfl, fits_ok (of_eq (setReply_belongs hq) (ede_same _ _ _ _).1 (ede_same _ _ _ _).2)⟩

private theorem template_good {newRR : Str → Option (Option RR)} {s : Static.Template} {q : Msg} (hq : q.question ≠ [])
    (h : ∀ t ∈ s.answer ++ s.ns ++ s.extra, ∀ i text, t i = some text → newRR text ≠ some none) : Good q (Static.resolveTemplate newRR s q) := by
  have hp : ∀ ts, (∀ t ∈ ts, t ∈ s.answer ++ s.ns ++ s.extra) → none ∉ Static.process newRR q ts := by
    intro ts hts hm
    unfold Static.process at hm
    simp only [List.mem_filterMap] at hm
    obtain ⟨t, ht0, ht⟩ := hm
    obtain ⟨text, h1, h2⟩ := Option.bind_eq_some_iff.mp ht
    exact h t (hts t ht0) _ text h1 h2
  obtain ⟨a, ha⟩ := copy_some (hp s.answer (by simp +contextual))
  obtain ⟨n, hn⟩ := copy_some (hp s.ns (by simp +contextual))
  obtain ⟨e, he⟩ := copy_some (hp s.extra (by simp +contextual))
  unfold Static.resolveTemplate
  simp only [ha, hn, he, Option.bind_eq_bind, Option.bind_some]
  exact ⟨_, rfl, fits_ok (of_eq (setReply_belongs hq) (ede_same _ _ _ _).1 (ede_same _ _ _ _).2)⟩

private theorem replace_good {exps : List (Str → Str)} {q : Msg} {r : Res} (hq : q.question ≠ []) (h : Fits (replaceAsk exps q) r) :
    Good q (Static.resolveReplace exps (fun _ => r) q) := by
  obtain ⟨qu, qs, hqq⟩ := List.exists_cons_of_ne_nil hq
  have hask : replaceAsk exps q = { q with question := { qu with name := Static.apply exps qu.name } :: qs } := by simp only [replaceAsk, hqq]
  rw [hask] at h
  unfold Static.resolveReplace
  simp only [hqq]
  split
  · rename_i hn
    have h' : Fits q r := by
      refine fits_same ?_ ?_ h
      · rfl
      · rw [hqq]; simp [hn]
    exact ⟨_, rfl, h'⟩
  · split
    · exact ⟨_, rfl, fits_err (by simp [Res.fail])⟩
    · exact ⟨_, rfl, fits_none rfl⟩
    · rename_i a he hm
      obtain ⟨h1, qu', au, h2, h3, h4, h5, h6⟩ := h he a hm
      simp only [List.head?_cons, Option.some.injEq] at h2
      subst h2
      cases haq : a.question with
      | nil => rw [haq] at h3; simp at h3
      | cons x xs =>
        rw [haq] at h3
        simp only [List.head?_cons, Option.some.injEq] at h3
        subst h3
        exact ⟨_, rfl, fits_ok ⟨h1, qu, { x with name := qu.name }, by rw [hqq]; rfl, by simp [haq], rfl, h5, h6⟩⟩

private theorem syslog_good {o : Static.SyslogOptions} {c : Bool} {q : Msg} {r : Res} (hq : q.question ≠ []) (h : Fits q r) :
    Good q ((Static.resolveSyslog o c (fun _ => r) q).map (·.1)) := by
  obtain ⟨qu, qs, hqq⟩ := List.exists_cons_of_ne_nil hq
  unfold Static.resolveSyslog
  split
  · exact ⟨_, rfl, h⟩
  · simp only
    split
    · rename_i a he hm
      split
      · exact ⟨_, rfl, h⟩
      · split
        · rw [hqq]
          cases o.verbose with
          | true => exact ⟨_, rfl, h⟩
          | false => cases a.answer <;> exact ⟨_, rfl, h⟩
        · exact ⟨_, rfl, h⟩
    · exact ⟨_, rfl, h⟩

private theorem queryLog_good {q : Msg} {r : Res} (hq : q.question ≠ []) (h : Fits q r) : Good q ((Static.resolveQueryLog (fun _ => r) q).map (·.1)) := by
  unfold Static.resolveQueryLog
  split
  · rename_i h0; exact absurd h0 hq
  · exact ⟨_, rfl, h⟩

private theorem dns64_good {ps : List Dns64.Pfx} {q : Msg} {r1 r2 : Res} (hq : q.question ≠ []) (h : Fits q r1) : Good q (Dns64.resolve ps (two q r1 r2) q) := by
  have e1 : two q r1 r2 q = r1 := by simp [two]
  unfold Dns64.resolve
  simp only [e1]
  split
  · rename_i h0; exact absurd h0 hq
  · repeat' split
    all_goals first
      | exact ⟨_, rfl, h⟩
      | exact ⟨_, rfl, fits_ok (of_eq (setReply_belongs hq) rfl rfl)⟩

private theorem aQuery_wire {q : Msg} (h : FromWire q) : FromWire (Dns64.aQuery q) := by
  obtain ⟨qu, qs, hqq⟩ := List.exists_cons_of_ne_nil h.question
  exact fromWire_edns h (by simp [Dns64.aQuery, hqq]) fun e he o ho _ => .inr ⟨e, he, ho⟩

private theorem replace_wire {exps : List (Str → Str)} {q : Msg} (h : FromWire q) : FromWire (replaceAsk exps q) := by
  obtain ⟨qu, qs, hqq⟩ := List.exists_cons_of_ne_nil h.question
  have hask : replaceAsk exps q = { q with question := { qu with name := Static.apply exps qu.name } :: qs } := by simp only [replaceAsk, hqq]
  rw [hask]
  exact fromWire_edns h (by simp) fun e he o ho _ => .inr ⟨e, he, ho⟩

private theorem strip_same (a : Msg) (d e : Bool) (t : Nat) : (DnssecResolver.stripDNSSEC a d e t).id = a.id ∧ (DnssecResolver.stripDNSSEC a d e t).question = a.question := by
  unfold DnssecResolver.stripDNSSEC
  split
  · exact ⟨rfl, rfl⟩
  · simp only
    split <;> exact ⟨rfl, rfl⟩

private theorem dnssec_good {l : Bool} {v : Msg → DnssecResolver.Verdict} {q : Msg} {ci : ClientInfo} {r : Res} (hq : q.question ≠ []) (h : Fits q r) :
    Good q (DnssecResolver.resolve l v (fun _ _ => r) q ci) := by
  unfold DnssecResolver.resolve
  simp only
  split
  · rename_i h0; exact absurd h0 hq
  · split
    · exact ⟨_, rfl, h⟩
    · exact ⟨_, rfl, h⟩
    · rename_i a he hm
      have ha := h he a hm
      have hs : ∀ ad d e t, Belongs q (DnssecResolver.stripDNSSEC { a with ad := ad } d e t) := fun ad d e t => of_eq ha (strip_same _ _ _ _).1 (strip_same _ _ _ _).2
      have hs' : ∀ d e t, Belongs q (DnssecResolver.stripDNSSEC a d e t) := fun d e t => of_eq ha (strip_same _ _ _ _).1 (strip_same _ _ _ _).2
      split
      · exact ⟨_, rfl, fits_ok (hs' _ _ _)⟩
      · split
        · exact ⟨_, rfl, fits_ok (hs' _ _ _)⟩
        · split
          · exact ⟨_, rfl, fits_ok (of_eq (setReply_belongs hq) rfl rfl)⟩
          · exact ⟨_, rfl, fits_ok (hs' _ _ _)⟩
        · exact ⟨_, rfl, fits_ok (hs _ _ _ _)⟩

/-! ### Groups -/

/-- What a query has got so far. -/
def payload : Group.Phase → Option Res
  | .idle _ r => some r
  | .calling _ _ => none
  | .failed _ _ r => some r
  | .sending _ r => some r
  | .done r => some r

theorem payload_next (n i : Nat) (r x : Res) : payload (Group.nextAttempt n i r) = some x → x = r := by
  unfold Group.nextAttempt
  split <;> (simp only [payload, Option.some.injEq]; exact Eq.symm)

theorem get_set_or {α : Type} {l : List α} {k j : Nat} {x y : α} (h : (l.set k x)[j]? = some y) : (j = k ∧ y = x) ∨ l[j]? = some y := by
  by_cases hj : k = j
  · subst hj
    rw [List.getElem?_set_self'] at h
    cases hl : l[k]? with
    | none => rw [hl] at h; simp at h
    | some z => rw [hl] at h; simp at h; exact .inl ⟨rfl, h.symm⟩
  · rw [List.getElem?_set_ne hj] at h
    exact .inr h

theorem get_snoc_or {α : Type} {l : List α} {j : Nat} {x y : α} (h : (l ++ [x])[j]? = some y) : y = x ∨ l[j]? = some y := by
  by_cases hj : j < l.length
  · rw [List.getElem?_append_left hj] at h; exact .inr h
  · rw [List.getElem?_append_right (by omega)] at h
    have := List.mem_of_getElem? h
    simp at this
    exact .inl this

theorem rotate_run {n : Nat} {ok : Res → Bool} {k : Nat} {P : Res → Prop} (hd : P .drop) :
    ∀ (es : List Group.Rotate.Ev) (s s' : Group.Rotate.Sys), Group.Rotate.run n ok s es = some s' →
    (∀ p x, s.queries[k]? = some p → payload p = some x → P x) →
    (∀ pre x post s1 i m, es = pre ++ .reply k x :: post → Group.Rotate.run n ok s pre = some s1 → s1.queries[k]? = some (.calling i m) → P x) →
    ∀ p x, s'.queries[k]? = some p → payload p = some x → P x := by
  intro es
  induction es with
  | nil => intro s s' h hi _; simp only [Group.Rotate.run, Option.some.injEq] at h; subst h; exact hi
  | cons e es ih =>
    intro s s' h hi hr
    simp only [Group.Rotate.run, Option.bind_eq_bind] at h
    obtain ⟨s1, hs, h⟩ := Option.bind_eq_some_iff.mp h
    refine ih s1 s' h ?_ (fun pre x post s2 i m h1 h2 h3 => hr (e :: pre) x post s2 i m (by rw [h1]; rfl) (by simp [Group.Rotate.run, hs, h2]) h3)
    intro p x hp hx
    cases e with
    | start =>
      simp only [Group.Rotate.step, Option.some.injEq] at hs
      subst hs
      rcases get_snoc_or hp with rfl | hp
      · split at hx <;> (simp only [payload, Option.some.injEq] at hx; subst hx; exact hd)
      · exact hi p x hp hx
    | current j =>
      simp only [Group.Rotate.step] at hs
      split at hs
      · simp only [Option.some.injEq] at hs; subst hs
        rcases get_set_or hp with ⟨rfl, rfl⟩ | hp
        · simp [payload] at hx
        · exact hi p x hp hx
      · cases hs
    | reply j r =>
      simp only [Group.Rotate.step] at hs
      split at hs
      · rename_i i m hj
        simp only [Option.some.injEq] at hs; subst hs
        rcases get_set_or hp with ⟨rfl, rfl⟩ | hp
        · have hPr : P r := hr [] r es s i m rfl rfl hj
          split at hx <;> (simp only [payload, Option.some.injEq] at hx; subst hx; exact hPr)
        · exact hi p x hp hx
      · cases hs
    | report j =>
      simp only [Group.Rotate.step] at hs
      split at hs
      · rename_i i m r hj
        simp only [Option.some.injEq] at hs; subst hs
        rcases get_set_or hp with ⟨rfl, rfl⟩ | hp
        · rw [payload_next _ _ _ _ hx]
          exact hi _ r hj rfl
        · exact hi p x hp hx
      · cases hs

theorem back_run {n : Nat} {ok : Res → Bool} {k : Nat} {P : Res → Prop} (hd : P .drop) :
    ∀ (es : List Group.Back.Ev) (s s' : Group.Back.Sys), Group.Back.run n ok s es = some s' →
    (∀ p x, s.queries[k]? = some p → payload p = some x → P x) →
    (∀ pre x post s1 i m, es = pre ++ .reply k x :: post → Group.Back.run n ok s pre = some s1 → s1.queries[k]? = some (.calling i m) → P x) →
    ∀ p x, s'.queries[k]? = some p → payload p = some x → P x := by
  intro es
  induction es with
  | nil => intro s s' h hi _; simp only [Group.Back.run, Option.some.injEq] at h; subst h; exact hi
  | cons e es ih =>
    intro s s' h hi hr
    simp only [Group.Back.run, Option.bind_eq_bind] at h
    obtain ⟨s1, hs, h⟩ := Option.bind_eq_some_iff.mp h
    refine ih s1 s' h ?_ (fun pre x post s2 i m h1 h2 h3 => hr (e :: pre) x post s2 i m (by rw [h1]; rfl) (by simp [Group.Back.run, hs, h2]) h3)
    intro p x hp hx
    cases e with
    | start =>
      simp only [Group.Back.step, Option.some.injEq] at hs
      subst hs
      rcases get_snoc_or hp with rfl | hp
      · split at hx <;> (simp only [payload, Option.some.injEq] at hx; subst hx; exact hd)
      · exact hi p x hp hx
    | current j =>
      simp only [Group.Back.step] at hs
      split at hs
      · simp only [Option.some.injEq] at hs; subst hs
        rcases get_set_or hp with ⟨rfl, rfl⟩ | hp
        · simp [payload] at hx
        · exact hi p x hp hx
      · cases hs
    | reply j r =>
      simp only [Group.Back.step] at hs
      split at hs
      · rename_i i m hj
        simp only [Option.some.injEq] at hs; subst hs
        rcases get_set_or hp with ⟨rfl, rfl⟩ | hp
        · have hPr : P r := hr [] r es s i m rfl rfl hj
          split at hx <;> (simp only [payload, Option.some.injEq] at hx; subst hx; exact hPr)
        · exact hi p x hp hx
      · cases hs
    | report j =>
      simp only [Group.Back.step] at hs
      split at hs
      · rename_i i m r hj
        split at hs
        · simp only [Option.some.injEq] at hs; subst hs
          rcases get_set_or hp with ⟨rfl, rfl⟩ | hp
          · rw [payload_next _ _ _ _ hx]
            exact hi _ r hj rfl
          · exact hi p x hp hx
        · simp only [Option.some.injEq] at hs; subst hs
          rcases get_set_or hp with ⟨rfl, rfl⟩ | hp
          · simp only [payload, Option.some.injEq] at hx; subst hx
            exact hi _ r hj rfl
          · exact hi p x hp hx
      · cases hs
    | send j =>
      simp only [Group.Back.step] at hs
      split at hs
      · rename_i i r hj
        split at hs
        · simp only [Option.some.injEq] at hs; subst hs
          rcases get_set_or hp with ⟨rfl, rfl⟩ | hp
          · rw [payload_next _ _ _ _ hx]
            exact hi _ r hj rfl
          · exact hi p x hp hx
        · cases hs
      · cases hs
    | recv =>
      simp only [Group.Back.step] at hs
      split at hs
      · simp only [Option.some.injEq] at hs; subst hs; exact hi p x hp hx
      · cases hs
    | fire =>
      simp only [Group.Back.step] at hs
      split at hs
      · simp only [Option.some.injEq] at hs; subst hs; exact hi p x hp hx
      · cases hs

theorem random_run {ok : Res → Bool} {k : Nat} {P : Res → Prop} :
    ∀ (es : List Group.Random.Ev) (s s' : Group.Random.Sys), Group.Random.run ok s es = some s' →
    (∀ x, s.queries[k]? = some (.done (some x)) → P x) →
    (∀ pre x post s1 m, es = pre ++ .reply k x :: post → Group.Random.run ok s pre = some s1 → s1.queries[k]? = some (.calling m) → P x) →
    ∀ x, s'.queries[k]? = some (.done (some x)) → P x := by
  intro es
  induction es with
  | nil => intro s s' h hi _; simp only [Group.Random.run, Option.some.injEq] at h; subst h; exact hi
  | cons e es ih =>
    intro s s' h hi hr
    simp only [Group.Random.run, Option.bind_eq_bind] at h
    obtain ⟨s1, hs, h⟩ := Option.bind_eq_some_iff.mp h
    refine ih s1 s' h ?_ (fun pre x post s2 m h1 h2 h3 => hr (e :: pre) x post s2 m (by rw [h1]; rfl) (by simp [Group.Random.run, hs, h2]) h3)
    intro x hp
    rcases Group.Random.random_ends ok s s1 e k (some x) hs hp with h1 | ⟨r, h1, h2, h3⟩ | ⟨h1, h2⟩
    · exact hi x h1
    · cases h1
      subst h3
      simp only [Group.Random.step] at hs
      split at hs
      · rename_i m hm
        exact hr [] x es s m rfl rfl hm
      · cases hs
    · cases h1

theorem each_run {n : Nat} {ok : Res → Bool} {beh : Nat → Res} {P : Res → Prop} : ∀ (left i : Nat) (last : Res), P last →
    (∀ m, m ∈ (Group.Back.perQuery n ok beh left i last).2 → P (beh m)) → P (Group.Back.perQuery n ok beh left i last).1 := by
  intro left
  induction left with
  | zero => intro i last hl _; exact hl
  | succ left ih =>
    intro i last hl h
    unfold Group.Back.perQuery at h ⊢
    simp only at h ⊢
    split
    · rename_i hok
      simp only [hok, if_true, List.mem_singleton, forall_eq] at h
      exact h
    · rename_i hok
      rw [if_neg hok] at h
      simp only [List.mem_cons, forall_eq_or_imp] at h
      exact ih (i + 1) (beh i) h.1 h.2

theorem balance_run {ok : Res → Bool} {beh : Nat → Res} {choose : Nat → Nat} {P : Res → Prop} (hf : ∀ e, P (.fail e)) :
    ∀ (fuel round : Nat) (rem : List Nat) (last r : Res) (asked : List Nat), P last → Balance.loop ok beh choose fuel round rem last = some (r, asked) →
    (∀ m, m ∈ asked → P (beh m)) → P r := by
  intro fuel
  induction fuel with
  | zero =>
    intro round rem last r asked hl h _
    simp only [Balance.loop, Option.some.injEq, Prod.mk.injEq] at h
    rw [← h.1]
    split
    · exact hf _
    · exact hl
  | succ fuel ih =>
    intro round rem last r asked hl h ha
    simp only [Balance.loop] at h
    split at h
    · cases h
    · rename_i idx hidx
      split at h
      · simp only [Option.some.injEq, Prod.mk.injEq] at h
        rw [← h.1]
        exact ha idx (by rw [← h.2]; simp)
      · split at h
        · cases h
        · rename_i res asked' hl'
          simp only [Option.some.injEq, Prod.mk.injEq] at h
          obtain ⟨rfl, rfl⟩ := h
          exact ih _ _ _ _ _ (ha idx (by simp)) hl' (fun m hm => ha m (by simp [hm]))

theorem fastest_mem {n : Nat} : ∀ (l : List Res) (i : Nat) (r : Res), Balance.fastest n i l = some r → r ∈ l := by
  intro l
  induction l with
  | nil => intro i r h; cases h
  | cons x l ih =>
    intro i r h
    simp only [Balance.fastest] at h
    split at h
    · cases h; simp
    · split at h
      · cases h; simp
      · exact List.mem_cons_of_mem _ (ih _ _ h)

/-! ### De-duplication and cache -/

private theorem dedup_restored : ∀ (evs : List Dedup.Ev) (s s' : Dedup.Sys), Dedup.run s evs = some s' →
    (∀ (c : Nat) (x : Dedup.Caller) (res : Res), s.callers[c]? = some x → x.ph = .returned res → ∃ r, res = Dedup.restore x.q r) →
    ∀ (c : Nat) (x : Dedup.Caller) (res : Res), s'.callers[c]? = some x → x.ph = .returned res → ∃ r, res = Dedup.restore x.q r := by
  intro evs
  induction evs with
  | nil => intro s s' h hi; simp only [Dedup.run, Option.some.injEq] at h; subst h; exact hi
  | cons e evs ih =>
    intro s s' h hi
    simp only [Dedup.run] at h
    split at h
    · cases h
    · rename_i s1 hs
      refine ih s1 s' h fun c x res hc hr => ?_
      cases e with
      | arrive q =>
        simp only [Dedup.step] at hs
        split at hs
        · cases hs
        · split at hs
          all_goals
            simp only [Option.some.injEq] at hs; subst hs
            rcases get_snoc_or hc with rfl | hc
            · cases hr
            · exact hi c x res hc hr
      | reply j r =>
        simp only [Dedup.step] at hs
        split at hs
        · split at hs
          · simp only [Option.some.injEq, Dedup.Sys.setCaller] at hs; subst hs
            rcases get_set_or hc with ⟨rfl, rfl⟩ | hc
            · cases hr
            · exact hi c x res hc hr
          · cases hs
        · cases hs
      | finish j =>
        simp only [Dedup.step] at hs
        split at hs
        · split at hs
          · simp only [Option.some.injEq] at hs; subst hs
            rcases get_set_or hc with ⟨rfl, rfl⟩ | hc
            · simp only [Dedup.Phase.returned.injEq] at hr
              exact ⟨_, hr.symm⟩
            · exact hi c x res hc hr
          · cases hs
        · cases hs
      | wake j =>
        simp only [Dedup.step] at hs
        split at hs
        · split at hs
          · split at hs
            · simp only [Option.some.injEq, Dedup.Sys.setCaller] at hs; subst hs
              rcases get_set_or hc with ⟨rfl, rfl⟩ | hc
              · simp only [Dedup.Phase.returned.injEq] at hr
                exact ⟨_, hr.symm⟩
              · exact hi c x res hc hr
            · cases hs
          · cases hs
        · cases hs

private theorem restore_fits {q : Msg} (hq : q.question ≠ []) (r : Res) : Fits q (Dedup.restore q r) := by
  unfold Dedup.restore
  split
  · intro _ a ha
    simp only [Option.some.injEq] at ha
    subst ha
    exact of_same hq rfl rfl
  · rename_i h
    exact fits_none h

private theorem cache_good {H : Type} [DecidableEq H] {env : CacheM.Env H} {o : CacheM.Opts} {cap : Int} {hist : List Cache.Ev} {c : CacheM.State H} {q : Msg}
    {up : Res} {clock : Nat → Int} {ts : Int} (h1 : ∀ e ∈ hist, Cache.OkEv env.ipStr e) (h2 : Cache.runEv env o (Lru.new cap) hist = some c)
    (h3 : Cache.WellFormed env.ipStr q) (h4 : Cache.SaneTime ts) (hneg : o.negativeTTL ≤ 4294967295) (hip : ∀ a, env.ipStr a ≠ [])
    (hsh : ∀ f a, o.shuffle = some f → (f a).id = a.id ∧ (f a).question = a.question)
    (hup : ∀ x, CacheM.resolve env o c q up clock ts = some x → x.asked = true → Fits q up) :
    Good q ((CacheM.resolve env o c q up clock ts).map (·.res)) := by
  obtain ⟨out, hout⟩ := Cache.cache_resolve_total env o hneg cap hist h1 c h2 q h3 up clock ts h4
  obtain ⟨qu, qs, hqq⟩ := List.exists_cons_of_ne_nil h3.question
  have hqu : q.question.head? = some qu := by rw [hqq]; rfl
  refine ⟨out.res, by rw [hout]; rfl, ?_⟩
  rcases Cache.cache_resolve_sound env hip o hneg cap hist h1 c h2 q qu hqu up clock ts out hout with ⟨ha, hr⟩ | ⟨-, -, a, hr, hk⟩
  · have hf := hup out hout ha
    rcases hr with hr | ⟨hr1, hr2⟩
    · rw [hr]; exact hf
    · rw [hr2]; exact fits_none rfl
  · rw [hr]
    refine fits_ok ?_
    rcases hk with ⟨-, -, rfl⟩ | ⟨a0, hj, rfl⟩ | ⟨-, rfl, -⟩
    · exact setReply_belongs h3.question
    · have h0 : Belongs q a0 := by
        obtain ⟨q0, m, t, m', ex, pf, b, aft, -, -, -, -, -, -, hc⟩ := hj
        exact of_same h3.question hc.id (by rw [hc.question])
      split
      · rename_i f hf
        exact of_eq h0 (hsh f a0 hf).1 (hsh f a0 hf).2
      · exact h0
    · exact of_eq (setReply_belongs h3.question) rfl rfl

/-! ### The theorems -/

private theorem all_good {H : Type} [DecidableEq H] {C : Nat → Msg → ClientInfo → Option Res → Prop}
    (hC : ∀ i q ci o, FromWire q → C i q ci o → Good q o) {t : Tree H} {q : Msg} {ci : ClientInfo} {o : Option Res}
    (h : Replies C t q ci o) : Sane t → FromWire q → Good q o := by
  have bind : ∀ {q : Msg} {o : Option Res} {f : Res → Option Res}, Good q o → (∀ r, Fits q r → Good q (f r)) → Good q (o.bind f) := by
    rintro q o f ⟨r, rfl, hr⟩ hf
    exact hf r hr
  have crash : ∀ {q q' : Msg}, Good q none → Good q' none := by
    rintro q q' ⟨r, hr, -⟩
    cases hr
  have got : ∀ {q : Msg} {r : Res}, Good q (some r) → Fits q r := by
    rintro q r ⟨r', h1, h2⟩
    cases h1
    exact h2
  have sane : ∀ {t a b : Tree H} {target : Blocklist.Target}, Sane t → Sane a → Sane b → Sane (branch t a b target) := by
    intro t a b target h1 h2 h3
    cases target <;> assumption
  induction h with
  | client h => exact fun _ hq => hC _ _ _ _ hq h
  | ttl _ ih =>
    intro ht hq
    obtain ⟨r, rfl, hr⟩ := ih ht hq
    exact ⟨_, rfl, ttl_fits hr⟩
  | truncateKeep _ h2 ih =>
    intro ht hq
    have hr := got (ih ht.1 hq)
    refine ⟨_, rfl, ?_⟩
    unfold Elements.truncateRetry at h2 ⊢
    split
    · split
      · rename_i hm htc
        rw [show (_ : Res).err = none from ‹_›, hm] at h2
        simp [htc] at h2
      · exact hr
    · exact hr
  | truncateAsk _ h2 _ ih1 ih2 =>
    intro ht hq
    have hr := got (ih1 ht.1 hq)
    have hr2 := got (ih2 ht.2 hq)
    refine ⟨_, rfl, ?_⟩
    unfold Elements.truncateRetry
    split
    · split
      · exact hr2
      · exact hr
    · exact hr
  | truncateCrash _ ih => exact fun ht hq => ih ht.1 hq
  | truncateCrash2 _ _ _ ih => exact fun ht hq => ih ht.2 hq
  | collapse _ ih => exact fun ht hq => bind (ih ht hq) fun r hr => collapse_good hq.question hr
  | minimize _ ih =>
    intro ht hq
    obtain ⟨r, rfl, hr⟩ := ih ht hq
    exact ⟨_, rfl, minimize_fits hr⟩
  | drop => exact fun _ _ => ⟨_, rfl, fits_none rfl⟩
  | modify _ ih => exact fun ht hq => good_same (modifier_same _ _ _).1 (modifier_same _ _ _).2 (ih ht.2 (modifier_wire _ hq ht.1))
  | blocklistDone _ h =>
    intro _ hq
    obtain ⟨act, h1, h2, -⟩ := blocklist_act (o := _) hq.question
    exact ⟨_, rfl, h2 _ (Option.some.inj (h1.symm.trans h))⟩
  | blocklistForward _ h _ ih =>
    intro ht hq
    obtain ⟨act, h1, -, h3⟩ := blocklist_act (o := _) hq.question
    obtain rfl := h3 _ _ (Option.some.inj (h1.symm.trans h))
    exact ih (sane ht.1 ht.2.1 ht.2.2) hq
  | blocklistCrash _ h =>
    intro _ hq
    obtain ⟨act, h1, -⟩ := blocklist_act (o := _) hq.question
    rw [h] at h1
    cases h1
  | clientDone _ h => exact fun _ hq => ⟨_, rfl, (client_act hq.question).1 _ h⟩
  | clientForward _ h _ ih =>
    intro ht hq
    obtain rfl := (client_act hq.question).2 _ _ h
    exact ih (sane ht.1 ht.1 ht.2) hq
  | ipDone _ _ h ih => exact fun ht hq => ⟨_, rfl, (ip_act hq.question (got (ih ht.1 hq))).1 _ h⟩
  | ipForward _ _ h _ ih1 ih2 =>
    intro ht hq
    obtain rfl := (ip_act hq.question (got (ih1 ht.1 hq))).2 _ _ h
    exact ih2 (sane ht.1 ht.1 ht.2) hq
  | ipCrash _ ih => exact fun ht hq => ih ht.1 hq
  | nameDone _ _ h ih => exact fun ht hq => ⟨_, rfl, (name_act hq.question (got (ih ht.1 hq))).1 _ h⟩
  | nameForward _ _ h _ ih1 ih2 =>
    intro ht hq
    obtain rfl := (name_act hq.question (got (ih1 ht.1 hq))).2 _ _ h
    exact ih2 (sane ht.1 ht.1 ht.2) hq
  | nameCrash _ ih => exact fun ht hq => ih ht.1 hq
  | rateOn _ _ ih => exact fun ht hq => ih ht.1 hq
  | rateLimit _ _ ih => exact fun ht hq => ih ht.2 hq
  | rateDrop _ => exact fun _ _ => ⟨_, rfl, fits_none rfl⟩
  | static => exact fun ht hq => static_good hq.question ht.1 ht.2.1 ht.2.2
  | template => exact fun ht hq => template_good hq.question ht
  | replace _ ih =>
    intro ht hq
    obtain ⟨r, rfl, hr⟩ := ih ht (replace_wire hq)
    exact replace_good hq.question hr
  | syslog _ ih => exact fun ht hq => bind (ih ht hq) fun r hr => syslog_good hq.question hr
  | queryLog _ ih => exact fun ht hq => bind (ih ht hq) fun r hr => queryLog_good hq.question hr
  | dns64One _ h ih =>
    intro ht hq
    rw [← h .drop]
    exact dns64_good hq.question (got (ih ht hq))
  | dns64Two _ _ ih1 ih2 => exact fun ht hq => dns64_good hq.question (got (ih1 ht hq))
  | dns64Crash _ ih => exact fun ht hq => ih ht hq
  | dns64Crash2 _ _ _ ih => exact fun ht hq => crash (ih ht (aQuery_wire hq))
  | failRotate h1 h2 _ _ ih =>
    intro ht hq
    exact ⟨_, rfl, rotate_run (P := Fits _) (fits_none rfl) _ _ _ h1 (by simp)
      (fun pre x post s1 i m e1 e2 e3 => got (ih pre x post s1 i m e1 e2 e3 (ht m) hq)) _ _ h2 rfl⟩
  | failRotateCrash _ ih => exact fun ht hq => ih (ht _) hq
  | failBack h1 h2 _ _ ih =>
    intro ht hq
    exact ⟨_, rfl, back_run (P := Fits _) (fits_none rfl) _ _ _ h1 (by simp [Group.Back.init])
      (fun pre x post s1 i m e1 e2 e3 => got (ih pre x post s1 i m e1 e2 e3 (ht m) hq)) _ _ h2 rfl⟩
  | failBackCrash _ ih => exact fun ht hq => ih (ht _) hq
  | failBackEach _ ih =>
    intro ht hq
    exact ⟨_, rfl, each_run (P := Fits _) _ _ _ (fits_none rfl) fun m hm => got (ih m hm (ht m) hq)⟩
  | failBackEachCrash _ ih => exact fun ht hq => ih (ht _) hq
  | roundRobin _ _ ih => exact fun ht hq => ih (ht.2 _) hq
  | roundRobinEmpty => exact fun ht _ => absurd ht.1 (by omega)
  | random h1 h2 _ _ ih =>
    rename_i r _ _
    intro ht hq
    refine ⟨_, rfl, ?_⟩
    cases r with
    | none => exact fits_err (by simp [Res.fail])
    | some x =>
      exact random_run (P := Fits _) _ _ _ h1 (by simp) (fun pre x post s1 m e1 e2 e3 => got (ih pre x post s1 m e1 e2 e3 (ht m) hq)) _ h2
  | randomCrash _ ih => exact fun ht hq => ih (ht _) hq
  | loadBalance h1 _ ih =>
    intro ht hq
    exact ⟨_, rfl, balance_run (P := Fits _) (fun e => fits_err (by simp [Res.fail])) _ _ _ _ _ _ (fits_none rfl) h1 fun m hm => got (ih m hm (ht m) hq)⟩
  | loadBalanceCrash _ ih => exact fun ht hq => ih (ht _) hq
  | fastest h1 _ _ _ ih =>
    intro ht hq
    obtain ⟨i, hi⟩ := List.getElem?_of_mem (fastest_mem _ _ _ h1)
    exact ⟨_, rfl, got (ih i _ hi (ht _) hq)⟩
  | fastestCrash _ ih => exact fun ht hq => ih (ht _) hq
  | fastestTcp _ ih => exact fun ht hq => bind (ih ht hq) fun r hr => tcp_good hq.question hr
  | router _ _ _ ih => exact fun ht hq => ih (ht _) hq
  | routerNone _ _ => exact fun _ _ => ⟨_, rfl, fits_err (by simp [Res.fail])⟩
  | routerCrash h => exact fun _ hq => absurd h hq.question
  | dedup h1 h2 h3 h4 _ =>
    intro _ hq
    obtain ⟨r, hr⟩ := dedup_restored _ _ _ h1 (by simp) _ _ _ h2 h4
    refine ⟨_, rfl, ?_⟩
    rw [hr, h3]
    exact restore_fits hq.question r
  | dedupCrash _ ih => exact fun ht hq => ih ht hq
  | dedupNoKey h =>
    intro _ hq
    obtain ⟨qu, qs, hqq⟩ := List.exists_cons_of_ne_nil hq.question
    unfold Dedup.key at h
    rw [hqq] at h
    simp at h
  | cache h1 _ _ h2 h3 h4 _ ih =>
    intro ht hq
    exact cache_good h1 h2 h3 h4 ht.1 ht.2.1 ht.2.2.1 fun x hx ha => got (ih x hx ha ht.2.2.2 hq)
  | cacheCrash _ ih => exact fun ht hq => ih ht.2.2.2 hq
  | prefetch _ ih => exact fun ht hq => ih ht hq
  | dnssec _ _ ih =>
    intro ht hq
    obtain ⟨r, rfl, hr⟩ := ih ht (upstream_wire hq)
    exact dnssec_good (ci := {}) hq.question (fits_same (upstream_same _).1 (upstream_same _).2 hr)

/-- C76: no query crashes the program: whatever elements are put together, however they are connected and whatever happened before. -/
theorem no_crash {H : Type} [DecidableEq H] {C : Nat → Msg → ClientInfo → Option Res → Prop}
    (hC : ∀ i q ci o, FromWire q → C i q ci o → ∃ r, o = some r ∧ Fits q r) (t : Tree H) (ht : Sane t) (q : Msg) (hq : FromWire q) (ci : ClientInfo) :
    ¬ Replies C t q ci none := by
  intro h
  obtain ⟨r, hr, -⟩ := all_good hC h ht hq
  cases hr

/-- C76: every reply is an error, a drop, or a message with the ID of the query and for its question. -/
theorem reply_belongs {H : Type} [DecidableEq H] {C : Nat → Msg → ClientInfo → Option Res → Prop}
    (hC : ∀ i q ci o, FromWire q → C i q ci o → ∃ r, o = some r ∧ Fits q r) (t : Tree H) (ht : Sane t) (q : Msg) (hq : FromWire q) (ci : ClientInfo) (r : Res)
    (h : Replies C t q ci (some r)) : Fits q r := by
  obtain ⟨r', hr, hf⟩ := all_good hC h ht hq
  cases hr
  exact hf

/-! ### The clients keep their part -/

private theorem pad_same {a m : Msg} (h : Spec.Listeners.ButPadding a m) : m.id = a.id ∧ m.question = a.question := by
  rcases h with rfl | ⟨e, os, _, ⟨pre, r, post, _, _, _, rfl⟩, _⟩ | ⟨e, ⟨_, rfl⟩, _⟩ <;> exact ⟨rfl, rfl⟩

private theorem size_same {size : Nat} {q m : Msg} (h : Spec.Clients.SizeSet size q m) : m.id = q.id ∧ m.question = q.question := by
  rcases h with ⟨_, rfl⟩ | ⟨_, ⟨e, pre, r, post, _, _, _, rfl⟩ | ⟨_, rfl⟩⟩ <;> exact ⟨rfl, rfl⟩

private theorem for_belongs {q a : Msg} (hq : q.question ≠ []) (hi : a.id = q.id) (h : Spec.Pipeline.ForQuestion q a) : Belongs q a := by
  rcases h with h | ⟨qu, au, h1, h2, h3, h4, h5⟩
  · exact absurd h hq
  · exact ⟨hi, qu, au, h1, h2, h3, h4, h5⟩

private theorem pipeline_fits {q : Msg} {evs : List Pipeline.Ev} {s : Pipeline.Sys} {k : Nat} {x : Pipeline.Req} {r : Res} (hq : q.question ≠ [])
    (h1 : Pipeline.run {} evs = some s) (h2 : s.reqs[k]? = some x) (h3 : x.q.id = q.id ∧ x.q.question = q.question) (h4 : x.ph = .returned r) : Fits q r := by
  obtain ⟨-, ⟨e, rfl⟩ | ⟨a, m, -, rfl, hm, hf⟩⟩ := Pipeline.pipeline_answer evs s h1 k x r h2 h4
  · exact fits_err (by simp [Res.fail])
  · refine fits_same h3.1 h3.2 (fits_ok (for_belongs (by rw [h3.2]; exact hq) (by rw [hm]) hf))

/-- The clients for UDP, TCP, TLS, DTLS, QUIC and HTTPS do what the theorems above ask of upstream servers. -/
theorem clients_good (lib : Listeners.Lib) (b64 : Str → Str) (u : Upstream) (q : Msg) (hq : FromWire q) (o : Option Res) (h : ClientReplies lib b64 u q o) :
    ∃ r, o = some r ∧ Fits q r := by
  cases h with
  | plain h1 h2 h3 h4 =>
    refine ⟨_, rfl, pipeline_fits hq.question h1 h2 ?_ h4⟩
    obtain ⟨m, hm, hp, -⟩ := Clients.plain_query _ q
    rw [h3]
    exact ⟨(pad_same hp).1.trans (size_same hm).1, (pad_same hp).2.trans (size_same hm).2⟩
  | encrypted h0 h1 h2 h3 h4 =>
    refine ⟨_, rfl, pipeline_fits hq.question h1 h2 ?_ h4⟩
    obtain ⟨m, m', hm, he, hp, -⟩ := Clients.encrypted_query lib _ q hq.padding
    rw [h0] at he
    cases he
    rw [h3]
    exact ⟨(pad_same hp).1.trans (size_same hm).1, (pad_same hp).2.trans (size_same hm).2⟩
  | encryptedCrash h0 =>
    obtain ⟨m, m', -, he, -⟩ := Clients.encrypted_query lib _ q hq.padding
    rw [h0] at he
    cases he
  | @quic net =>
    obtain ⟨m, -, hn, hs⟩ := Clients.doq_client lib net q
    cases hp : lib.pack m with
    | none => rw [hn hp]; exact ⟨_, rfl, fits_err (by simp [Res.fail])⟩
    | some p =>
      obtain ⟨sent, -, -, hc, ha⟩ := hs p hp
      cases ho : (Clients.doqResolve lib net q).2 with
      | crash => exact absurd ho hc
      | failed => exact ⟨_, rfl, fits_err (by simp [Res.fail])⟩
      | answer a =>
        obtain ⟨_, _, a0, -, -, -, hf, -, rfl⟩ := (ha a).mp ho
        exact ⟨_, rfl, fits_ok (for_belongs hq.question rfl hf)⟩
  | @https t o net _ hid =>
    obtain ⟨m, -, -, hc, -, ha⟩ := Clients.doh_client lib b64 t o net q hq.padding
    cases ho : (Clients.dohResolve lib b64 t o net q).2 with
    | crash => exact absurd ho hc
    | failed => exact ⟨_, rfl, fits_err (by simp [Res.fail])⟩
    | answer a =>
      obtain ⟨_, _, _, -, -, -, -, hf⟩ := (ha a).mp ho
      exact ⟨_, rfl, fits_ok (for_belongs hq.question (hid a ho) hf)⟩

/-! ### From the listener to the servers -/

private theorem failure_belongs {q m : Msg} {n : Nat} (hq : q.question ≠ []) (h : Spec.Listeners.Failure q n m) : Belongs q m := by
  obtain ⟨h1, -, -, -, h2, -⟩ := h
  refine of_same hq h1 ?_
  rw [h2]
  cases q.question <;> simp_all

private theorem shown_belongs {lib : Listeners.Lib} {small : Msg → Nat → Prop} (hl : Spec.Listeners.Truncates lib small) {t : Spec.Listeners.Transport} {q a : Msg} {w : Listeners.Wire}
    (h : Spec.Listeners.Shown lib t q a w) (hb : Belongs q a) : ∃ m, w = .reply m ∧ Belongs q m := by
  obtain ⟨b, h1, h2⟩ := h
  have hbb := of_eq hb (pad_same h1).1 (pad_same h1).2
  cases t with
  | udp v => exact ⟨_, h2.2, of_eq hbb (hl.cut b _).id (hl.cut b _).question⟩
  | tcp v => exact ⟨_, h2.2, hbb⟩
  | dot => exact ⟨_, h2, hbb⟩
  | dtls => exact ⟨_, h2, of_eq hbb (hl.cut b _).id (hl.cut b _).question⟩

/-- C76, with a listener: whatever the upstream servers are, as long as their replies belong to what they are asked. -/
theorem listener_belongs_any {H : Type} [DecidableEq H] {C : Nat → Msg → ClientInfo → Option Res → Prop}
    (hC : ∀ i q ci o, FromWire q → C i q ci o → ∃ r, o = some r ∧ Fits q r) (lib : Listeners.Lib) (small : Msg → Nat → Prop) (hl : Spec.Listeners.Truncates lib small)
    (t : Tree H) (ht : Sane t) (id : Str) (tr : Spec.Listeners.Transport) (hv : tr.Valid) (hu : ∀ v, tr = .udp v → v = 0) (nets : List Cidr.IPNet) (peer sni : Str)
    (hw : Spec.Listeners.WellFormed nets peer) (req : Msg) (hreq : FromWire req) (r : Listeners.Pipeline)
    (hr : Replies C t req { sourceIP := peer, tlsServerName := sni, listener := id } (some (r req { sourceIP := peer, tlsServerName := sni, listener := id })))
    (hd : tr.Encrypted → ∀ a, (r req { sourceIP := peer, tlsServerName := sni, listener := id }).msg = some a → Spec.Listeners.Decoded a) :
    let w := (Listeners.listenHandler lib id tr.protocol r nets peer sni req).out
    w = .closed ∨ ∃ m, w = .reply m ∧ Belongs req m := by
  have hf := reply_belongs hC t ht req hreq _ _ hr
  obtain ⟨-, h2, h3⟩ := Listeners.dns_listener lib id tr hv hu r nets peer sni hw req
  by_cases ha : Spec.Listeners.Admits nets peer
  · obtain ⟨-, he, hn, hs⟩ := h3 hreq.question ha
    generalize r req { sourceIP := peer, tlsServerName := sni, listener := id } = x at *
    obtain ⟨xm, xe⟩ := x
    cases xe with
    | some e =>
      obtain ⟨m, hm, hsh⟩ := he e rfl
      exact .inr (shown_belongs hl hsh (failure_belongs hreq.question hm))
    | none =>
      cases xm with
      | none => exact .inl (hn rfl)
      | some a => exact .inr (shown_belongs hl (hs a rfl fun hx => hd hx a rfl) (hf rfl a rfl))
  · obtain ⟨-, m, hm, hsh⟩ := h2 hreq.question ha
    exact .inr (shown_belongs hl hsh (failure_belongs hreq.question hm))

/-- C76, end to end: a UDP, TCP, TLS or DTLS listener in front of any sane configuration of any servers either sends nothing back, closes, or sends a message with the ID
of the client's query and for its question. -/
theorem listener_belongs {H : Type} [DecidableEq H] (lib : Listeners.Lib) (small : Msg → Nat → Prop) (hl : Spec.Listeners.Truncates lib small) (b64 : Str → Str) (servers : Nat → Upstream)
    (t : Tree H) (ht : Sane t) (id : Str) (tr : Spec.Listeners.Transport) (hv : tr.Valid) (hu : ∀ v, tr = .udp v → v = 0) (nets : List Cidr.IPNet) (peer sni : Str)
    (hw : Spec.Listeners.WellFormed nets peer) (req : Msg) (hreq : FromWire req) (r : Listeners.Pipeline)
    (hr : Replies (fun i q _ o => ClientReplies lib b64 (servers i) q o) t req { sourceIP := peer, tlsServerName := sni, listener := id }
      (some (r req { sourceIP := peer, tlsServerName := sni, listener := id })))
    (hd : tr.Encrypted → ∀ a, (r req { sourceIP := peer, tlsServerName := sni, listener := id }).msg = some a → Spec.Listeners.Decoded a) :
    let w := (Listeners.listenHandler lib id tr.protocol r nets peer sni req).out
    w = .closed ∨ ∃ m, w = .reply m ∧ Belongs req m := by
  exact listener_belongs_any (fun i q ci o hq h => clients_good lib b64 (servers i) q hq o h) lib small hl t ht id tr hv hu nets peer sni hw req hreq r hr hd

/-! ### The description of configurations agrees with the models of the elements -/

/-- The replace element asks its upstream one query, `replaceAsk`. -/
theorem replace_asks (exps : List (Str → Str)) (up : Msg → Res) (q : Msg) :
    Static.resolveReplace exps up q = Static.resolveReplace exps (fun _ => up (replaceAsk exps q)) q := by
  unfold Static.resolveReplace replaceAsk
  cases hq : q.question with
  | nil => rfl
  | cons qu rest =>
    dsimp only
    by_cases h : Static.apply exps qu.name = qu.name
    · rw [if_pos h, if_pos h, h]
      congr 2
      cases q
      simp_all
    · rw [if_neg h, if_neg h]

/-- The validator asks its upstream one query, `upstreamQuery`. -/
theorem dnssec_asks (logOnly : Bool) (v : Msg → DnssecResolver.Verdict) (up : Msg → ClientInfo → Res) (q : Msg) (ci : ClientInfo) :
    DnssecResolver.resolve logOnly v up q ci = DnssecResolver.resolve logOnly v (fun _ _ => up (DnssecResolver.upstreamQuery q) ci) q ci := rfl

/-- DNS64 asks the query itself and then perhaps the query for the IPv4 address. -/
theorem dns64_asks (ps : List Dns64.Pfx) (up : Msg → Res) (q : Msg) : Dns64.resolve ps up q = Dns64.resolve ps (two q (up q) (up (Dns64.aQuery q))) q := by
  have h1 : two q (up q) (up (Dns64.aQuery q)) q = up q := by simp [two]
  have h2 : two q (up q) (up (Dns64.aQuery q)) (Dns64.aQuery q) = up (Dns64.aQuery q) := by
    unfold two
    split
    · rename_i h; rw [h]
    · rfl
  unfold Dns64.resolve
  simp only [h1, h2]

/-- The router asks the member it picks. -/
theorem router_asks (routes : List Route.Route) (up : Nat → Msg → ClientInfo → Res) (q : Msg) (qu : Question) (rest : List Question) (hq : q.question = qu :: rest) (ci : ClientInfo)
    (now : Nat → Route.Now) : Route.resolve routes up q ci now = some (match Route.routeIndex routes q qu ci now 0 with | some i => up i q ci | none => .fail "no route") := by
  unfold Route.resolve
  rw [hq]
  dsimp only
  split <;> simp_all

/-! ### A configuration, a query and a reply; and what happens without the conditions -/

private def exQ : Msg := { id := 7, rd := true, question := [⟨str "example.com.", typeA, 1⟩] }
private def exA : Msg := { exQ with id := 31, response := true, question := [⟨str "eXample.com.", typeA, 1⟩] }
private def exTree : Tree Nat := .ttl ⟨.lowest, 10, 0⟩ (.blocklist (fun o => o.blockDB = fun _ => none) (.truncateRetry (.roundRobin 2 .client) (.client 5)) .drop (.static { rcode := 3 }))

example : Sane exTree := by simp [exTree, Sane]
example : FromWire exQ := ⟨by decide, by intro e he; cases he⟩

/-- The query is passed on to server 1 of the round-robin group over UDP, which answers under the ID the pipeline gave the query. -/
example (lib : Listeners.Lib) (b64 : Str → Str) : Replies (fun i q _ o => ClientReplies lib b64 (.plain 0) q o) exTree exQ {} (some (.ok { exA with id := 7 })) := by
  refine RepliesIn.ttl (o := some (.ok { exA with id := 7 })) (.blocklistForward (opt := { blockDB := fun _ => none }) (target := .upstream) (q' := exQ) rfl rfl
    (.truncateKeep (r := .ok { exA with id := 7 }) (r2 := .drop) (.roundRobin (current := 0) (by omega) (.client ?_)) rfl))
  exact .plain (evs := [.call exQ, .startTake 0, .dialOk, .writerTake 0 31, .writeOk, .recv exA, .readerDone, .ret 0]) (k := 0) rfl rfl rfl rfl

/-- A static element with a blank record, an empty round-robin group and a padding option added as raw data each crash the program (C43, C15, C40). -/
theorem insane_crash (C : Nat → Msg → ClientInfo → Option Res → Prop) (q : Msg) (ci : ClientInfo) :
    Replies (H := Nat) C (.static { answer := [none] }) q ci none ∧ Replies (H := Nat) C (.roundRobin 0 .client) q ci none ∧
    ∀ lib b64 data, Replies (H := Nat) (fun _ q _ o => ClientReplies lib b64 (.encrypted 0) q o) (.modify (.edns0Add 12 data) (.client 0)) q ci none := by
  refine ⟨.static, .roundRobinEmpty, fun lib b64 data => .modify (.client (.encryptedCrash ?_))⟩
  exact Modifiers.pad_query_panics _ _ _

/-- Without a question even good elements crash; listeners pass no such query on (C53). -/
example (C : Nat → Msg → ClientInfo → Option Res → Prop) : Replies (H := Nat) C (.router [] .client) {} {} none := .routerCrash rfl

end Verif.Props.Composition
