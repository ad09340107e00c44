import Verif.Spec.DnssecJoin
import Verif.Props.DnssecChain
import Verif.Props.DnssecResolver
import Verif.Model.Composition
/-
C90: what a client behind a validating resolver gets.
-/
set_option linter.unusedVariables false
namespace Verif.Props.DnssecJoin
open Verif Verif.Dnssec Verif.DnssecSpec Verif.DnssecView Verif.DnssecJoin Verif.Spec.DnssecJoin
open Verif.Props.Dnssec (Fresh rrset)

private theorem set_eq {recOf : RR → Rec} (hf : Faithful recOf) (l : List RR) (r : RR) (hr : r.rtype ≠ 46) : rrset (l.map recOf) (recOf r) = (setOf l r).map recOf := by
  unfold rrset setOf
  rw [List.filter_map]
  congr 1
  apply List.filter_congr
  intro x _
  simp only [Function.comp, hf.name, hf.rtype]
  by_cases ht : x.rtype = r.rtype
  · have : isSig (recOf x) = false := by
      have hx := hf.rtype x
      cases hc : recOf x <;> first | rfl | skip
      rw [hc] at hx
      exact absurd (hx.symm.trans rfl : x.rtype = 46) (by rw [ht]; exact hr)
    simp [this, ht]
  · simp [ht]

/-- What the client sees of an upstream answer is part of it. -/
private theorem view_sub {q a m : Msg} (hq : q.question ≠ []) (h : View q a m) : ∀ r ∈ m.answer, r ∈ a.answer := by
  intro r hr
  by_cases hw : WantsDnssec q
  · rw [(h.wanted hw).1] at hr; exact hr
  · cases hqq : q.question with
    | nil => exact absurd hqq hq
    | cons qu rest => exact ((DnssecResolver.without_hidden (h.answer hw qu rest hqq)).1 r hr).1

/-- Every record of a validated answer other than signatures is proven. -/
theorem valid_proven {C : Crypto} {A : List Ds} {recOf : RR → Rec} (hf : Faithful recOf) {s0 s : Sys} {c : Call} (h0 : Fresh s0 A) (h : Sys.Reach C s0 s) (hw : ∀ c ∈ s.calls, WireMsg c.msg)
    (hc : c ∈ s.calls) (hres : c.prog = .ret (.ok ())) {a : Msg} (hs : Sees recOf a c.msg) {r : RR} (hra : r ∈ a.answer) (ht : r.rtype ≠ 46) : Proven C A recOf a.answer r c.start s.now := by
  have hmem : recOf r ∈ c.msg.answer := by rw [hs.answer]; exact List.mem_map_of_mem hra
  obtain ⟨sig, z, n, h4, h5, h6, h7, h8, h9, h10⟩ := Verif.Props.Dnssec.validated_answers_signed h0 h hw hc hres (by intro he; rw [he] at hmem; cases hmem) hmem
    (by intro s' hs'; have := hf.rtype r; rw [hs'] at this; exact ht (this.symm.trans rfl))
  refine ⟨sig, z, n, by rw [← hs.answer]; exact h4, h5, h6, by rw [← hf.name r]; exact h7, h9, ?_⟩
  rw [hs.answer, set_eq hf a.answer r ht] at h10
  exact h10

/-- The unsigned delegation behind an answer that counts as insecure. -/
theorem insecure_proven {C : Crypto} {A : List Ds} {recOf : RR → Rec} (hf : Faithful recOf) {s0 s : Sys} {c : Call} (h0 : Fresh s0 A) (h : Sys.Reach C s0 s) (hw : ∀ c ∈ s.calls, WireMsg c.msg)
    (hc : c ∈ s.calls) (hres : c.prog = .ret (.error .insecure)) {a : Msg} (hs : Sees recOf a c.msg) :
    ∃ (n z : Name), WfName n ∧ WfName z ∧ AncestorOrSelf z n ∧ InsecureAbove C A (present (canon z)) c.start s.now ∧
      ((∃ r ∈ a.answer, r.rtype ≠ 46 ∧ r.name = present n) ∨ (a.answer = [] ∧ ∃ x, a.question.head? = some x ∧ x.name = present n)) := by
  obtain ⟨n, z, h4, h5, h6, h7, h8⟩ := Verif.Props.Dnssec.insecure_is_proven h0 h hw hc hres
  refine ⟨n, z, h4, h5, h7, h8, ?_⟩
  rcases h6 with ⟨r, hr, hrs, hn⟩ | ⟨he, t, ht⟩
  · rw [hs.answer] at hr
    obtain ⟨x, hx, rfl⟩ := List.mem_map.mp hr
    refine Or.inl ⟨x, hx, ?_, by rw [← hf.name x]; exact hn⟩
    intro ht
    obtain ⟨sg, hsg⟩ := hf.sig x ht
    exact hrs _ hsg
  · right
    rw [hs.answer] at he
    rw [hs.question] at ht
    refine ⟨List.map_eq_nil_iff.mp he, ?_⟩
    cases hh : a.question.head? with
    | none => rw [hh] at ht; cases ht
    | some x => rw [hh] at ht; simp only [Option.map_some, Option.some.injEq, Prod.mk.injEq] at ht; exact ⟨x, rfl, ht.1⟩

/-- C90: whatever the resolver behind the validator answers, and whatever other validations do at the same time: the client gets SERVFAIL without any records (exactly if validation
failed), or an answer that
was validated, in which every record other than signatures was proven by signatures that lead to the trust anchors, or an answer about names below a delegation that is proven to be
unsigned. The AD bit is set in the second case only (unless the resolver behind has set it). -/
theorem client_gets {C : Crypto} {A : List Ds} {recOf : RR → Rec} (hf : Faithful recOf) {s0 s : Sys} {c : Call} (h0 : Fresh s0 A) (h : Sys.Reach C s0 s) (hw : ∀ c ∈ s.calls, WireMsg c.msg)
    (hc : c ∈ s.calls) {res : Except VErr Unit} (hres : c.prog = .ret res) {up : Msg → ClientInfo → Res} {q a : Msg} {ci : ClientInfo} (hq : q.question ≠ [])
    (hu : DnssecResolver.Upstream up q ci (.ok a)) (hrc : a.rcode = 0 ∨ a.rcode = 3) (hs : Sees recOf a c.msg) :
    ∃ m, Verif.DnssecResolver.resolve false (fun _ => verdictOf res) up q ci = some (.ok m) ∧
      (((∃ e, res = .error e ∧ e ≠ .insecure) ∧ m.rcode = 2 ∧ m.answer = [] ∧ m.ns = [] ∧ m.extra = [] ∧ m.ad = false ∧ m.question = q.question.take 1) ∨
       (res = .ok () ∧ m.ad = true ∧ View q a m ∧ ∀ r ∈ m.answer, r.rtype ≠ 46 → Proven C A recOf a.answer r c.start s.now) ∨
       (res = .error .insecure ∧ m.ad = a.ad ∧ View q a m ∧ ∃ (n z : Name), WfName n ∧ WfName z ∧ AncestorOrSelf z n ∧ InsecureAbove C A (present (canon z)) c.start s.now ∧
          ((∃ r ∈ a.answer, r.rtype ≠ 46 ∧ r.name = present n) ∨ (a.answer = [] ∧ ∃ x, a.question.head? = some x ∧ x.name = present n)))) := by
  obtain ⟨vd, hv⟩ : ∃ vd, verdictOf res = vd := ⟨_, rfl⟩
  match vd, hv with
  | .bogus, hv =>
    obtain ⟨m, h1, h2, _, _, h3, h4, h5, h6, h7⟩ := DnssecResolver.bogus_blocked (v := fun _ => verdictOf res) hq hu hrc hv
    refine ⟨m, h1, Or.inl ⟨?_, h2, h5, h6, h7, h3, h4⟩⟩
    cases res with
    | ok u => cases hv
    | error e => exact ⟨e, rfl, by rintro rfl; cases hv⟩
  | .valid, hv =>
    have hok : res = .ok () := by
      unfold verdictOf at hv
      split at hv <;> first | rfl | cases hv
    subst hok
    obtain ⟨m, h1, h2, h3⟩ := DnssecResolver.valid_shown (logOnly := false) (v := fun _ => verdictOf (.ok ())) hq hu hrc hv
    refine ⟨m, h1, Or.inr (Or.inl ⟨rfl, h3, h2, ?_⟩)⟩
    exact fun r hr ht => valid_proven hf h0 h hw hc hres hs (view_sub hq h2 r hr) ht
  | .insecure, hv =>
    have hin : res = .error .insecure := by
      unfold verdictOf at hv
      split at hv <;> first | rfl | cases hv
    subst hin
    obtain ⟨m, h1, h2, h3⟩ := DnssecResolver.unvalidated_shown (logOnly := false) (v := fun _ => verdictOf (.error .insecure)) hq hu (.inr (.inl hv))
    refine ⟨m, h1, Or.inr (Or.inr ⟨rfl, h3, h2, ?_⟩)⟩
    exact insecure_proven hf h0 h hw hc hres hs

private theorem preimage (f : RR → Rec) (ns : List RR) (l : List Rec) (h : ∀ r ∈ l, r ∈ ns.map f) : ∃ l' : List RR, l = l'.map f ∧ ∀ r ∈ l', r ∈ ns := by
  induction l with
  | nil => exact ⟨[], rfl, by simp⟩
  | cons r l ih =>
    obtain ⟨l', h1, h2⟩ := ih fun x hx => h x (List.mem_cons_of_mem _ hx)
    obtain ⟨y, hy, rfl⟩ := List.mem_map.mp (h r List.mem_cons_self)
    exact ⟨y :: l', by rw [h1]; rfl, by simp [hy]; exact h2⟩

/-- C90: and if the answer is empty and validated, records signed by a zone above the name in question, linked to the anchors, deny what was asked for. -/
theorem client_gets_denial {C : Crypto} {A : List Ds} {recOf : RR → Rec} (hf : Faithful recOf) {s0 s : Sys} {c : Call} (h0 : Fresh s0 A) (h : Sys.Reach C s0 s) (hw : ∀ c ∈ s.calls, WireMsg c.msg)
    (hc : c ∈ s.calls) (hres : c.prog = .ret (.ok ())) {a : Msg} (hs : Sees recOf a c.msg) (he : a.answer = []) :
    ∃ (x : Question) (q : Name) (l : List RR), a.question.head? = some x ∧ WfName q ∧ x.name = present q
      ∧ (∀ r ∈ l, r ∈ a.ns ∧ r.rtype ≠ 46 ∧ ∃ (sig : Sig) (z : Name), Rec.rrsig sig ∈ a.ns.map recOf ∧ WfName z ∧ AncestorOrSelf z q ∧ SignedByZone C A (present (canon z)) sig ((setOf a.ns r).map recOf) c.start s.now)
      ∧ (nsecProvesDenial (nsecsOf (l.map recOf)) (present (canon q)) x.qtype a.rcode = true ∨ nsec3ProvesDenial C.lib (nsec3sOf (l.map recOf)) (present (canon q)) x.qtype a.rcode = true) := by
  obtain ⟨q, qtype, l, hwq, hq, hl, hd⟩ := Verif.Props.Dnssec.validated_denial_signed h0 h hw hc hres (by rw [hs.answer, he]; rfl)
  rw [hs.question] at hq
  cases hh : a.question.head? with
  | none => rw [hh] at hq; cases hq
  | some x =>
    rw [hh] at hq
    simp only [Option.map_some, Option.some.injEq, Prod.mk.injEq] at hq
    obtain ⟨l', hl', hsub⟩ := preimage recOf a.ns l (by intro r hr; rw [← hs.ns]; exact (hl r hr).1)
    subst hl'
    refine ⟨x, q, l', rfl, hwq, hq.1, ?_, by rw [hq.2, ← hs.rcode]; exact hd⟩
    intro r hr
    obtain ⟨_, sig, z, h1, h2, _, h4, h5, h6⟩ := hl (recOf r) (List.mem_map_of_mem hr)
    have hns : r.rtype ≠ 46 := by
      intro ht
      obtain ⟨sg, hsg⟩ := hf.sig r ht
      unfold rrset at h5
      rw [hsg] at h5
      simp [isSig] at h5
    refine ⟨hsub r hr, hns, sig, z, by rw [← hs.ns]; exact h1, h2, h4, ?_⟩
    rw [hs.ns, set_eq hf a.ns r hns] at h6
    exact h6

/-- C90: if the resolver behind does not set the AD bit itself, a client that sees it has got only records that are proven. -/
theorem ad_means_proven {C : Crypto} {A : List Ds} {recOf : RR → Rec} (hf : Faithful recOf) {s0 s : Sys} {c : Call} (h0 : Fresh s0 A) (h : Sys.Reach C s0 s) (hw : ∀ c ∈ s.calls, WireMsg c.msg)
    (hc : c ∈ s.calls) {res : Except VErr Unit} (hres : c.prog = .ret res) {up : Msg → ClientInfo → Res} {q a m : Msg} {ci : ClientInfo} (hq : q.question ≠ [])
    (hu : DnssecResolver.Upstream up q ci (.ok a)) (hrc : a.rcode = 0 ∨ a.rcode = 3) (hs : Sees recOf a c.msg) (had : a.ad = false)
    (hm : Verif.DnssecResolver.resolve false (fun _ => verdictOf res) up q ci = some (.ok m)) (hmad : m.ad = true) :
    ∀ r ∈ m.answer, r.rtype ≠ 46 → Proven C A recOf a.answer r c.start s.now := by
  obtain ⟨m', h1, h2⟩ := client_gets hf h0 h hw hc hres hq hu hrc hs
  rw [hm] at h1
  cases h1
  rcases h2 with h2 | h2 | h2
  · rw [h2.2.2.2.2.2.1] at hmad; cases hmad
  · exact h2.2.2.2
  · rw [h2.2.1, had] at hmad; cases hmad

/-- C90: under the usual assumptions on the cryptography and on those who run the zones, records that are proven were published by a zone at or above their name: with the
other records of this name and type, none missing and none added. -/
theorem proven_is_published {C : Crypto} {A : List Ds} {Own : Str → Key → Prop} {Pub : Str → List Rec → Prop} (hh : Verif.Props.Dnssec.Honest C A Own Pub) {recOf : RR → Rec} {l : List RR} {r : RR} {t0 t1 : Int}
    (h : Proven C A recOf l r t0 t1) : ∃ z n : Name, r.name = present n ∧ AncestorOrSelf z n ∧ Pub (present (canon z)) ((setOf l r).map recOf) := by
  obtain ⟨sig, z, n, _, hz, hn, hrn, hanc, hx⟩ := h
  exact ⟨z, n, hrn, hanc, Verif.Props.Dnssec.signedByZone_published hh hx⟩

/-- C90 in a whole configuration: an element that validates, in front of any other elements. Whenever these may answer with `a`, and a validation of `a` ended with `res`, the
client may get what `client_gets` says. -/
theorem tree_gets {H : Type} [DecidableEq H] {X : Nat → Msg → ClientInfo → Option Res → Prop} {t : Composition.Tree H}
    {C : Crypto} {A : List Ds} {recOf : RR → Rec} (hf : Faithful recOf) {s0 s : Sys} {c : Call} (h0 : Fresh s0 A) (h : Sys.Reach C s0 s) (hw : ∀ c ∈ s.calls, WireMsg c.msg)
    (hc : c ∈ s.calls) {res : Except VErr Unit} (hres : c.prog = .ret res) {q q' a : Msg} {ci : ClientInfo} (hq : q.question ≠ []) (hq' : DnssecView.Asks q q')
    (hu : Composition.Replies X t q' ci (some (.ok a))) (hrc : a.rcode = 0 ∨ a.rcode = 3) (hs : Sees recOf a c.msg) :
    ∃ m, Composition.Replies X (.dnssec false t) q ci (some (.ok m)) ∧
      (((∃ e, res = .error e ∧ e ≠ .insecure) ∧ m.rcode = 2 ∧ m.answer = [] ∧ m.ns = [] ∧ m.extra = [] ∧ m.ad = false ∧ m.question = q.question.take 1) ∨
       (res = .ok () ∧ m.ad = true ∧ View q a m ∧ ∀ r ∈ m.answer, r.rtype ≠ 46 → Proven C A recOf a.answer r c.start s.now) ∨
       (res = .error .insecure ∧ m.ad = a.ad ∧ View q a m)) := by
  obtain ⟨m, h1, h2⟩ := client_gets hf h0 h hw hc hres (up := fun _ _ => .ok a) (ci := ci) hq ⟨q', hq', rfl⟩ hrc hs
  rw [DnssecResolver.asks_unique hq'] at hu
  refine ⟨m, ?_, ?_⟩
  · have := Composition.RepliesIn.dnssec (logOnly := false) (v := fun _ => verdictOf res) hu fun _ _ => trivial
    simp only [Option.bind_some] at this
    rw [h1] at this
    exact this
  · rcases h2 with h2 | h2 | ⟨h2, h3, h4, _⟩
    · exact .inl h2
    · exact .inr (.inl h2)
    · exact .inr (.inr ⟨h2, h3, h4⟩)

end Verif.Props.DnssecJoin
