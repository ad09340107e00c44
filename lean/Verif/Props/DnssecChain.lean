import Verif.Lemmas.Dnssec
import Verif.Props.DnssecNsec3
/-
C47: what `Validate` accepts.

`Sys.Reach C s0 s`: any number of validations run interleaved on one store, with an upstream resolver that answers anything, maps iterated in any order,
and any clock that does not go backwards. `s0` is a validator whose store has nothing but the anchors `A`.
-/
set_option linter.unusedVariables false
namespace Verif.Props.Dnssec
open Verif Verif.Dnssec Verif.DnssecSpec

/-- A new validator with the DS records `A` as anchors of the root (and any others) -/
structure Fresh (s0 : Sys) (A : List Ds) : Prop where
  keys : ∀ z : Str, s0.store.keys z = none
  ds : ∀ x : DsSet, s0.store.ds root = some x → ∀ d ∈ x.records, d ∈ A
  calls : s0.calls = []

theorem Fresh.ok {C : Crypto} {s0 : Sys} {A : List Ds} (h : Fresh s0 A) : StoreOk C A s0.store s0.now :=
  ⟨fun z ks hz => by rw [h.keys z] at hz; simp at hz, h.ds⟩

/-- The record set a record belongs to: those with the same name and type -/
def rrset (l : List Rec) (r : Rec) : List Rec :=
  l.filter fun x => !isSig x && decide (canonicalName x.hdr.name = canonicalName r.hdr.name) && decide (x.rtype = r.rtype)

theorem rrset_eq (l : List Rec) (r : Rec) : rrset l r = rrsetOf l (rkey r) := by
  unfold rrset rrsetOf
  apply List.filter_congr
  intro x _
  simp only [rkey, Prod.mk.injEq, Bool.decide_and, Bool.and_assoc]

theorem ancestor_of_subdomain {z n : Name} (hz : WfName z) (hn : WfName n)
    (h : isSubDomain (canonicalName (present z)) (canonicalName (present n)) = true) : AncestorOrSelf z n := by
  rw [canonicalName_present, canonicalName_present, isSubDomain_present (wf_canon hz) (wf_canon hn)] at h
  unfold AncestorOrSelf at *
  rwa [canon_idem, canon_idem] at h

/-- C47: if a validation of a response with an answer succeeds, then every record of the answer, other than signatures, is in a record set for which
the answer has a signature that names as its signer a zone `z` at or above the owner `n`, made with a zone key of `z` that is linked by signed DS and
DNSKEY records to the trust anchors, and in its validity period at the time it was checked, which was during the validation. -/
theorem validated_answers_signed {C : Crypto} {A : List Ds} {s0 s : Sys} {c : Call} (h0 : Fresh s0 A) (h : Sys.Reach C s0 s) (hw : ∀ c ∈ s.calls, WireMsg c.msg)
    (hc : c ∈ s.calls) (hok : c.prog = .ret (.ok ())) (hne : c.msg.answer ≠ []) {r : Rec} (hr : r ∈ c.msg.answer) (hrs : ∀ s : Sig, r ≠ .rrsig s) :
    ∃ (sig : Sig) (z n : Name), Rec.rrsig sig ∈ c.msg.answer ∧ WfName z ∧ WfName n ∧ r.hdr.name = present n ∧ sig.signer = present z ∧ AncestorOrSelf z n
      ∧ SignedByZone C A (present (canon z)) sig (rrset c.msg.answer r) c.start s.now := by
  have hs := reach_ok h0.ok h0.calls h hw
  obtain ⟨_, hp⟩ := hs.calls c hc
  rw [hok] at hp
  rcases hp s.now (Int.le_refl _) with ⟨_, hk⟩ | ⟨he, _⟩
  · have hsig : isSig r = false := by cases r <;> first | rfl | exact absurd rfl (hrs _)
    have hkey : rkey r ∈ rrsetKeys c.msg.answer := by
      unfold rrsetKeys
      rw [List.mem_eraseDups]
      exact List.mem_map.mpr ⟨r, List.mem_filter.mpr ⟨hr, by simp [hsig]⟩, rfl⟩
    obtain ⟨sig, h1, h2, h3⟩ := hk (rkey r) hkey
    obtain ⟨hm, _, _⟩ := sigsOf_mem h1
    obtain ⟨n, hn, hrn⟩ := (hw c hc).owner r (by simp [hr])
    obtain ⟨z, hz, hzn⟩ := (hw c hc).signer sig (by simp [hm])
    refine ⟨sig, z, n, hm, hz, hn, hrn, hzn, ?_, ?_⟩
    · have h2 : isSubDomain (canonicalName sig.signer) (canonicalName r.hdr.name) = true := h2
      rw [hzn, hrn] at h2
      exact ancestor_of_subdomain hz hn h2
    · rw [rrset_eq, ← canonicalName_present, ← hzn]; exact h3
  · exact absurd he hne

/-- C47: if a validation of a response without an answer succeeds, then records of its authority section deny the existence of the name or the type in
question (what that says is in C49 and C50), and each of them is in a set signed, as above, by a zone at or above the name in question. -/
theorem validated_denial_signed {C : Crypto} {A : List Ds} {s0 s : Sys} {c : Call} (h0 : Fresh s0 A) (h : Sys.Reach C s0 s) (hw : ∀ c ∈ s.calls, WireMsg c.msg)
    (hc : c ∈ s.calls) (hok : c.prog = .ret (.ok ())) (he : c.msg.answer = []) :
    ∃ (q : Name) (qtype : Nat) (l : List Rec), WfName q ∧ c.msg.question = some (present q, qtype)
      ∧ (∀ r ∈ l, r ∈ c.msg.ns ∧ ∃ (sig : Sig) (z : Name), Rec.rrsig sig ∈ c.msg.ns ∧ WfName z ∧ sig.signer = present z ∧ AncestorOrSelf z q
          ∧ r ∈ rrset c.msg.ns r ∧ SignedByZone C A (present (canon z)) sig (rrset c.msg.ns r) c.start s.now)
      ∧ (nsecProvesDenial (nsecsOf l) (present (canon q)) qtype c.msg.rcode = true ∨ nsec3ProvesDenial C.lib (nsec3sOf l) (present (canon q)) qtype c.msg.rcode = true) := by
  have hs := reach_ok h0.ok h0.calls h hw
  obtain ⟨_, hp⟩ := hs.calls c hc
  rw [hok] at hp
  rcases hp s.now (Int.le_refl _) with ⟨hne, _⟩ | ⟨_, name, qtype, l, hq, hl, hd⟩
  · exact absurd he hne
  · obtain ⟨q, hwq, hqn⟩ := (hw c hc).question (name, qtype) hq
    simp only at hqn
    subst hqn
    refine ⟨q, qtype, l, hwq, hq, ?_, by rw [← canonicalName_present]; exact hd⟩
    intro r hr
    obtain ⟨k, hk, sig, hsig, hsd, hsz⟩ := hl r hr
    obtain ⟨hrn, hrs, hrk⟩ := rrsetOf_mem hk
    obtain ⟨hm, _, _⟩ := sigsOf_mem hsig
    obtain ⟨z, hz, hzn⟩ := (hw c hc).signer sig (by simp [hm])
    rw [← hrk] at hk hsz
    refine ⟨hrn, sig, z, hm, hz, hzn, ?_, ?_, ?_⟩
    · rw [hzn] at hsd; exact ancestor_of_subdomain hz hwq hsd
    · rw [rrset_eq]; exact hk
    · rw [rrset_eq, ← canonicalName_present, ← hzn]; exact hsz

/-- A record set of the answer is at the name, or the name is in question and there is no answer -/
def Concerns (m : SMsg) (n : Name) : Prop :=
  (∃ r ∈ m.answer, (∀ s : Sig, r ≠ .rrsig s) ∧ r.hdr.name = present n) ∨ (m.answer = [] ∧ ∃ t : Nat, m.question = some (present n, t))

/-- C47: if a validation ends with "insecure delegation", then one of the names concerned, or a name above it, is a delegation for which a record signed
by its parent zone, which is linked to the trust anchors, says that there is no DS record. -/
theorem insecure_is_proven {C : Crypto} {A : List Ds} {s0 s : Sys} {c : Call} (h0 : Fresh s0 A) (h : Sys.Reach C s0 s) (hw : ∀ c ∈ s.calls, WireMsg c.msg)
    (hc : c ∈ s.calls) (hi : c.prog = .ret (.error .insecure)) :
    ∃ (n z : Name), WfName n ∧ WfName z ∧ Concerns c.msg n ∧ AncestorOrSelf z n ∧ InsecureAbove C A (present (canon z)) c.start s.now := by
  have hs := reach_ok h0.ok h0.calls h hw
  obtain ⟨_, hp⟩ := hs.calls c hc
  rw [hi] at hp
  rcases (hp s.now (Int.le_refl _)).2 rfl with ⟨hne, r, hr, hrs, hx⟩ | ⟨he, name, qtype, hq, hx⟩
  · obtain ⟨n, hn, hrn⟩ := (hw c hc).owner r (by simp [hr])
    have hcon : Concerns c.msg n := .inl ⟨r, hr, by intro s hs; rw [hs] at hrs; simp [isSig] at hrs, hrn⟩
    rcases hx with hx | ⟨sig, hsig, hsd, hx⟩
    · refine ⟨n, n, hn, hn, hcon, List.suffix_refl _, ?_⟩
      rwa [hrn, canonicalName_present] at hx
    · obtain ⟨z, hz, hzn⟩ := (hw c hc).signer sig (by simp [hsig])
      refine ⟨n, z, hn, hz, hcon, ?_, ?_⟩
      · rw [hzn, hrn] at hsd; exact ancestor_of_subdomain hz hn hsd
      · rwa [hzn, canonicalName_present] at hx
  · obtain ⟨q, hwq, hqn⟩ := (hw c hc).question (name, qtype) hq
    simp only at hqn
    subst hqn
    refine ⟨q, q, hwq, hwq, .inr ⟨he, qtype, hq⟩, List.suffix_refl _, ?_⟩
    rwa [canonicalName_present] at hx

/-- C47: without an anchor nothing is trusted -/
theorem no_anchor_nothing_trusted {C : Crypto} {z : Str} {keys : List Key} {a b : Int} : ¬ Trusted C [] z keys a b := by
  intro h
  induction h with
  | root hD hk =>
    obtain ⟨k, s, t, _, _, ⟨d, hd, _⟩, _⟩ := hk
    exact absurd (hD d hd) (by simp)
  | child _ _ _ _ _ _ _ _ _ ih => exact ih

/-- C47: a validator without an anchor for the root accepts no record (but see `only_signatures_accepted`), no denial, and no insecure delegation. -/
theorem no_anchor_fails_closed {C : Crypto} {s0 s : Sys} {c : Call} (h0 : Fresh s0 []) (h : Sys.Reach C s0 s) (hw : ∀ c ∈ s.calls, WireMsg c.msg) (hc : c ∈ s.calls) :
    (c.prog = .ret (.ok ()) → c.msg.answer ≠ [] ∧ ∀ r ∈ c.msg.answer, ∃ s : Sig, r = .rrsig s) ∧ c.prog ≠ .ret (.error .insecure) := by
  have hno : ∀ {z : Str} {s' : Sig} {l : List Rec} {a b : Int}, ¬ SignedByZone C [] z s' l a b := by
    rintro z s' l a b ⟨keys, k, t, ⟨a', b', hT, _⟩, _⟩
    exact no_anchor_nothing_trusted hT
  constructor
  · intro hok
    by_cases he : c.msg.answer = []
    · exfalso
      obtain ⟨q, qtype, l, _, _, hl, hd⟩ := validated_denial_signed h0 h hw hc hok he
      have hle : l = [] := by
        cases l with
        | nil => rfl
        | cons r rs => obtain ⟨_, sig, z, _, _, _, _, _, hx⟩ := hl r (by simp); exact absurd hx hno
      subst hle
      rcases hd with hd | hd
      · exact (nsec_denial_cases hd).1 rfl
      · exact (nsec3_denial_cases hd).1 rfl
    · refine ⟨he, ?_⟩
      intro r hr
      by_cases hsig : ∃ s : Sig, r = .rrsig s
      · exact hsig
      · obtain ⟨sig, z, n, _, _, _, _, _, _, hx⟩ := validated_answers_signed h0 h hw hc hok he hr (fun s hs => hsig ⟨s, hs⟩)
        exact absurd hx hno
  · intro hi
    obtain ⟨n, z, _, _, _, _, z', _, p, s', l, r, _, hx, _⟩ := insecure_is_proven h0 h hw hc hi
    exact hno hx

/-- C47: every validation comes to a verdict of the code; the bound on the recursion in the model is never reached. -/
theorem chain_terminates {C : Crypto} {A : List Ds} {s0 s : Sys} {c : Call} (h0 : Fresh s0 A) (h : Sys.Reach C s0 s) (hw : ∀ c ∈ s.calls, WireMsg c.msg) (hc : c ∈ s.calls) :
    c.prog ≠ .ret (.error .outOfFuel) := by
  intro hi
  have hs := reach_ok h0.ok h0.calls h hw
  obtain ⟨_, hp⟩ := hs.calls c hc
  rw [hi] at hp
  exact (hp s.now (Int.le_refl _)).1 rfl

/-! ### What this means if zones are honest -/

/-- `Own z k`: `k` is a key of the zone `z`; `Pub z l`: the zone `z` published (signed) the record set `l`. The assumptions are
the usual ones on the cryptography and on those who run the zones: -/
structure Honest (C : Crypto) (A : List Ds) (Own : Str → Key → Prop) (Pub : Str → List Rec → Prop) : Prop where
  /-- the anchors are digests of keys of the root -/
  anchor : ∀ k : Key, lower k.hdr.name = root → HasDs C k A → Own root k
  /-- what is signed with a key of a zone was published by the zone -/
  unforged : ∀ (z : Str) (k : Key) (s : Sig) (l : List Rec), Own z k → C.check s k l = true → Pub z l
  /-- a published DS record is the digest of a key of the zone whose name is in the key (the digest includes this name). This is a lot to ask:
  see `ds_owner_ignored`. -/
  delegation : ∀ (z : Str) (D : List Ds) (k : Key), Pub z (D.map .ds) → HasDs C k D → Own (lower k.hdr.name) k
  /-- a published DNSKEY record is a key of the zone -/
  keys : ∀ (z : Str) (keys : List Key) (k : Key), Pub z (keys.map .dnskey) → k ∈ keys → Own z k

theorem hasDs_mono {C : Crypto} {k : Key} {D A : List Ds} (h : ∀ d ∈ D, d ∈ A) (hd : HasDs C k D) : HasDs C k A := by
  obtain ⟨d, h1, h2⟩ := hd
  exact ⟨d, h d h1, h2⟩

theorem trusted_own {C : Crypto} {A : List Ds} {Own : Str → Key → Prop} {Pub : Str → List Rec → Prop} (hh : Honest C A Own Pub) {z : Str} {keys : List Key} {a b : Int}
    (h : Trusted C A z keys a b) : ∀ k ∈ keys, Own z k := by
  induction h with
  | root hD hk =>
    obtain ⟨k, s, t, hk1, hk2, hk3, hk4, hk5, hta, htb, hsig⟩ := hk
    have ho := hh.anchor k (hsig.signer.trans hk4) (hasDs_mono hD hk3)
    exact fun k' hk' => hh.keys _ _ k' (hh.unforged _ k s _ ho hsig.crypto) hk'
  | child hz hp hu hpk hf hta htb hs hk ih =>
    obtain ⟨k, s', t', hk1, hk2, hk3, hk4, hk5, hta', htb', hsig⟩ := hk
    have hpub := hh.unforged _ _ _ _ (ih _ hpk) hs.crypto
    have ho := hh.delegation _ _ k hpub hk3
    rw [hsig.signer, hk4] at ho
    exact fun k' hk' => hh.keys _ _ k' (hh.unforged _ k s' _ ho hsig.crypto) hk'

theorem signedByZone_published {C : Crypto} {A : List Ds} {Own : Str → Key → Prop} {Pub : Str → List Rec → Prop} (hh : Honest C A Own Pub) {z : Str} {s : Sig}
    {l : List Rec} {a b : Int} (h : SignedByZone C A z s l a b) : Pub z l := by
  obtain ⟨keys, k, t, ⟨a', b', hT, _⟩, hk, _, _, _, hsig⟩ := h
  exact hh.unforged z k s l (trusted_own hh hT k hk) hsig.crypto

/-- C47: with honest zones and sound cryptography, a validated answer consists of record sets that were published by a zone at or above their names. -/
theorem validated_is_published {C : Crypto} {A : List Ds} {Own : Str → Key → Prop} {Pub : Str → List Rec → Prop} (hh : Honest C A Own Pub) {s0 s : Sys} {c : Call}
    (h0 : Fresh s0 A) (h : Sys.Reach C s0 s) (hw : ∀ c ∈ s.calls, WireMsg c.msg)
    (hc : c ∈ s.calls) (hok : c.prog = .ret (.ok ())) (hne : c.msg.answer ≠ []) {r : Rec} (hr : r ∈ c.msg.answer) (hrs : ∀ s : Sig, r ≠ .rrsig s) :
    ∃ z n : Name, WfName z ∧ WfName n ∧ r.hdr.name = present n ∧ AncestorOrSelf z n ∧ Pub (present (canon z)) (rrset c.msg.answer r) := by
  obtain ⟨sig, z, n, _, hz, hn, hrn, _, hanc, hx⟩ := validated_answers_signed h0 h hw hc hok hne hr hrs
  exact ⟨z, n, hz, hn, hrn, hanc, signedByZone_published hh hx⟩

theorem mem_nsecsOf {l : List Rec} {n : Nsec} : n ∈ nsecsOf l ↔ Rec.nsec n ∈ l := by
  unfold nsecsOf
  rw [List.mem_filterMap]
  constructor
  · rintro ⟨r, hr, he⟩
    cases r <;> simp only [reduceCtorEq] at he
    simp only [Option.some.injEq] at he
    subst he; exact hr
  · intro h; exact ⟨_, h, rfl⟩

theorem mem_nsec3sOf {l : List Rec} {n : Nsec3} : n ∈ nsec3sOf l ↔ Rec.nsec3 n ∈ l := by
  unfold nsec3sOf
  rw [List.mem_filterMap]
  constructor
  · rintro ⟨r, hr, he⟩
    cases r <;> simp only [reduceCtorEq] at he
    simp only [Option.some.injEq] at he
    subst he; exact hr
  · intro h; exact ⟨_, h, rfl⟩

/-- C47 with C49 and C50: suppose zones are honest, and what the zone `Z` publishes in NSEC and NSEC3 records is true of it. If a response without an
answer is validated, the name in question is in `Z`, and all signatures in the response are in the name of `Z`, then `Z` has no record of the type in
question to answer with. (NSEC3: without opt-out, and where the hash tells names apart. Root zone: without a wildcard at the root. The last
two conditions on the records are about the library's `Cover`, see C50.) -/
theorem validated_denial_true {C : Crypto} {A : List Ds} {Own : Str → Key → Prop} {Pub : Str → List Rec → Prop} (hh : Honest C A Own Pub) {s0 s : Sys} {c : Call}
    (h0 : Fresh s0 A) (h : Sys.Reach C s0 s) (hw : ∀ c ∈ s.calls, WireMsg c.msg) (hc : c ∈ s.calls) (hok : c.prog = .ret (.ok ())) (he : c.msg.answer = [])
    {Z : Zone} {q : Name} {t : Nat} (hq : c.msg.question = some (present q, t)) (hz : InZone Z q)
    (hsig : ∀ sig : Sig, Rec.rrsig sig ∈ c.msg.ns → canonicalName sig.signer = present Z.apex)
    (htrue : ∀ l : List Rec, Pub (present Z.apex) l → ∀ r ∈ l, (∀ n : Nsec, r = .nsec n → NsecTrue Z n) ∧ (∀ n : Nsec3, r = .nsec3 n → Nsec3True C.lib Z n))
    (hroot : Z.apex = [] → Z.types [star] = [])
    (hns : ∀ n : Nsec3, Rec.nsec3 n ∈ c.msg.ns → n.flags % 2 = 0)
    (hcol : ∀ l : List Nsec3, (∀ n ∈ l, Rec.nsec3 n ∈ c.msg.ns) → NoCollision C.lib Z l q ∧ NoMatch C.lib l q) :
    ¬ Z.HasType q t := by
  obtain ⟨q', t', l, hwq, hq', hl, hd⟩ := validated_denial_signed h0 h hw hc hok he
  rw [hq] at hq'
  simp only [Option.some.injEq, Prod.mk.injEq] at hq'
  obtain ⟨hqq, rfl⟩ := hq'
  have hqq := present_inj hz.wf hwq hqq
  subst hqq
  rw [hz.can] at hd
  have htr : ∀ r ∈ l, (∀ n : Nsec, r = .nsec n → NsecTrue Z n) ∧ (∀ n : Nsec3, r = .nsec3 n → Nsec3True C.lib Z n) := by
    intro r hr
    obtain ⟨_, sig, z, hm, _, hzn, _, hrm, hx⟩ := hl r hr
    have hzz := hsig sig hm
    rw [hzn, canonicalName_present] at hzz
    rw [hzz] at hx
    exact htrue _ (signedByZone_published hh hx) r hrm
  rcases hd with hd | hd
  · have hn : ∀ n ∈ nsecsOf l, NsecTrue Z n := fun n hn => (htr _ (mem_nsecsOf.mp hn)).1 n rfl
    obtain ⟨_, ⟨_, hx⟩ | ⟨_, hx⟩⟩ := nsec_denial_cases hd
    · exact nsec_nxdomain_sound hn hz hroot hx t
    · exact (nsec_nodata_sound hn hz hx).1
  · have hn : ∀ n ∈ nsec3sOf l, Nsec3True C.lib Z n := fun n hn => (htr _ (mem_nsec3sOf.mp hn)).2 n rfl
    have hin : ∀ n ∈ nsec3sOf l, Rec.nsec3 n ∈ c.msg.ns := fun n hn => (hl _ (mem_nsec3sOf.mp hn)).1
    have hopt : ∀ n ∈ nsec3sOf l, n.flags % 2 = 0 := fun n hn => hns n (hin n hn)
    obtain ⟨hc1, hc2⟩ := hcol _ hin
    obtain ⟨_, ⟨_, hx⟩ | ⟨_, hx⟩⟩ := nsec3_denial_cases hd
    · exact nsec3_nxdomain_sound hn hz hc1 hc2 hopt hx t
    · exact (nsec3_nodata_sound hn hz hc1 hopt hx).1

/-! ### What `Validate` does not look at -/

/-- Finding (C47): if there are records in the answer section, nothing else in the response matters: neither the question nor the response code nor the
authority section. So a signed answer to another question is validated, and one that was expanded from a wildcard is, without a proof that the name itself does not exist. -/
theorem only_answer_matters {C : Crypto} {m : SMsg} (h : m.answer ≠ []) (rcode : Nat) (q : Option (Str × Nat)) (ns : List Rec) :
    validate C { m with rcode := rcode, question := q, ns := ns } = validate C m := by
  unfold validate
  rw [if_neg h, if_neg h]

/-- Finding (C47): a response whose answer section has only signatures, valid or not, is validated, whatever its response code: a forged NXDOMAIN or empty response
needs no more than a made up RRSIG record in the answer section. -/
theorem only_signatures_accepted {C : Crypto} {m : SMsg} (hne : m.answer ≠ []) (h : ∀ r ∈ m.answer, ∃ s : Sig, r = .rrsig s)
    (R : Nat → Str → Nat → Reply) (K : Nat → Int) (P : List RKey → List RKey) (hP : P [] = []) (st : Store) (q c : Nat) :
    run R K P (validate C m) st q c = some (.ok (), st) := by
  have hk : rrsetKeys m.answer = [] := by
    unfold rrsetKeys
    have : (m.answer.filter fun r => !isSig r) = [] := by
      rw [List.filter_eq_nil_iff]
      intro r hr
      obtain ⟨s, rfl⟩ := h r hr
      simp [isSig]
    rw [this]; rfl
  unfold validate
  rw [if_neg hne, hk]
  simp only [run, hP, validateSets]

example : run (fun _ _ _ => .err) (fun _ => 0) id
    (validate ⟨⟨fun _ _ _ _ => [], false⟩, fun _ => 0, fun _ _ => none, fun _ _ => false, fun _ _ _ => false⟩
      { rcode := 3, question := some (str "www.example.com.", 1), answer := [.rrsig { hdr := { name := str "x." }, covered := 1, signer := str "y." }] })
    Store.empty 0 0 = some (.ok (), Store.empty) :=
  only_signatures_accepted (by simp) (by simp) _ _ _ rfl _ _ _

/-- Finding (C47): when the resolver returns no response and no error, as resolvers do for dropped queries, looking up keys panics. -/
theorem nil_response_panics {C : Crypto} {zone : Str} {R : Nat → Str → Nat → Reply} {K : Nat → Int} {P : List RKey → List RKey} {st : Store} {q c : Nat}
    (hR : R q (canonicalName (canonicalName zone)) typeDNSKEY = .none) (hst : st.keys (canonicalName (canonicalName zone)) = none) : run R K P (chain C zone) st q c = none := by
  unfold chain buildChain getDNSKEY lookupDNSKEY
  simp only [Prog.bind, run, hst, ne_eq, not_true_eq_false, or_self, if_false, hR]

end Verif.Props.Dnssec
