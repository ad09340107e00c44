import Verif.Lemmas.DnssecServes
import Verif.Props.DnssecChain
/-
C95: what is properly signed is accepted, and what is in an unsigned zone is found to be insecure, rather than bogus.

C47 is about what is accepted; a validator that accepts nothing would satisfy it. Here the world is honest (`Honest`): signed zones that are linked by DS
records up to the trust anchors, a resolver that passes on what they publish, and any number of validations at the same time on one store.
-/
set_option linter.unusedVariables false
namespace Verif.Props.DnssecServes
open Verif Verif.Dnssec Verif.DnssecSpec Verif.DnssecServes

variable {C : Crypto} {W : World} {s0 s : Sys} {c : Call}

/-- No validation panics. -/
theorem no_panic (hw : Honest C W) (h0 : Ready W s0) (h : W.Reach C s0 s) (hc : c ∈ s.calls) : c.prog ≠ .panic := by
  have := (reach_always (Q := fun _ _ => True) (fun m hm => validate_any hw hm) h0 h).2.2 c hc
  intro he
  rw [he] at this
  exact this.2

/-- C95: if every record set of the answer has a good signature of a signed zone at or above its name, then the validation accepts it, whatever other signatures
there are, in whatever order the sets are looked at, and whatever other validations go on. -/
theorem signed_answer_accepted (hw : Honest C W) (h0 : Ready W s0) (h : W.Reach C s0 s) (hc : c ∈ s.calls) (hne : c.msg.answer ≠ [])
    (hs : ∀ r ∈ c.msg.answer, isRecord r = true → W.SignedSet C c.msg.answer r) {x : Except VErr Unit} (hx : c.prog = .ret x) : x = .ok () := by
  have := (reach_always (Q := fun m x => (m.answer ≠ [] ∧ ∀ r ∈ m.answer, isRecord r = true → W.SignedSet C m.answer r) → x = .ok ())
    (fun m hm => Always.imp (validate_any hw hm) fun h => validate_signed hw hm h.1 h.2) h0 h).2.2 c hc
  rw [hx] at this
  exact this.2 ⟨hne, hs⟩

/-- C95: if some of the sets are in unsigned zones, and the others properly signed, then the result is "insecure". -/
theorem unsigned_answer_insecure (hw : Honest C W) (h0 : Ready W s0) (h : W.Reach C s0 s) (hc : c ∈ s.calls)
    (hs : ∀ r ∈ c.msg.answer, isRecord r = true → W.SignedSet C c.msg.answer r ∨ W.UnsignedSet c.msg.answer r)
    (hu : ∃ r ∈ c.msg.answer, isRecord r = true ∧ W.UnsignedSet c.msg.answer r) {x : Except VErr Unit} (hx : c.prog = .ret x) : x = .error .insecure := by
  have := (reach_always (Q := fun m x => ((∀ r ∈ m.answer, isRecord r = true → W.SignedSet C m.answer r ∨ W.UnsignedSet m.answer r) ∧
      ∃ r ∈ m.answer, isRecord r = true ∧ W.UnsignedSet m.answer r) → x = .error .insecure)
    (fun m hm => Always.imp (validate_any hw hm) fun h => validate_unsigned hw hm h.1 h.2) h0 h).2.2 c hc
  rw [hx] at this
  exact this.2 ⟨hs, hu⟩

/-- C95: a response without an answer, for a name in an unsigned zone, with no records about what does not exist, is found to be insecure, too. If there are
such records, it may be accepted instead. -/
theorem unsigned_denial_insecure (hw : Honest C W) (h0 : Ready W s0) (h : W.Reach C s0 s) (hc : c ∈ s.calls) {q : Name} {t : Nat} (he : c.msg.answer = [])
    (hq : c.msg.question = some (present q, t)) (hwq : WfName q) (hb : W.BelowUnsigned q) {x : Except VErr Unit} (hx : c.prog = .ret x) :
    (x = .ok () ∨ x = .error .insecure) ∧ ((∀ r ∈ c.msg.ns, r.rtype ≠ 47 ∧ r.rtype ≠ 50) → x = .error .insecure) := by
  have := (reach_always (Q := fun m x => (m.answer = [] ∧ m.question = some (present q, t)) →
      (x = .ok () ∨ x = .error .insecure) ∧ ((∀ r ∈ m.ns, r.rtype ≠ 47 ∧ r.rtype ≠ 50) → x = .error .insecure))
    (fun m hm => Always.imp (validate_any hw hm) fun h => validate_below hw hm h.1 h.2 hwq hb) h0 h).2.2 c hc
  rw [hx] at this
  exact this.2 ⟨he, hq⟩

/-! ### Validations end -/

/-- A validation does not go on forever, whatever the resolver, the clock and other validations do. -/
theorem no_endless_validation (p : Prog (Except VErr Unit)) (f : Nat → Prog (Except VErr Unit)) (h0 : f 0 = p) :
    ¬ ∀ i, ∃ (st st' : Store) (t t' : Int), Dnssec.Step st t (f i) st' t' (f (i + 1)) := by
  suffices H : ∀ (p : Prog (Except VErr Unit)) (f : Nat → Prog (Except VErr Unit)), f 0 = p → (∀ i, ∃ (st st' : Store) (t t' : Int), Dnssec.Step st t (f i) st' t' (f (i + 1))) → False from
    H p f h0
  intro p
  induction p with
  | ret a => intro f h0 h; obtain ⟨_, _, _, _, h⟩ := h 0; rw [h0] at h; cases h
  | panic => intro f h0 h; obtain ⟨_, _, _, _, h⟩ := h 0; rw [h0] at h; cases h
  | clock k ih =>
    intro f h0 h
    obtain ⟨st, st', t, t', hs⟩ := h 0
    rw [h0] at hs
    generalize he : f (0 + 1) = p at hs
    cases hs with
    | clock _ => exact ih _ (fun i => f (i + 1)) he fun i => h (i + 1)
  | query n ty k ih =>
    intro f h0 h
    obtain ⟨st, st', t, t', hs⟩ := h 0
    rw [h0] at hs
    generalize he : f (0 + 1) = p at hs
    cases hs with
    | query r => exact ih _ (fun i => f (i + 1)) he fun i => h (i + 1)
  | order l k ih =>
    intro f h0 h
    obtain ⟨st, st', t, t', hs⟩ := h 0
    rw [h0] at hs
    generalize he : f (0 + 1) = p at hs
    cases hs with
    | order _ => exact ih _ (fun i => f (i + 1)) he fun i => h (i + 1)
  | getKeys z k ih =>
    intro f h0 h
    obtain ⟨st, st', t, t', hs⟩ := h 0
    rw [h0] at hs
    generalize he : f (0 + 1) = p at hs
    cases hs with
    | getKeys => exact ih _ (fun i => f (i + 1)) he fun i => h (i + 1)
  | putKeys z ks k ih =>
    intro f h0 h
    obtain ⟨st, st', t, t', hs⟩ := h 0
    rw [h0] at hs
    generalize he : f (0 + 1) = p at hs
    cases hs with
    | putKeys => exact ih (fun i => f (i + 1)) he fun i => h (i + 1)
  | getDS z k ih =>
    intro f h0 h
    obtain ⟨st, st', t, t', hs⟩ := h 0
    rw [h0] at hs
    generalize he : f (0 + 1) = p at hs
    cases hs with
    | getDS => exact ih _ (fun i => f (i + 1)) he fun i => h (i + 1)

/-- In this world every validation can be brought to its end, at any time. -/
theorem can_finish (hw : Honest C W) (hr : ∀ n t, ∃ r, W.reply n t r) (h0 : Ready W s0) (h : W.Reach C s0 s) (hn : s.now ≤ W.hi) {i : Nat} (hi : s.calls[i]? = some c) :
    ∃ (s' : Sys) (c' : Call) (x : Except VErr Unit), W.Reach C s0 s' ∧ s'.calls[i]? = some c' ∧ c'.msg = c.msg ∧ c'.prog = .ret x := by
  suffices H : ∀ (p : Prog (Except VErr Unit)) (s : Sys) (c : Call), W.Reach C s0 s → s.now ≤ W.hi → s.calls[i]? = some c → c.prog = p →
      ∃ (s' : Sys) (c' : Call) (x : Except VErr Unit), W.Reach C s0 s' ∧ s'.calls[i]? = some c' ∧ c'.msg = c.msg ∧ c'.prog = .ret x from H _ s c h hn hi rfl
  have go : ∀ (s : Sys) (c : Call) (st : Store) (p p' : Prog (Except VErr Unit)), W.Reach C s0 s → s.now ≤ W.hi → s.calls[i]? = some c → c.prog = p →
      Dnssec.Step s.store s.now p st s.now p' → (∀ n ty k, p = .query n ty k → ∃ r, W.reply n ty r ∧ p' = k r) →
      (∀ (s : Sys) (c : Call), W.Reach C s0 s → s.now ≤ W.hi → s.calls[i]? = some c → c.prog = p' →
        ∃ (s' : Sys) (c' : Call) (x : Except VErr Unit), W.Reach C s0 s' ∧ s'.calls[i]? = some c' ∧ c'.msg = c.msg ∧ c'.prog = .ret x) →
      ∃ (s' : Sys) (c' : Call) (x : Except VErr Unit), W.Reach C s0 s' ∧ s'.calls[i]? = some c' ∧ c'.msg = c.msg ∧ c'.prog = .ret x := by
    intro s c st p p' h hn hi hp hs hq ih
    subst hp
    have hlt : i < s.calls.length := by rw [List.getElem?_eq_some_iff] at hi; exact hi.1
    exact ih _ { c with prog := p' } (World.Reach.step h hi hs hn hq) hn (by simp [hlt]) rfl
  intro p
  induction p with
  | ret a => intro s c h hn hi hp; exact ⟨s, c, a, h, hi, rfl, hp⟩
  | panic => intro s c h hn hi hp; exact absurd hp (no_panic hw h0 h (List.mem_of_getElem? hi))
  | clock k ih =>
    intro s c h hn hi hp
    refine go s c s.store _ _ h hn hi hp (.clock (Int.le_refl _)) (fun n ty k' e => ?_) (ih _)
    cases e
  | query n ty k ih =>
    intro s c h hn hi hp
    obtain ⟨r, hr⟩ := hr n ty
    refine go s c s.store _ _ h hn hi hp (.query r) (fun n' ty' k' e => ?_) (ih _)
    cases e
    exact ⟨r, hr, rfl⟩
  | order l k ih =>
    intro s c h hn hi hp
    refine go s c s.store _ _ h hn hi hp (.order (.refl _)) (fun n ty k' e => ?_) (ih _)
    cases e
  | getKeys z k ih =>
    intro s c h hn hi hp
    refine go s c s.store _ _ h hn hi hp (.getKeys) (fun n ty k' e => ?_) (ih _)
    cases e
  | putKeys z ks k ih =>
    intro s c h hn hi hp
    refine go s c _ _ _ h hn hi hp (.putKeys) (fun n ty k' e => ?_) ih
    cases e
  | getDS z k ih =>
    intro s c h hn hi hp
    refine go s c s.store _ _ h hn hi hp (.getDS) (fun n ty k' e => ?_) (ih _)
    cases e

/-- Keys that are kept for a zone are used, without a question to the resolver, up to the last moment of their lifetime. -/
theorem kept_keys_used {st : Store} {lo : Int} {z : Name} {ks : KeySet} (hz : canon z = z) (hk : st.keys (present z) = some ks) (hne : ks.zsk ≠ [] ∨ ks.ksk ≠ []) :
    ∃ p, Dnssec.Step st lo (chain C (present z)) st lo p ∧
      ∀ (st' : Store) (now t : Int), now ≤ t → t ≤ ks.expiresAt → ∀ p', Dnssec.Step st' now p st' t p' ↔ p' = .ret (.ok (ks.zsk, ks.ksk)) := by
  unfold chain buildChain getDNSKEY
  simp only [(canon_present hz).eq, Prog.bind]
  refine ⟨_, .getKeys, ?_⟩
  rw [hk]
  intro st' now t hn ht p'
  simp only [Prog.bind]
  have e : ∀ {k : List Key × List Key → Prog (Except VErr (List Key × List Key))}, k (ks.zsk, ks.ksk) = .ret (.ok (ks.zsk, ks.ksk)) →
      (if t > ks.expiresAt then (Prog.ret ([], []) : Prog (List Key × List Key)) else Prog.ret (ks.zsk, ks.ksk)).bind k = .ret (.ok (ks.zsk, ks.ksk)) := by
    intro k hk
    rw [if_neg (by omega)]
    exact hk
  constructor
  · intro hs
    cases hs
    exact e (if_pos hne)
  · rintro rfl
    have : ∀ {k : Int → Prog (Except VErr (List Key × List Key))}, k t = .ret (.ok (ks.zsk, ks.ksk)) → Dnssec.Step st' now (.clock k) st' t (.ret (.ok (ks.zsk, ks.ksk))) :=
      fun h => h ▸ .clock hn
    exact this (e (if_pos hne))

/-- DS records that are kept (the trust anchors) are used up to the last moment of their lifetime, and not any more after that. -/
theorem kept_anchors_used {st : Store} {lo : Int} {z : Name} {ds : DsSet} (hz : canon z = z) (hk : st.ds (present z) = some ds) :
    ∃ p, Dnssec.Step st lo (getDS (present z)) st lo p ∧
      ∀ (st' : Store) (now t : Int), now ≤ t → ∀ p', Dnssec.Step st' now p st' t p' ↔ p' = .ret (if t ≤ ds.expiresAt then ds.records else []) := by
  unfold getDS
  simp only [(canon_present hz).eq]
  refine ⟨_, .getDS, ?_⟩
  rw [hk]
  intro st' now t hn p'
  have e : (if t > ds.expiresAt then (Prog.ret [] : Prog (List Ds)) else Prog.ret ds.records) = .ret (if t ≤ ds.expiresAt then ds.records else []) := by
    by_cases h : t ≤ ds.expiresAt
    · rw [if_pos h, if_neg (by omega)]
    · rw [if_neg h, if_pos (by omega)]
  constructor
  · intro hs
    cases hs
    exact e
  · rintro rfl
    have : ∀ {k : Int → Prog (List Ds)} {x : Prog (List Ds)}, k t = x → Dnssec.Step st' now (.clock k) st' t x := fun h => h ▸ .clock hn
    exact this e

/-! ### What is not accepted although it is properly signed -/

/-- Keys that sign zone data must have the flags 256. A zone with a single key, of flags 257, that signs everything, is not accepted. -/
theorem single_key_rejected {A : List Ds} (h0 : Props.Dnssec.Fresh s0 A) (h : Sys.Reach C s0 s) (hw : ∀ c ∈ s.calls, WireMsg c.msg) (hc : c ∈ s.calls)
    {r : Rec} (hr : r ∈ c.msg.answer) (hrs : isRecord r = true)
    (hk : ∀ (sig : Sig) (k : Key) (t : Int), Rec.rrsig sig ∈ c.msg.answer → SignedBy C sig k (setIn c.msg.answer r) t → k.flags ≠ 256) : c.prog ≠ .ret (.ok ()) := by
  intro hok
  obtain ⟨sig, z, n, h1, _, _, _, _, _, keys, k, t, _, _, hf, _, _, hs⟩ := Props.Dnssec.validated_answers_signed h0 h hw hc hok (List.ne_nil_of_mem hr) hr
    (fun s e => by rw [e] at hrs; cases hrs)
  rw [Props.Dnssec.rrset_eq, ← setIn_eq] at hs
  exact hk sig k t h1 hs hf

theorem first_dot {a b x y : Str} (ha : 46 ∉ a) (hb : 46 ∉ b) (h : a ++ 46 :: x = b ++ 46 :: y) : a = b ∧ x = y := by
  induction a generalizing b with
  | nil =>
    cases b with
    | nil => simpa using h
    | cons c cs => simp at h; exact absurd (by simp [h.1]) hb
  | cons c cs ih =>
    cases b with
    | nil => simp at h; exact absurd (by simp [h.1]) ha
    | cons d ds =>
      simp only [List.cons_append, List.cons.injEq] at h
      obtain ⟨e1, e2⟩ := ih (by simp at ha; exact ha.2) (by simp at hb; exact hb.2) h.2
      exact ⟨by rw [h.1, e1], e2⟩

/-- The zone above a zone is taken to be one label up. A signed zone that is delegated from a zone further up is not accepted: there are no keys at the
name between. -/
theorem distant_parent_rejected {A : List Ds} (h0 : Props.Dnssec.Fresh s0 A) (h : Sys.Reach C s0 s) (hw : ∀ c ∈ s.calls, WireMsg c.msg) (hc : c ∈ s.calls)
    {r : Rec} (hr : r ∈ c.msg.answer) (hrs : isRecord r = true) {l l' : Str} {n : Name} (hz : WfName (l :: l' :: n)) (hzc : canon (l :: l' :: n) = l :: l' :: n) (hd : 46 ∉ l)
    (hs : ∀ sig : Sig, Rec.rrsig sig ∈ c.msg.answer → canonicalName sig.signer = present (l :: l' :: n))
    (hno : ∀ (s : Sig) (k : Key) (rs : List Rec) (t : Int), canonicalName s.signer = present (l' :: n) → ¬ SignedBy C s k rs t) : c.prog ≠ .ret (.ok ()) := by
  intro hok
  obtain ⟨sig, z, o, h1, hwz, _, _, hzn, _, keys, k, t, ⟨_, _, ht, _⟩, _⟩ := Props.Dnssec.validated_answers_signed h0 h hw hc hok (List.ne_nil_of_mem hr) hr
    (fun s e => by rw [e] at hrs; cases hrs)
  rw [← canonicalName_present, ← hzn, hs sig h1] at ht
  generalize hZ : present (l :: l' :: n) = Z at ht
  cases ht with
  | root => exact absurd ((present_root_iff hz).mp hZ) (by simp)
  | @child _ parent _ _ _ _ _ _ _ _ _ _ hp htp =>
    have hpar : parent = present (l' :: n) := by
      have e : present (l :: l' :: n) = escLabel l ++ 46 :: present (l' :: n) := by simp [present]
      have hd' : 46 ∉ escLabel l := by rw [Props.Dnssec.dot_mem_escLabel]; exact hd
      obtain ⟨a, ha, ⟨hx, _⟩ | ⟨hx, _⟩⟩ := hp
      · rw [← hZ, e] at hx
        exact (first_dot hd' ha hx).2.symm
      · rw [← hZ, e] at hx
        have := (first_dot (x := present (l' :: n)) (y := []) hd' ha hx).2
        simp [present] at this
    subst hpar
    have : ∃ keys D a b, KeysOk C (present (l' :: n)) keys D a b := by
      generalize hP : present (l' :: n) = P at htp
      cases htp with
      | root _ hk => exact ⟨_, _, _, _, hk⟩
      | child _ _ _ _ _ _ _ _ hk => exact ⟨_, _, _, _, hk⟩
    obtain ⟨keys, D, a, b, k, s, t, _, _, _, h4, _, _, _, h5⟩ := this
    exact hno s k _ t h4 h5

/-- The resolver passes on that there are no DS records at a name below the zone, but no record says that it is a delegation. That is how it is if the
delegations are further below, and the name itself has no records. -/
def EmptyNonTerminal (C : Crypto) (W : World) (e : Name) : Prop :=
  ∀ r, W.reply (present e) 43 r → ∃ m, r = .msg m ∧ (m.rcode ≠ 0 ∨ dsIn m.answer = []) ∧
    (∀ n : Nsec, Rec.nsec n ∈ m.ns → canonicalName n.hdr.name ≠ present e) ∧
    (∀ n : Nsec3, Rec.nsec3 n ∈ m.ns → 2 ∉ n.types ∧ (n.flags % 2 = 0 ∨ ∃ (h : Str) (a : Name), n.hdr.name = present (h :: a) ∧ WfName (h :: a) ∧ a ≠ [] ∧
      escLabel (upper h) = upper h ∧ AncestorOrSelf a e ∧ upper h = C.lib.hashName (present e) n.hash n.iterations n.salt))

theorem ent_denial {e : Name} (he : WfName e) (hec : canon e = e) {m : SMsg}
    (h1 : ∀ n : Nsec, Rec.nsec n ∈ m.ns → canonicalName n.hdr.name ≠ present e)
    (h2 : ∀ n : Nsec3, Rec.nsec3 n ∈ m.ns → 2 ∉ n.types ∧ (n.flags % 2 = 0 ∨ ∃ (h : Str) (a : Name), n.hdr.name = present (h :: a) ∧ WfName (h :: a) ∧ a ≠ [] ∧
      escLabel (upper h) = upper h ∧ AncestorOrSelf a e ∧ upper h = C.lib.hashName (present e) n.hash n.iterations n.salt)) {keys : List Key} {t : Int} :
    verifyDSDenial C m.ns (present e) keys t = .error .bogusDenial := by
  unfold verifyDSDenial
  simp only
  rw [if_neg]
  rw [List.any_eq_true]
  rintro ⟨k, hk, hx⟩
  simp only [Bool.and_eq_true, List.any_eq_true] at hx
  obtain ⟨_, r, hr, hd⟩ := hx
  obtain ⟨hrm, _, _⟩ := rrsetOf_mem hr
  rw [canonicalName_present, hec] at hd
  cases r with
  | nsec n =>
    unfold deniesDS nsecDeniesDS at hd
    simp only at hd
    rw [if_pos (h1 n hrm)] at hd
    cases hd
  | nsec3 n =>
    obtain ⟨h3, h4⟩ := h2 n hrm
    unfold deniesDS nsec3DeniesDS at hd
    simp only at hd
    split at hd
    · unfold insecureBitmap at hd
      simp only [Bool.and_eq_true, List.contains_iff_mem] at hd
      exact h3 hd.1.1
    · rename_i hm
      simp only [Bool.and_eq_true, decide_eq_true_eq] at hd
      rcases h4 with h4 | ⟨h, a, a1, a2, a3, a4, a5, a6⟩
      · omega
      · exact hm (match_of a1 a2 a3 a4 he a5 a6)
  | _ => cases hd

theorem proveNoDS_ent (hw : Honest C W) {l : Str} {z : Name} (he : WfName (l :: z)) (hec : canon (l :: z) = l :: z) (hd : 46 ∉ l) (hz : W.signed z)
    (hent : EmptyNonTerminal C W (l :: z)) : Always W (fun r => r = .error .bogusDenial) (proveNoDS C (present (l :: z))) := by
  have hl : Always W (fun r => ∃ ss ns, r = .ok (([] : List Ds), ss, ns) ∧ ∀ (keys : List Key) (t : Int), verifyDSDenial C ns (present (l :: z)) keys t = .error .bogusDenial)
      (lookupDS (present (l :: z))) := by
    unfold lookupDS
    rw [(canon_present hec).eq]
    intro r hr
    obtain ⟨m, rfl, h1, h2, h3⟩ := hent r hr
    dsimp only
    split
    · rename_i hrc
      rcases h1 with h1 | h1
      · exact absurd hrc h1
      · rw [allDs_eq, h1]; exact ⟨_, _, rfl, fun _ _ => ent_denial he hec h2 h3⟩
    · exact ⟨_, _, rfl, fun _ _ => ent_denial he hec h2 h3⟩
  unfold proveNoDS
  refine Always.bind hl ?_
  rintro r ⟨ss, ns, rfl, hv⟩
  dsimp only
  rw [if_neg (by simp), parent_of he hec hd]
  refine Always.bind (chain_signed hw hz) ?_
  rintro p ⟨⟨a, b⟩, rfl, _⟩
  intro t _ _
  dsimp only
  rw [hv]
  rfl

theorem proveNoDSAny_ent (hw : Honest C W) {l : Str} {z : Name} (he : WfName (l :: z)) (hec : canon (l :: z) = l :: z) (hd : 46 ∉ l) (hz : W.signed z)
    (hent : EmptyNonTerminal C W (l :: z)) : ∀ (pre post : List Str), (∀ s ∈ pre, ∃ l z, W.signed (l :: z) ∧ s = present (l :: z)) →
    Always W (fun r => r = .error .bogusDenial) (proveNoDSAny C (pre ++ present (l :: z) :: post))
  | [], post, _ => by
    show Always W _ (proveNoDSAny C (present (l :: z) :: post))
    unfold proveNoDSAny
    refine Always.bind (proveNoDS_ent hw he hec hd hz hent) ?_
    rintro r rfl
    rfl
  | s :: pre, post, h => by
    show Always W _ (proveNoDSAny C (s :: (pre ++ present (l :: z) :: post)))
    unfold proveNoDSAny
    obtain ⟨l', z', hs, rfl⟩ := h s (by simp)
    refine Always.bind (proveNoDS_signed hw hs) ?_
    rintro r rfl
    exact proveNoDSAny_ent hw he hec hd hz hent pre post fun s hs => h s (by simp [hs])

/-- Each name from the top down must be a delegation, until one is found that is unsigned. An unsigned zone that is delegated from more than one label up, so that
there is a name without records between, is taken for bogus: its answers are refused, although there are proofs that it is not signed. -/
theorem below_empty_nonterminal_bogus (hw : Honest C W) (h0 : Ready W s0) (h : W.Reach C s0 s) (hc : c ∈ s.calls) (hne : c.msg.answer ≠ []) {l : Str} {z : Name}
    (he : WfName (l :: z)) (hec : canon (l :: z) = l :: z) (hd : 46 ∉ l) (hz : W.signed z) (hent : EmptyNonTerminal C W (l :: z))
    (hs : ∀ r ∈ c.msg.answer, isRecord r = true ∧ ∃ o, WfName o ∧ r.hdr.name = present o ∧ AncestorOrSelf (l :: z) o)
    {x : Except VErr Unit} (hx : c.prog = .ret x) : x = .error .bogusDenial := by
  have := (reach_always (Q := fun m x => (m.answer ≠ [] ∧ ∀ r ∈ m.answer, isRecord r = true ∧ ∃ o, WfName o ∧ r.hdr.name = present o ∧ AncestorOrSelf (l :: z) o) →
      x = .error .bogusDenial) (fun m hm => Always.imp (validate_any hw hm) ?_) h0 h).2.2 c hc
  · rw [hx] at this
    exact this.2 ⟨hne, hs⟩
  · rintro ⟨hne, hs⟩
    unfold validate
    rw [if_neg hne]
    intro keys hk
    cases keys with
    | nil =>
      obtain ⟨r, rs, e⟩ := List.exists_cons_of_ne_nil hne
      have hr : r ∈ m.answer := by rw [e]; simp
      have h1 := (hs r hr).1
      have : rkey r ∈ rrsetKeys m.answer := mem_rrsetKeys.mpr ⟨r, hr, by rw [isRecord_eq] at h1; simpa using h1, rfl⟩
      exact absurd (hk.mem_iff.mpr this) (by simp)
    | cons k rest =>
      obtain ⟨r, hr, _, _, e⟩ := owner_of_key (hk.mem_iff.mp (List.mem_cons_self (a := k) (l := rest)))
      obtain ⟨_, o, hwo, hro, p, hp⟩ := hs r hr
      rw [hec] at hp
      unfold validateSets
      simp only
      have hnil : sigsOf m.answer k = [] := by
        rw [List.eq_nil_iff_forall_not_mem]
        intro s h
        have := (hs _ (sigsOf_mem h).1).1
        cases this
      rw [if_pos hnil]
      have hci : Always W (fun r => r = .error .bogusDenial) (checkInsecure C (ownerOf (rrsetOf m.answer k))) := by
        rw [e, hro]
        unfold checkInsecure
        simp only [canonicalName_present]
        rw [if_neg (by rw [present_root_iff (wf_canon hwo), ← hp]; simp)]
        obtain ⟨pre, post, e1, e2⟩ := zones_split hw hwo hp hz
        rw [e1]
        exact proveNoDSAny_ent hw he hec hd hz hent _ _ e2
      refine Always.bind hci ?_
      rintro _ rfl
      rfl

section Examples

/-- Signatures that are the key and the number of records; digests that are the keys -/
def toy : Crypto where
  lib := { hashName := fun n _ _ _ => n, coversOwner := false }
  keyTag k := k.flags
  toDS k _ := some k.key
  inPeriod s t := decide ((s.inception : Int) ≤ t ∧ t ≤ s.expiration)
  check s k l := decide (s.signature = k.key ++ [UInt8.ofNat l.length])

def exz : Name := [str "example"]
def plain : Name := [str "plain"]
def keyOf (n : String) (flags : Nat) (k : String) : Key := { hdr := { name := str n, ttl := 10 }, flags := flags, key := str k }
def dsOf (n : String) (k : String) : Ds := { hdr := { name := str n }, digest := str k }
def sigOf (n : String) (ty tag : Nat) (signer k : String) (len : Nat) : Sig :=
  { hdr := { name := str n }, covered := ty, keyTag := tag, signer := str signer, signature := str k ++ [UInt8.ofNat len], inception := 0, expiration := 200 }

def rootKeys : List Key := [keyOf "." 256 "rz", keyOf "." 257 "rk"]
def exKeys : List Key := [keyOf "example." 257 "ek", keyOf "example." 256 "ez"]
def plainNsec : Nsec := { hdr := { name := str "plain." }, next := str ".", types := [2, 46, 47] }

def rootMsg : SMsg := { answer := [.dnskey (keyOf "." 257 "rk"), .rrsig (sigOf "." 48 257 "." "rk" 2), .dnskey (keyOf "." 256 "rz")] }
def exMsg : SMsg := { answer := [.dnskey (keyOf "example." 257 "ek"), .dnskey (keyOf "example." 256 "ez"), .rrsig (sigOf "example." 48 257 "example." "ek" 2)] }
def exDsMsg : SMsg := { answer := [.ds (dsOf "example." "ek"), .rrsig (sigOf "example." 43 256 "." "rz" 1)] }
def plainMsg : SMsg := { ns := [.nsec plainNsec, .rrsig (sigOf "plain." 47 256 "." "rz" 1)] }

/-- There is nothing at `co.`, but something below -/
def coMsg : SMsg := { ns := [.nsec { hdr := { name := str "a." }, next := str "b.co.", types := [2, 46, 47] }, .rrsig (sigOf "a." 47 256 "." "rz" 1)] }

def replyOf (n : Str) (t : Nat) : Reply :=
  if (n, t) = (str ".", 48) then .msg rootMsg
  else if (n, t) = (str "example.", 48) then .msg exMsg
  else if (n, t) = (str "example.", 43) then .msg exDsMsg
  else if (n, t) = (str "plain.", 43) then .msg plainMsg
  else if (n, t) = (str "co.", 43) then .msg coMsg
  else .err

def exWorld : World where
  lo := 0
  hi := 100
  signed z := z = [] ∨ z = exz
  unsigned u := u = plain
  keys z := if z = [] then rootKeys else if z = exz then exKeys else []
  ds z := if z = [] then [dsOf "." "rk"] else if z = exz then [dsOf "example." "ek"] else []
  reply n t r := r = replyOf n t

theorem genuine {n : String} {ty tag : Nat} {signer k : String} {len : Nat} {key : Key} {l : List Rec} (hk : key = keyOf signer tag k)
    (hl : lower (str signer) = canonicalName (str signer)) (hlen : l.length = len) (hne : l ≠ []) (hcov : ∀ r ∈ l, r.rtype = ty ∧ r.hdr.cls = 1 ∧ r.hdr.name = str n)
    (hsub : canonicalName (str signer) <:+ canonicalName (str n)) : Genuine toy (sigOf n ty tag signer k len) key l 0 100 := by
  subst hk
  refine ⟨fun t h1 h2 => ?_, ?_, rfl, rfl, rfl, rfl, hl, hne, fun r hr => ⟨(hcov r hr).1, (hcov r hr).2.1⟩, fun r hr r' hr' => ?_, fun r hr => ?_⟩
  · simp only [toy, sigOf, decide_eq_true_eq]; omega
  · simp only [toy, sigOf, keyOf, hlen, decide_true]
  · rw [(hcov r hr).2.2, (hcov r' hr').2.2]
  · rw [(hcov r hr).2.2]; exact hsub

theorem ex_honest : Honest toy exWorld where
  anyOrder s k l l' h := by simp only [toy, h.length_eq]
  given n t h := by
    have h : Reply.none = replyOf n t := h
    unfold replyOf at h
    split at h <;> first | cases h | skip
    split at h <;> first | cases h | skip
    split at h <;> first | cases h | skip
    split at h <;> first | cases h | skip
    split at h <;> cases h
  name := by
    rintro z (rfl | rfl)
    · exact ⟨by simp [WfName], rfl⟩
    · exact ⟨by simp [WfName, exz, str], by decide⟩
  above := by
    rintro l z (h | h)
    · cases h
    · cases h; exact ⟨by decide, .inl rfl⟩
  flags := by
    rintro z (rfl | rfl)
    · show ∀ k ∈ rootKeys, _; decide
    · show ∀ k ∈ exKeys, _; decide
  keys := by
    rintro z r (rfl | rfl) hr
    · have : r = .msg rootMsg := hr.trans (by decide)
      refine ⟨_, this, rfl, ?_, sigOf "." 48 257 "." "rk" 2, keyOf "." 257 "rk", by decide, rfl, by decide, ?_, rfl, ?_, ?_⟩
      · show (keysIn rootMsg.answer).Perm rootKeys
        exact List.Perm.swap _ _ _
      · show _ ∈ rootKeys; decide
      · exact ⟨dsOf "." "rk", by show _ ∈ [dsOf "." "rk"]; decide, str "rk", rfl, by decide⟩
      · show Genuine toy _ _ (rootKeys.map .dnskey) 0 100
        exact genuine rfl (by decide) rfl (by decide) (by decide) (by decide)
    · have : r = .msg exMsg := hr.trans (by decide)
      refine ⟨_, this, rfl, ?_, sigOf "example." 48 257 "example." "ek" 2, keyOf "example." 257 "ek", by decide, rfl, by decide, ?_, rfl, ?_, ?_⟩
      · show (keysIn exMsg.answer).Perm exKeys
        exact .refl _
      · show _ ∈ exKeys; decide
      · exact ⟨dsOf "example." "ek", by show _ ∈ [dsOf "example." "ek"]; decide, str "ek", rfl, by decide⟩
      · show Genuine toy _ _ (exKeys.map .dnskey) 0 100
        exact genuine rfl (by decide) rfl (by decide) (by decide) (by decide)
  ds := by
    rintro l z r (h | h) hr
    · cases h
    · cases h
      have : r = .msg exDsMsg := hr.trans (by decide)
      refine ⟨_, this, rfl, ?_, sigOf "example." 43 256 "." "rz" 1, rfl, by decide, keyOf "." 256 "rz", by show _ ∈ rootKeys; decide, rfl, ?_⟩
      · show (dsIn exDsMsg.answer).Perm [dsOf "example." "ek"]
        exact .refl _
      · show Genuine toy _ _ ([dsOf "example." "ek"].map .ds) 0 100
        exact genuine rfl (by decide) rfl (by decide) (by decide) (by decide)
  unsigned := by
    rintro u rfl
    refine ⟨str "plain", [], rfl, by simp [WfName, plain, str], by decide, by decide, .inl rfl, ?_⟩
    intro r hr
    have : r = .msg plainMsg := hr.trans (by decide)
    refine ⟨_, this, .inr (by decide), .nsec plainNsec, sigOf "plain." 47 256 "." "rz" 1, by decide, ?_, ⟨by decide, by decide, rfl⟩, by decide,
      keyOf "." 256 "rz", by show _ ∈ rootKeys; decide, rfl, ?_⟩
    · exact .inl ⟨plainNsec, rfl, by decide, by decide, by decide, by decide⟩
    · show Genuine toy _ _ (setIn plainMsg.ns (.nsec plainNsec)) 0 100
      exact genuine rfl (by decide) (by decide) (by decide) (by decide) (by decide)

def start0 : Sys := { store := { keys := fun _ => none, ds := fun z => if z = root then some ⟨1000, [dsOf "." "rk"]⟩ else none }, now := 5, calls := [] }

theorem ex_ready : Ready exWorld start0 where
  calls := rfl
  time := by decide
  anchors := ⟨1000, by decide, rfl⟩
  kept := by rintro z ks _ h; cases h
  keptUnsigned := by rintro z ks _ h; cases h

def wwwA : Rec := .other { name := str "www.example." } 1 [1]
def plainA : Rec := .other { name := str "host.plain." } 1 [2]
/-- Two sets that are signed, the second one with a bad signature, too -/
def signedMsg : SMsg := { answer := [wwwA, .rrsig (sigOf "www.example." 1 256 "example." "ez" 1)] }
/-- A signed set and one of an unsigned zone -/
def mixedMsg : SMsg := { answer := [plainA, wwwA, .rrsig (sigOf "www.example." 1 256 "." "xx" 1), .rrsig (sigOf "www.example." 1 256 "example." "ez" 1)] }

theorem wire (n : Name) (h : WfName n) (s : Str) (e : s = present n) : WireName s := ⟨n, h, e⟩

theorem ex_wire {m : SMsg} (h : m = signedMsg ∨ m = mixedMsg) : WireMsg m := by
  rcases h with rfl | rfl
  · refine ⟨(fun q hq => by cases hq), ?_, ?_⟩
    · intro r hr
      simp only [signedMsg, List.append_nil, List.mem_cons, List.not_mem_nil, or_false] at hr
      rcases hr with rfl | rfl <;> exact wire [str "www", str "example"] (by simp [WfName, str]) _ (by decide)
    · intro s hs
      simp only [signedMsg, List.append_nil, List.mem_cons, List.not_mem_nil, or_false, wwwA, reduceCtorEq, false_or, Rec.rrsig.injEq] at hs
      subst hs
      exact wire [str "example"] (by simp [WfName, str]) _ (by decide)
  · refine ⟨(fun q hq => by cases hq), ?_, ?_⟩
    · intro r hr
      simp only [mixedMsg, List.append_nil, List.mem_cons, List.not_mem_nil, or_false] at hr
      rcases hr with rfl | rfl | rfl | rfl
      · exact wire [str "host", str "plain"] (by simp [WfName, str]) _ (by decide)
      all_goals exact wire [str "www", str "example"] (by simp [WfName, str]) _ (by decide)
    · intro s hs
      simp only [mixedMsg, List.append_nil, List.mem_cons, List.not_mem_nil, or_false, wwwA, plainA, reduceCtorEq, false_or, Rec.rrsig.injEq] at hs
      rcases hs with rfl | rfl
      · exact wire [] (by simp [WfName]) _ (by decide)
      · exact wire [str "example"] (by simp [WfName, str]) _ (by decide)

theorem www_signed {m : SMsg} (h : m = signedMsg ∨ m = mixedMsg) : exWorld.SignedSet toy m.answer wwwA := by
  refine ⟨sigOf "www.example." 1 256 "example." "ez" 1, exz, [str "www", str "example"], ⟨?_, rfl, rfl⟩, by decide, .inr rfl, by simp [WfName, str], by decide,
    ⟨[str "www"], by decide⟩, ?_, keyOf "example." 256 "ez", by show _ ∈ exKeys; decide, rfl, ?_⟩
  · rcases h with rfl | rfl <;> decide
  · rcases h with rfl | rfl <;> decide
  · rcases h with rfl | rfl
    · exact genuine rfl (by decide) (by decide) (by decide) (by decide) (by decide)
    · exact genuine rfl (by decide) (by decide) (by decide) (by decide) (by decide)

def both : Sys := { start0 with now := 7, calls := [⟨5, signedMsg, validate toy signedMsg⟩, ⟨7, mixedMsg, validate toy mixedMsg⟩] }

theorem both_reached : exWorld.Reach toy start0 both :=
  (World.Reach.refl.call (t := 5) (ex_wire (.inl rfl)) (by decide) (by decide)).call (t := 7) (ex_wire (.inr rfl)) (by decide) (by decide)

/-- Two responses are validated at the same time; the first one can be brought to its end, and is accepted -/
example : ∃ (s : Sys) (c : Call), exWorld.Reach toy start0 s ∧ c ∈ s.calls ∧ c.msg = signedMsg ∧ c.prog = .ret (.ok ()) := by
  obtain ⟨s, c, x, hr, hc, hm, hx⟩ := can_finish ex_honest (fun n t => ⟨_, rfl⟩) ex_ready both_reached (by decide) (i := 0) rfl
  have hm : c.msg = signedMsg := hm
  have := signed_answer_accepted ex_honest ex_ready hr (List.mem_of_getElem? hc) (by rw [hm]; decide) (by
    rw [hm]; intro r hr hi
    simp only [signedMsg, List.mem_cons, List.not_mem_nil, or_false] at hr
    rcases hr with rfl | rfl
    · exact www_signed (.inl rfl)
    · cases hi) hx
  exact ⟨s, c, hr, List.mem_of_getElem? hc, hm, this ▸ hx⟩

/-- Keys of `example.`, in the nanosecond in which they expire -/
example : ∃ p, Dnssec.Step { start0.store with keys := fun _ => some ⟨10, exKeys, []⟩ } 3 (chain toy (present exz)) { start0.store with keys := fun _ => some ⟨10, exKeys, []⟩ } 3 p ∧
    Dnssec.Step start0.store 3 p start0.store 10 (.ret (.ok (exKeys, []))) := by
  obtain ⟨p, h1, h2⟩ := kept_keys_used (C := toy) (st := { start0.store with keys := fun _ => some ⟨10, exKeys, []⟩ }) (lo := 3) (z := exz) (by decide) rfl (by decide)
  refine ⟨p, h1, ?_⟩
  exact (h2 start0.store 3 10 (by decide) (by decide) _).mpr rfl

/-- The second one, with records of an unsigned zone, too -/
example : ∃ (s : Sys) (c : Call), exWorld.Reach toy start0 s ∧ c ∈ s.calls ∧ c.msg = mixedMsg ∧ c.prog = .ret (.error .insecure) := by
  obtain ⟨s, c, x, hr, hc, hm, hx⟩ := can_finish ex_honest (fun n t => ⟨_, rfl⟩) ex_ready both_reached (by decide) (i := 1) rfl
  have hm : c.msg = mixedMsg := hm
  have hp : exWorld.UnsignedSet mixedMsg.answer plainA := by
    refine ⟨[str "host", str "plain"], by simp [WfName, str], by decide, .inl ⟨?_, plain, rfl, [str "host"], by decide⟩⟩
    intro sig h
    obtain ⟨h1, h2, _⟩ := h
    simp only [mixedMsg, List.mem_cons, List.not_mem_nil, or_false, wwwA, plainA, reduceCtorEq, false_or, Rec.rrsig.injEq] at h1
    rcases h1 with rfl | rfl <;> exact absurd h2 (by decide)
  have := unsigned_answer_insecure ex_honest ex_ready hr (List.mem_of_getElem? hc) (by
    rw [hm]; intro r hr hi
    simp only [mixedMsg, List.mem_cons, List.not_mem_nil, or_false] at hr
    rcases hr with rfl | rfl | rfl | rfl
    · exact .inr hp
    · exact .inl (www_signed (.inr rfl))
    · cases hi
    · cases hi) ⟨plainA, by rw [hm]; decide, rfl, by rw [hm]; exact hp⟩ hx
  exact ⟨s, c, hr, List.mem_of_getElem? hc, hm, this ▸ hx⟩

def coA : Rec := .other { name := str "www.b.co." } 1 [3]

/-- An answer from the unsigned zone `b.co.`, when nothing is at `co.` -/
example : ∃ (s : Sys) (c : Call), exWorld.Reach toy start0 s ∧ c ∈ s.calls ∧ c.msg = { answer := [coA] } ∧ c.prog = .ret (.error .bogusDenial) := by
  have hw : WireMsg { answer := [coA] } := by
    refine ⟨(fun q hq => by cases hq), (fun r hr => ?_), (fun s hs => by simp [coA] at hs)⟩
    simp only [List.append_nil, List.mem_cons, List.not_mem_nil, or_false] at hr
    subst hr
    exact wire [str "www", str "b", str "co"] (by simp [WfName, str]) _ (by decide)
  obtain ⟨s, c, x, hr, hc, hm, hx⟩ := can_finish ex_honest (fun n t => ⟨_, rfl⟩) ex_ready (World.Reach.refl.call (t := 5) hw (by decide) (by decide)) (by decide) (i := 0) rfl
  have hm : c.msg = { answer := [coA] } := hm
  have hent : EmptyNonTerminal toy exWorld [str "co"] := by
    intro r hr
    have : r = .msg coMsg := hr.trans (by decide)
    refine ⟨_, this, .inr (by decide), ?_, ?_⟩
    · intro n hn
      simp only [coMsg, List.mem_cons, Rec.nsec.injEq, reduceCtorEq, List.not_mem_nil, or_false] at hn
      subst hn; decide
    · intro n hn
      simp [coMsg] at hn
  have := below_empty_nonterminal_bogus ex_honest ex_ready hr (List.mem_of_getElem? hc) (by rw [hm]; decide) (l := str "co") (z := []) (by simp [WfName, str]) (by decide) (by decide)
    (.inl rfl) hent (by
      rw [hm]; intro r hr
      simp only [List.mem_cons, List.not_mem_nil, or_false] at hr
      subst hr
      exact ⟨rfl, [str "www", str "b", str "co"], by simp [WfName, str], by decide, [str "www", str "b"], by decide⟩) hx
  exact ⟨s, c, hr, List.mem_of_getElem? hc, hm, this ▸ hx⟩

def cskMsg : SMsg := { answer := [wwwA, .rrsig (sigOf "www.example." 1 257 "example." "ek" 1)] }

/-- The key that signs the records has the flags 257. It did sign them. -/
example {s : Sys} {c : Call} (h : Sys.Reach toy start0 s) (hw : ∀ c ∈ s.calls, WireMsg c.msg) (hc : c ∈ s.calls) (hm : c.msg = cskMsg) :
    SignedBy toy (sigOf "www.example." 1 257 "example." "ek" 1) (keyOf "example." 257 "ek") (setIn cskMsg.answer wwwA) 5 ∧ c.prog ≠ .ret (.ok ()) := by
  have hf : Props.Dnssec.Fresh start0 [dsOf "." "rk"] := ⟨fun _ => rfl, (fun x h d hd => by cases h; exact hd), rfl⟩
  refine ⟨⟨rfl, by decide, rfl, rfl, by decide, by decide, by decide, by decide⟩, ?_⟩
  refine single_key_rejected hf h hw hc (r := wwwA) (by rw [hm]; decide) rfl ?_
  rw [hm]
  intro sig k t hs hk hfl
  simp only [cskMsg, wwwA, List.mem_cons, Rec.rrsig.injEq, reduceCtorEq, List.not_mem_nil, or_false, false_or] at hs
  subst hs
  have := hk.tag
  simp only [toy, sigOf, hfl] at this
  omega

/-- The zone `a.b.co.`, delegated from `co.`; nothing is signed by `b.co.` -/
def toy2 : Crypto := { toy with check := fun s k l => toy.check s k l && decide (canonicalName s.signer ≠ str "b.co.") }

def farMsg : SMsg := { answer := [.other { name := str "www.a.b.co." } 1 [4], .rrsig (sigOf "www.a.b.co." 1 256 "a.b.co." "az" 1)] }

example {s : Sys} {c : Call} (h : Sys.Reach toy2 start0 s) (hw : ∀ c ∈ s.calls, WireMsg c.msg) (hc : c ∈ s.calls) (hm : c.msg = farMsg) : c.prog ≠ .ret (.ok ()) := by
  have hf : Props.Dnssec.Fresh start0 [dsOf "." "rk"] := ⟨fun _ => rfl, (fun x h d hd => by cases h; exact hd), rfl⟩
  refine distant_parent_rejected hf h hw hc (r := .other { name := str "www.a.b.co." } 1 [4]) (by rw [hm]; decide) rfl (l := str "a") (l' := str "b") (n := [str "co"])
    (by simp [WfName, str]) (by decide) (by decide) ?_ ?_
  · rw [hm]; intro sig hs
    simp only [farMsg, List.mem_cons, Rec.rrsig.injEq, reduceCtorEq, List.not_mem_nil, or_false, false_or] at hs
    subst hs; decide
  · intro s k rs t hs hk
    have := hk.crypto
    simp only [toy2, Bool.and_eq_true, decide_eq_true_eq] at this
    exact this.2 (hs.trans (by decide))

end Examples

end Verif.Props.DnssecServes
