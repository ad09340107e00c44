import Verif.Lemmas.Dnssec
import Verif.Props.DnssecName
import Verif.Props.DnssecNsec3
import Verif.Spec.DnssecServes
/-
Validations in a world where everything is properly signed (C95).
-/
set_option linter.unusedVariables false
namespace Verif.DnssecServes
open Verif Verif.Dnssec Verif.DnssecSpec Verif.Props.Dnssec

variable {C : Crypto} {W : World}

/-! ### What can be kept -/

def zskOf (l : List Key) : List Key := l.filter fun k => k.flags = 256
def kskOf (l : List Key) : List Key := l.filter fun k => k.flags = 257

/-- What may be kept for a zone -/
def Held (W : World) (zone : Str) (ks : KeySet) : Prop :=
  (∀ z, W.signed z → zone = present z → ks.expiresAt < W.lo ∨ (ks.zsk.Perm (zskOf (W.keys z)) ∧ ks.ksk.Perm (kskOf (W.keys z)))) ∧
  (∀ u, W.unsigned u → zone = present u → ks.expiresAt < W.lo)

def DsHeld (W : World) (zone : Str) (r : Option DsSet) : Prop := zone = root → ∃ e : Int, W.hi ≤ e ∧ r = some ⟨e, W.ds []⟩

/-- Whatever the world does, the program does not panic and ends with such a result. -/
def Always (W : World) {α : Type} (Q : α → Prop) : Prog α → Prop
  | .ret a => Q a
  | .panic => False
  | .clock k => ∀ t : Int, W.lo ≤ t → t ≤ W.hi → Always W Q (k t)
  | .query n ty k => ∀ r : Reply, W.reply n ty r → Always W Q (k r)
  | .order l k => ∀ l' : List RKey, l'.Perm l → Always W Q (k l')
  | .getKeys z k => ∀ r : Option KeySet, (∀ ks, r = some ks → Held W z ks) → Always W Q (k r)
  | .putKeys z ks k => Held W z ks ∧ Always W Q k
  | .getDS z k => ∀ r : Option DsSet, DsHeld W z r → Always W Q (k r)

theorem Always.bind {α β : Type} {Q : α → Prop} {R : β → Prop} {p : Prog α} {f : α → Prog β} (h : Always W Q p) (hf : ∀ a, Q a → Always W R (f a)) :
    Always W R (p.bind f) := by
  induction p with
  | ret a => exact hf a h
  | panic => exact h
  | clock k ih => exact fun t h1 h2 => ih t (h t h1 h2)
  | query n ty k ih => exact fun r hr => ih r (h r hr)
  | order l k ih => exact fun l' hl => ih l' (h l' hl)
  | getKeys z k ih => exact fun r hr => ih r (h r hr)
  | putKeys z ks k ih => exact ⟨h.1, ih h.2⟩
  | getDS z k ih => exact fun r hr => ih r (h r hr)

theorem Always.mono {α : Type} {Q R : α → Prop} {p : Prog α} (h : Always W Q p) (hq : ∀ a, Q a → R a) : Always W R p := by
  induction p with
  | ret a => exact hq a h
  | panic => exact h
  | clock k ih => exact fun t h1 h2 => ih t (h t h1 h2)
  | query n ty k ih => exact fun r hr => ih r (h r hr)
  | order l k ih => exact fun l' hl => ih l' (h l' hl)
  | getKeys z k ih => exact fun r hr => ih r (h r hr)
  | putKeys z ks k ih => exact ⟨h.1, ih h.2⟩
  | getDS z k ih => exact fun r hr => ih r (h r hr)

/-! ### Signatures -/

theorem verify_genuine (hw : Honest C W) {s : Sig} {k : Key} {l l' : List Rec} (h : Genuine C s k l W.lo W.hi) (hp : l'.Perm l) : verify C s k l' = true := by
  have hne : l' ≠ [] := by
    intro e; subst e
    exact h.nonempty (List.nil_perm.mp hp)
  have hm : ∀ r, r ∈ l' → r ∈ l := fun r hr => hp.mem_iff.mp hr
  obtain ⟨r, rs, rfl⟩ := List.exists_cons_of_ne_nil hne
  have hr := hm r (by simp)
  unfold verify
  simp only [Bool.and_eq_true, decide_eq_true_eq]
  refine ⟨⟨⟨⟨⟨⟨⟨?_, h.tag⟩, h.cls.symm⟩, h.alg.symm⟩, ?_⟩, h.protocol⟩, ⟨⟨(h.covered r hr).2, (h.covered r hr).1⟩, ?_⟩⟩, ?_⟩
  · unfold isRRset
    simp only [List.all_eq_true, Bool.and_eq_true, decide_eq_true_eq]
    intro x hx
    have hx := hm x (by simp [hx])
    exact ⟨⟨by rw [(h.covered x hx).1, (h.covered r hr).1], by rw [(h.covered x hx).2, (h.covered r hr).2]⟩, h.owner x hx r hr⟩
  · unfold equalFold
    rw [lower_canonicalName, h.signer]
    simp
  · rw [List.isSuffixOf_iff_suffix]; exact h.below r hr
  · rw [hw.anyOrder s k _ _ hp]; exact h.crypto

theorem verifyRRSIG_genuine (hw : Honest C W) {s : Sig} {k : Key} {keys : List Key} {l l' : List Rec} (h : Genuine C s k l W.lo W.hi) (hp : l'.Perm l)
    (hk : k ∈ keys) {t : Int} (h1 : W.lo ≤ t) (h2 : t ≤ W.hi) : verifyRRSIG C s keys l' t = .ok () := by
  unfold verifyRRSIG
  rw [if_neg (by rw [h.period t h1 h2]; simp)]
  have hm : k ∈ keys.filter fun k => C.keyTag k = s.keyTag && k.alg = s.alg := by
    simp [List.mem_filter, hk, h.tag, h.alg]
  simp only
  rw [if_neg (List.ne_nil_of_mem hm), if_pos]
  simp only [List.any_eq_true]
  exact ⟨k, hm, verify_genuine hw h hp⟩

theorem anySigVerifies_any {keys : List Key} {l : List Rec} : ∀ sigs : List Sig, Always W (fun _ => True) (anySigVerifies C keys l sigs)
  | [] => trivial
  | s :: rest => fun t _ _ => by
    dsimp only
    split
    · trivial
    · exact anySigVerifies_any rest

theorem anySigVerifies_genuine (hw : Honest C W) {s : Sig} {k : Key} {keys : List Key} {l l' : List Rec} (h : Genuine C s k l W.lo W.hi) (hp : l'.Perm l)
    (hk : k ∈ keys) : ∀ sigs : List Sig, s ∈ sigs → Always W (fun b => b = true) (anySigVerifies C keys l' sigs)
  | [], hs => by simp at hs
  | x :: rest, hs => fun t h1 h2 => by
    dsimp only
    split
    · rfl
    · rename_i e he
      rcases List.mem_cons.mp hs with rfl | hs
      · rw [verifyRRSIG_genuine hw h hp hk h1 h2] at he; cases he
      · exact anySigVerifies_genuine hw h hp hk rest hs

theorem verifyAny_genuine (hw : Honest C W) {s : Sig} {k : Key} {keys : List Key} {l l' : List Rec} (h : Genuine C s k l W.lo W.hi) (hp : l'.Perm l)
    (hk : k ∈ keys) {sigs : List Sig} (hs : s ∈ sigs) {t : Int} (h1 : W.lo ≤ t) (h2 : t ≤ W.hi) : verifyAnyRRSIG C sigs keys l' t = true := by
  unfold verifyAnyRRSIG
  simp only [List.any_eq_true]
  exact ⟨s, hs, by rw [verifyRRSIG_genuine hw h hp hk h1 h2]⟩

/-! ### Reading sections -/

theorem keysOf_eq (l : List Rec) (f : Nat) : keysOf l f = (keysIn l).filter fun k => k.flags = f := by
  unfold keysOf keysIn
  induction l with
  | nil => rfl
  | cons r rs ih => cases r <;> simp only [List.filterMap_cons] <;> first | exact ih | (rename_i k; by_cases h : k.flags = f <;> simp [h, ih])

theorem allDs_eq (l : List Rec) : allDs l = dsIn l := rfl

theorem mem_allSigs {l : List Rec} {s : Sig} : s ∈ allSigs l ↔ Rec.rrsig s ∈ l := by
  unfold allSigs
  rw [List.mem_filterMap]
  constructor
  · rintro ⟨r, hr, h⟩
    cases r <;> simp at h
    subst h; exact hr
  · exact fun h => ⟨_, h, rfl⟩

theorem isRecord_eq (r : Rec) : isRecord r = !isSig r := by cases r <;> rfl

theorem setIn_eq (l : List Rec) (r : Rec) : setIn l r = rrsetOf l (rkey r) := by
  unfold setIn rrsetOf
  apply List.filter_congr
  intro x _
  simp only [rkey, Prod.mk.injEq, Bool.decide_and, Bool.and_assoc, isRecord_eq]

theorem mem_sigsOf {l : List Rec} {k : RKey} {s : Sig} : s ∈ sigsOf l k ↔ Rec.rrsig s ∈ l ∧ canonicalName s.hdr.name = k.1 ∧ s.covered = k.2 := by
  refine ⟨sigsOf_mem, fun ⟨h1, h2, h3⟩ => ?_⟩
  unfold sigsOf
  rw [List.mem_filterMap]
  refine ⟨_, h1, ?_⟩
  simp [h2, h3]

theorem sigFor_iff {l : List Rec} {r : Rec} {s : Sig} : SigFor l r s ↔ s ∈ sigsOf l (rkey r) := by
  rw [mem_sigsOf]; rfl

theorem mem_rrsetKeys {l : List Rec} {k : RKey} : k ∈ rrsetKeys l ↔ ∃ r ∈ l, isSig r = false ∧ rkey r = k := by
  unfold rrsetKeys
  rw [List.mem_eraseDups, List.mem_map]
  constructor
  · rintro ⟨r, hr, rfl⟩
    rw [List.mem_filter] at hr
    exact ⟨r, hr.1, by simpa using hr.2, rfl⟩
  · rintro ⟨r, hr, hs, rfl⟩
    exact ⟨r, List.mem_filter.mpr ⟨hr, by simp [hs]⟩, rfl⟩

/-! ### Denial of DS records -/

theorem lowerByte_upperByte (b : UInt8) : lowerByte (upperByte b) = lowerByte b :=
  byte_forall (fun b => lowerByte (upperByte b) = lowerByte b) (by decide +kernel) b

theorem canon_upper (n : Name) : canon (n.map upper) = canon n := by
  unfold canon
  rw [List.map_map]
  apply List.map_congr_left
  intro l _
  simp only [Function.comp, lower, upper, List.map_map]
  apply List.map_congr_left
  intro b _
  exact lowerByte_upperByte b

theorem nsec3Owner_of {r : Nsec3} {h : Str} {a : Name} (hn : r.hdr.name = present (h :: a)) (hw : WfName (h :: a)) (ha : a ≠ []) (he : escLabel (upper h) = upper h) :
    nsec3Owner r = some (upper h, present (a.map upper)) := by
  unfold nsec3Owner
  rw [hn, upper_present, splitName_present (wf_upper hw)]
  cases a with
  | nil => exact absurd rfl ha
  | cons l ls =>
    have hw' : WfName ((l :: ls).map upper) := wf_upper fun x hx => hw x (List.mem_cons_of_mem _ hx)
    have := fqdn_join (n := (l :: ls).map upper) (by simp) hw'
    simp only [List.map_cons] at this ⊢
    rw [this, he]

theorem sub_upper {a z : Name} (ha : WfName a) (hz : WfName z) (h : AncestorOrSelf a z) : isSubDomain (present (a.map upper)) (upper (present z)) = true := by
  rw [upper_present, isSubDomain_present (wf_upper ha) (wf_upper hz)]
  unfold AncestorOrSelf
  rw [canon_upper, canon_upper]; exact h

theorem match_of {L : Lib} {r : Nsec3} {h : Str} {a z : Name} (hn : r.hdr.name = present (h :: a)) (hw : WfName (h :: a)) (ha : a ≠ [])
    (he : escLabel (upper h) = upper h) (hz : WfName z) (hs : AncestorOrSelf a z) (hh : upper h = L.hashName (present z) r.hash r.iterations r.salt) :
    nsec3Match L r (present z) = true := by
  unfold nsec3Match
  rw [nsec3Owner_of hn hw ha he]
  simp only [Bool.and_eq_true, decide_eq_true_eq]
  exact ⟨sub_upper (fun x hx => hw x (List.mem_cons_of_mem _ hx)) hz hs, hh⟩

theorem cover_of {L : Lib} {r : Nsec3} {h : Str} {a z : Name} (hn : r.hdr.name = present (h :: a)) (hw : WfName (h :: a)) (ha : a ≠ [])
    (he : escLabel (upper h) = upper h) (hz : WfName z) (hs : AncestorOrSelf a z) (hb : Between (upper h) (L.hashName (present z) r.hash r.iterations r.salt) r.next) :
    nsec3Cover L r (present z) = true := by
  unfold nsec3Cover
  rw [nsec3Owner_of hn hw ha he]
  simp only
  rw [if_neg (by rw [sub_upper (fun x hx => hw x (List.mem_cons_of_mem _ hx)) hz hs]; simp)]
  unfold nsec3Hash
  generalize L.hashName (present z) r.hash r.iterations r.salt = H at *
  rcases hb with ⟨h1, h2, h3⟩ | ⟨h1, h2⟩ | ⟨h1, h2⟩
  · rw [if_neg (by rintro ⟨e, _⟩; rw [e] at h1; exact str_lt_irrefl _ h1), if_neg (by rw [strLt_iff]; exact str_lt_asymm h1), if_neg, strLt_iff]
    · exact h3
    · rintro (h | ⟨e, _⟩)
      · exact str_lt_asymm h2 (strLt_iff.mp h)
      · rw [e] at h2; exact str_lt_irrefl _ h2
  · rw [if_neg (by rintro ⟨e, _⟩; rw [e] at h1; exact str_lt_irrefl _ h1), if_pos (strLt_iff.mpr h1)]
    simp only [Bool.or_eq_true, strLt_iff]
    exact h2
  · rw [if_pos ⟨h1, h2⟩]

theorem nomatch_of {L : Lib} {r : Nsec3} {h : Str} {a z : Name} (hn : r.hdr.name = present (h :: a)) (hw : WfName (h :: a)) (ha : a ≠ [])
    (he : escLabel (upper h) = upper h) (hb : Between (upper h) (L.hashName (present z) r.hash r.iterations r.salt) r.next) :
    nsec3Match L r (present z) = false := by
  unfold nsec3Match
  rw [nsec3Owner_of hn hw ha he]
  simp only [Bool.and_eq_false_iff, decide_eq_false_iff_not]
  right
  unfold nsec3Hash
  intro e
  rw [← e] at hb
  rcases hb with ⟨_, h2, _⟩ | ⟨h1, h2 | h2⟩ | ⟨_, h2⟩
  · exact str_lt_irrefl _ h2
  · exact str_lt_irrefl _ h2
  · exact str_lt_asymm h1 h2
  · exact h2 rfl

theorem insecureBitmap_of {l : List Nat} (h1 : 2 ∈ l) (h2 : 43 ∉ l) (h3 : 6 ∉ l) : insecureBitmap l = true := by
  unfold insecureBitmap
  simp only [Bool.and_eq_true, Bool.not_eq_true', List.contains_iff_mem, ← Bool.not_eq_true]
  exact ⟨⟨h1, h2⟩, h3⟩

theorem deniesDS_of {z : Name} {r : Rec} (hz : WfName z) (h : NoDs C z r) : (r.rtype = 47 ∨ r.rtype = 50) ∧ isSig r = false ∧ deniesDS C.lib (present z) r = true := by
  rcases h with ⟨n, rfl, h1, h2, h3, h4⟩ | ⟨n, h, o, a, rfl, h1, h2, h3, h7, h4, h5, h6⟩
  · refine ⟨.inl rfl, rfl, ?_⟩
    unfold deniesDS nsecDeniesDS
    simp only [h1, ne_eq, not_true, if_false]
    exact insecureBitmap_of h2 h3 h4
  · refine ⟨.inr rfl, rfl, ?_⟩
    obtain rfl := capitals h7
    unfold deniesDS nsec3DeniesDS
    rcases h6 with ⟨h6, h7, h8, h9⟩ | ⟨h6, h7⟩
    · simp only
      rw [if_pos (match_of h1 h2 h3 h4 hz h5 h6)]
      exact insecureBitmap_of h7 h8 h9
    · simp only
      rw [if_neg (by rw [nomatch_of h1 h2 h3 h4 h7]; simp), cover_of h1 h2 h3 h4 hz h5 h7]
      simp [h6]

/-- A signed record that denies them is found. -/
theorem verifyDSDenial_of (hw : Honest C W) {u z : Name} {m : SMsg} {keys : List Key} (hu : WfName u) (hc : canon u = u) (h : W.NoDsReply C u z m)
    (hk : ∀ k, k ∈ W.keys z → k.flags = 256 → k ∈ keys) {t : Int} (h1 : W.lo ≤ t) (h2 : t ≤ W.hi) : verifyDSDenial C m.ns (present u) keys t = .ok () := by
  obtain ⟨_, r, s, hr, hd, hs, _, k, hkm, hkf, hg⟩ := h
  obtain ⟨ht, hns, hden⟩ := deniesDS_of hu hd
  unfold verifyDSDenial
  simp only
  rw [if_pos]
  rw [List.any_eq_true]
  refine ⟨rkey r, mem_rrsetKeys.mpr ⟨r, hr, hns, rfl⟩, ?_⟩
  simp only [Bool.and_eq_true, Bool.or_eq_true, decide_eq_true_eq]
  rw [setIn_eq] at hg
  refine ⟨⟨ht, verifyAny_genuine hw hg (.refl _) (hk k hkm hkf) (sigFor_iff.mp hs) h1 h2⟩, ?_⟩
  rw [List.any_eq_true]
  refine ⟨r, ?_, by rw [canonicalName_present, hc]; exact hden⟩
  unfold rrsetOf
  exact List.mem_filter.mpr ⟨hr, by simp [hns]⟩

/-! ### Chain of trust -/

/-- What the chain of trust gives for a zone -/
def Chained (W : World) (zone : Str) (fuel : Nat) (r : Except VErr (List Key × List Key)) : Prop :=
  (∀ z, W.signed z → zone = present z → (∀ a, r = .ok a → a.1.Perm (zskOf (W.keys z)) ∧ a.2.Perm (kskOf (W.keys z))) ∧ (zone.length < fuel → ∃ a, r = .ok a)) ∧
  (∀ u, W.unsigned u → zone = present u → (∀ a, r ≠ .ok a) ∧
    (zone.length < fuel → (∀ x, W.reply (present u) 48 x → ∃ m, x = .msg m ∧ m.rcode = 0 ∧ ∃ k ∈ keysIn m.answer, k.flags = 257) → r = .error .insecure))

/-- What the store gives -/
def Cached (W : World) (zone : Str) (r : List Key × List Key) : Prop :=
  r = ([], []) ∨ ((∀ z, W.signed z → zone = present z → r.1.Perm (zskOf (W.keys z)) ∧ r.2.Perm (kskOf (W.keys z))) ∧ ∀ u, W.unsigned u → zone ≠ present u)

theorem getDNSKEY_always {zone : Str} (hz : Canon zone) : Always W (Cached W zone) (getDNSKEY zone) := by
  unfold getDNSKEY
  rw [hz.eq]
  intro r hr
  cases r with
  | none => exact .inl rfl
  | some ks =>
    intro t h1 h2
    dsimp only
    have h := hr ks rfl
    split
    · exact .inl rfl
    · rename_i hx
      refine .inr ⟨fun z hs he => ?_, fun u hu he => ?_⟩
      · rcases h.1 z hs he with h | h
        · omega
        · exact h
      · have := h.2 u hu he; omega

/-- What the resolver says about keys -/
def KeysGiven (W : World) (C : Crypto) (zone : Str) (r : Except VErr (List Key × List Key × List Sig)) : Prop :=
  (∀ z, W.signed z → zone = present z → ∃ m, W.KeyReply C z m ∧ r = .ok (keysOf m.answer 256, keysOf m.answer 257, allSigs m.answer)) ∧
  (∀ u, W.unsigned u → zone = present u → (∀ x, W.reply (present u) 48 x → ∃ m, x = .msg m ∧ m.rcode = 0 ∧ ∃ k ∈ keysIn m.answer, k.flags = 257) →
    ∃ a, r = .ok a ∧ a.2.1 ≠ [])

theorem lookupDNSKEY_always (hw : Honest C W) {zone : Str} (hz : Canon zone) : Always W (KeysGiven W C zone) (lookupDNSKEY zone) := by
  unfold lookupDNSKEY
  rw [hz.eq]
  intro r hr
  have hs : ∀ z, W.signed z → zone = present z → ∃ m, r = .msg m ∧ W.KeyReply C z m := fun z h1 h2 => hw.keys z r h1 (h2 ▸ hr)
  cases r with
  | none => exact hw.given _ _ hr
  | err =>
    refine ⟨fun z h1 h2 => ?_, fun u h1 h2 hx => ?_⟩
    · obtain ⟨m, h, _⟩ := hs z h1 h2; cases h
    · obtain ⟨m, h, _⟩ := hx _ (h2 ▸ hr); cases h
  | msg a =>
    dsimp only
    split
    · rename_i hrc
      refine ⟨fun z h1 h2 => ?_, fun u h1 h2 hx => ?_⟩
      · obtain ⟨m, h, hk⟩ := hs z h1 h2; cases h; exact absurd hk.1 hrc
      · obtain ⟨m, h, hk, _⟩ := hx _ (h2 ▸ hr); cases h; exact absurd hk hrc
    · refine ⟨fun z h1 h2 => ?_, fun u h1 h2 hx => ?_⟩
      · obtain ⟨m, h, hk⟩ := hs z h1 h2; cases h; exact ⟨_, hk, rfl⟩
      · obtain ⟨m, h, hk, k, hm, hf⟩ := hx _ (h2 ▸ hr); cases h
        refine ⟨_, rfl, ?_⟩
        dsimp only
        rw [keysOf_eq]
        exact List.ne_nil_of_mem (List.mem_filter.mpr ⟨hm, by simpa using hf⟩)

/-- What the resolver says about DS records -/
def DsGiven (W : World) (C : Crypto) (zone : Str) (r : Except VErr (List Ds × List Sig × List Rec)) : Prop :=
  (∀ l z, W.signed (l :: z) → zone = present (l :: z) → ∃ m, W.DsReply C (l :: z) z m ∧
    r = .ok (dsIn m.answer, (allSigs m.answer).filter fun s => s.covered = 43, m.ns)) ∧
  (∀ u, W.unsigned u → zone = present u → ∃ l z m s, u = l :: z ∧ W.NoDsReply C u z m ∧ r = .ok ([], s, m.ns))

theorem lookupDS_always (hw : Honest C W) {zone : Str} (hz : Canon zone) : Always W (DsGiven W C zone) (lookupDS zone) := by
  unfold lookupDS
  rw [hz.eq]
  intro r hr
  have hs : ∀ l z, W.signed (l :: z) → zone = present (l :: z) → ∃ m, r = .msg m ∧ W.DsReply C (l :: z) z m := fun l z h1 h2 => hw.ds l z r h1 (h2 ▸ hr)
  have hu : ∀ u, W.unsigned u → zone = present u → ∃ l z m, u = l :: z ∧ r = .msg m ∧ W.NoDsReply C u z m := by
    intro u h1 h2
    obtain ⟨l, z, e, _, _, _, _, h⟩ := hw.unsigned u h1
    obtain ⟨m, h3, h4⟩ := h r (h2 ▸ hr)
    exact ⟨l, z, m, e, h3, h4⟩
  cases r with
  | none => exact hw.given _ _ hr
  | err =>
    refine ⟨fun l z h1 h2 => ?_, fun u h1 h2 => ?_⟩
    · obtain ⟨m, h, _⟩ := hs l z h1 h2; cases h
    · obtain ⟨l, z, m, _, h, _⟩ := hu u h1 h2; cases h
  | msg a =>
    dsimp only
    split
    · rename_i hrc
      refine ⟨fun l z h1 h2 => ?_, fun u h1 h2 => ?_⟩
      · obtain ⟨m, h, hk⟩ := hs l z h1 h2; cases h; exact ⟨_, hk, rfl⟩
      · obtain ⟨l, z, m, e, h, hk⟩ := hu u h1 h2; cases h
        refine ⟨l, z, a, (allSigs a.answer).filter fun s => s.covered = typeDS, e, hk, ?_⟩
        rcases hk.1 with h | h
        · exact absurd hrc h
        · rw [allDs_eq, h]
    · rename_i hrc
      refine ⟨fun l z h1 h2 => ?_, fun u h1 h2 => ?_⟩
      · obtain ⟨m, h, hk⟩ := hs l z h1 h2; cases h; exact absurd hk.1 hrc
      · obtain ⟨l, z, m, e, h, hk⟩ := hu u h1 h2; cases h
        exact ⟨l, z, a, _, e, hk, rfl⟩

theorem filterKeysByDS_has {keys : List Key} {ds : List Ds} {k : Key} (h : k ∈ keys) (hd : HasDs C k ds) : k ∈ filterKeysByDS C keys ds := by
  obtain ⟨d, hd, x, h1, h2⟩ := hd
  refine List.mem_filter.mpr ⟨h, List.any_eq_true.mpr ⟨d, hd, ?_⟩⟩
  rw [h1]; exact h2

theorem filter_split {l : List Key} (h : ∀ k ∈ l, k.flags = 256 ∨ k.flags = 257) : (zskOf l ++ kskOf l).Perm l := by
  induction l with
  | nil => exact .refl _
  | cons k ks ih =>
    have ih := ih fun x hx => h x (by simp [hx])
    unfold zskOf kskOf at *
    rcases h k (by simp) with hk | hk
    · simp only [List.filter_cons, hk]; simpa using ih
    · simp only [List.filter_cons, hk]
      simp only [decide_true, if_true, Nat.reduceEqDiff, decide_false, Bool.false_eq_true, if_false]
      exact List.perm_middle.trans (List.Perm.cons _ ih)

theorem acceptKeys_always (hw : Honest C W) {zone : Str} (hz : Canon zone) {zsk ksk : List Key} {sigs : List Sig} {ds : List Ds}
    (hnu : ∀ u, W.unsigned u → zone ≠ present u)
    (hs : ∀ z, W.signed z → zone = present z → ds.Perm (W.ds z) ∧ ∃ m, W.KeyReply C z m ∧ zsk = keysOf m.answer 256 ∧ ksk = keysOf m.answer 257 ∧ sigs = allSigs m.answer)
    {fuel : Nat} : Always W (Chained W zone fuel) (acceptKeys C zone zsk ksk sigs ds) := by
  have hun : ∀ r, (∀ u, W.unsigned u → zone = present u → (∀ a, r ≠ .ok a) ∧
    (zone.length < fuel → (∀ x, W.reply (present u) 48 x → ∃ m, x = .msg m ∧ m.rcode = 0 ∧ ∃ k ∈ keysIn m.answer, k.flags = 257) → r = Except.error (ε := VErr) (α := List Key × List Key) .insecure)) :=
    fun r u h1 h2 => absurd h2 (hnu u h1)
  have hput : ∀ t : Int, Held W zone ⟨t, (zsk ++ ksk).filter fun k => k.flags = 256, (zsk ++ ksk).filter fun k => k.flags = 257⟩ ∧
      Chained W zone fuel (.ok (zsk, ksk)) := by
    intro t
    have key : ∀ z, W.signed z → zone = present z → zsk.Perm (zskOf (W.keys z)) ∧ ksk.Perm (kskOf (W.keys z)) := by
      intro z h1 h2
      obtain ⟨_, m, hk, rfl, rfl, rfl⟩ := hs z h1 h2
      rw [keysOf_eq, keysOf_eq]
      exact ⟨hk.2.1.filter _, hk.2.1.filter _⟩
    refine ⟨⟨fun z h1 h2 => .inr ?_, fun u h1 h2 => absurd h2 (hnu u h1)⟩, fun z h1 h2 => ⟨?_, fun _ => ⟨_, rfl⟩⟩, hun _⟩
    · obtain ⟨k1, k2⟩ := key z h1 h2
      have hp : (zsk ++ ksk).Perm (W.keys z) := (k1.append k2).trans (filter_split (hw.flags z h1))
      exact ⟨hp.filter _, hp.filter _⟩
    · intro a ha; cases ha; exact key z h1 h2
  by_cases hsig : ∃ z, W.signed z ∧ zone = present z
  · obtain ⟨z, h1, h2⟩ := hsig
    obtain ⟨hds, m, ⟨_, hpk, s, k, hsm, hsc, hsn, hk, hkf, hkd, hg⟩, e1, e2, e3⟩ := hs z h1 h2
    have hkk : k ∈ ksk := by
      rw [e2, keysOf_eq]
      exact List.mem_filter.mpr ⟨hpk.mem_iff.mpr hk, by simpa using hkf⟩
    have htr : k ∈ filterKeysByDS C ksk ds := by
      refine filterKeysByDS_has hkk ?_
      obtain ⟨d, hd, x⟩ := hkd
      exact ⟨d, hds.mem_iff.mpr hd, x⟩
    have hown : s ∈ sigs.filter fun s => canonicalName s.signer = zone && s.covered = typeDNSKEY := by
      rw [e3]
      refine List.mem_filter.mpr ⟨mem_allSigs.mpr hsm, ?_⟩
      simp [hsn, hsc, h2]
    have hperm : ((zsk ++ ksk).map Rec.dnskey).Perm ((W.keys z).map .dnskey) := by
      rw [e1, e2, keysOf_eq, keysOf_eq]
      exact (((hpk.filter _).append (hpk.filter _)).trans (filter_split (hw.flags z h1))).map _
    unfold acceptKeys
    simp only
    rw [if_neg (List.ne_nil_of_mem htr)]
    refine Always.bind (anySigVerifies_genuine hw hg hperm htr _ hown) ?_
    intro b hb
    rw [if_neg (List.ne_nil_of_mem hown), if_pos hb]
    unfold addDNSKEY
    intro t _ _
    rw [hz.eq]
    exact hput _
  · have hs' : ∀ r, (∀ z, W.signed z → zone = present z → (∀ a, r = .ok a → a.1.Perm (zskOf (W.keys z)) ∧ a.2.Perm (kskOf (W.keys z))) ∧
        (zone.length < fuel → ∃ a : List Key × List Key, r = Except.ok (ε := VErr) a)) := fun r z h1 h2 => absurd ⟨z, h1, h2⟩ hsig
    unfold acceptKeys
    simp only
    split
    · exact ⟨hs' _, hun _⟩
    · refine Always.bind (anySigVerifies_any _) ?_
      intro b _
      split
      · exact ⟨hs' _, hun _⟩
      · split
        · unfold addDNSKEY
          intro t _ _
          rw [hz.eq]
          exact hput _
        · exact ⟨hs' _, hun _⟩

theorem signed_canon (hw : Honest C W) {z : Name} (h : W.signed z) : Canon (present z) := canon_present (hw.name z h).2

theorem parent_of {l : Str} {z : Name} (h1 : WfName (l :: z)) (h2 : canon (l :: z) = l :: z) (h3 : 46 ∉ l) : parentZone (present (l :: z)) = present z := by
  rw [parent_zone_exact h1 h3]
  unfold canon at h2 ⊢
  rw [List.map_cons, List.cons.injEq] at h2
  rw [h2.2]

theorem Chained.error_of {zone : Str} {fuel : Nat} {e : VErr} (h1 : ∀ z, W.signed z → zone = present z → ¬ zone.length < fuel)
    (h2 : ∀ u, W.unsigned u → zone = present u → zone.length < fuel →
      (∀ x, W.reply (present u) 48 x → ∃ m, x = .msg m ∧ m.rcode = 0 ∧ ∃ k ∈ keysIn m.answer, k.flags = 257) → e = .insecure) :
    Chained W zone fuel (.error e) :=
  ⟨fun z hs he => ⟨fun a ha => by (cases ha), fun hl => absurd hl (h1 z hs he)⟩,
   fun u hu he => ⟨fun a ha => by (cases ha), fun hl hx => by rw [h2 u hu he hl hx]⟩⟩

theorem getDS_always : Always W (fun r => r = W.ds []) (getDS root) := by
  unfold getDS
  have : canonicalName root = root := by decide
  rw [this]
  intro r hr
  obtain ⟨e, he, rfl⟩ := hr rfl
  intro t h1 h2
  dsimp only
  rw [if_neg (by omega)]
  rfl

/-- The DS records of a zone below the root are found to be good, or to be absent. -/
theorem checkDS_always (hw : Honest C W) {zone : Str} {r : List Ds × List Sig × List Rec} (hr : DsGiven W C zone (.ok r)) {zsk : List Key}
    (hk : ∀ l z, (W.signed (l :: z) ∨ W.unsigned (l :: z)) → zone = present (l :: z) → zsk.Perm (zskOf (W.keys z))) :
    Always W (fun x => (∀ l z, W.signed (l :: z) → zone = present (l :: z) → ∃ D, x = .ok D ∧ D.Perm (W.ds (l :: z))) ∧
      (∀ u, W.unsigned u → zone = present u → x = .error .insecure)) (checkDS C zone r.1 r.2.1 r.2.2 zsk) := by
  have mem : ∀ z k, zsk.Perm (zskOf (W.keys z)) → k ∈ W.keys z → k.flags = 256 → k ∈ zsk := fun z k hp h1 h2 =>
    hp.mem_iff.mpr (List.mem_filter.mpr ⟨h1, by simpa using h2⟩)
  by_cases hu : ∃ u, W.unsigned u ∧ zone = present u
  · obtain ⟨u, h1, h2⟩ := hu
    obtain ⟨l, z, m, s, e, hn, hx⟩ := hr.2 u h1 h2
    cases hx
    obtain ⟨_, _, e', hwf, hc, _⟩ := hw.unsigned u h1
    have hns : ∀ l z, W.signed (l :: z) → zone = present (l :: z) → False := by
      intro l z h3 h4
      obtain ⟨m, ⟨_, hp, s, _, _, k, _, _, hg⟩, hx⟩ := hr.1 l z h3 h4
      simp only [Except.ok.injEq, Prod.mk.injEq] at hx
      rw [← hx.1] at hp
      exact hg.nonempty (by rw [List.nil_perm.mp hp]; rfl)
    unfold checkDS
    rw [if_pos rfl]
    intro t ht1 ht2
    dsimp only
    subst h2
    rw [verifyDSDenial_of hw hwf hc hn (fun k hk1 hk2 => mem z k (hk l z (.inr (e ▸ h1)) (by rw [e])) hk1 hk2) ht1 ht2]
    exact ⟨fun l z h3 h4 => (hns l z h3 h4).elim, fun _ _ _ => rfl⟩
  · have hnu : ∀ x : Except VErr (List Ds), (∀ u, W.unsigned u → zone = present u → x = .error .insecure) := fun x u h1 h2 => absurd ⟨u, h1, h2⟩ hu
    by_cases hs : ∃ l z, W.signed (l :: z) ∧ zone = present (l :: z)
    · obtain ⟨l, z, h1, h2⟩ := hs
      obtain ⟨m, ⟨_, hp, s, hsc, hsm, k, hkm, hkf, hg⟩, hx⟩ := hr.1 l z h1 h2
      cases hx
      unfold checkDS
      have hne : dsIn m.answer ≠ [] := by
        intro e; rw [e] at hp
        exact hg.nonempty (by rw [List.nil_perm.mp hp]; rfl)
      have hin : s ∈ (allSigs m.answer).filter fun s => s.covered = 43 := List.mem_filter.mpr ⟨mem_allSigs.mpr hsm, by simpa using hsc⟩
      rw [if_neg hne, if_neg (List.ne_nil_of_mem hin)]
      refine Always.bind (anySigVerifies_genuine hw hg (hp.map _) (mem z k (hk l z (.inl h1) h2) hkm hkf) _ hin) ?_
      intro b hb
      rw [if_pos hb]
      refine ⟨fun l' z' h3 h4 => ⟨_, rfl, ?_⟩, hnu _⟩
      have := present_inj (hw.name _ h3).1 (hw.name _ h1).1 (h4.symm.trans h2)
      rw [this]; exact hp
    · have hns : ∀ x : Except VErr (List Ds), (∀ l z, W.signed (l :: z) → zone = present (l :: z) → ∃ D, x = .ok D ∧ D.Perm (W.ds (l :: z))) :=
        fun x l z h1 h2 => absurd ⟨l, z, h1, h2⟩ hs
      unfold checkDS
      split
      · intro t _ _
        dsimp only
        split <;> exact ⟨hns _, hnu _⟩
      · split
        · exact ⟨hns _, hnu _⟩
        · refine Always.bind (anySigVerifies_any _) ?_
          intro b _
          split <;> exact ⟨hns _, hnu _⟩

theorem buildChain_always (hw : Honest C W) : ∀ (fuel : Nat) {zone : Str}, Canon zone → Always W (Chained W zone fuel) (buildChain C fuel zone) := by
  intro fuel
  induction fuel with
  | zero => intro zone hz; exact Chained.error_of (fun _ _ _ h => by omega) (fun _ _ _ h => by omega)
  | succ fuel ih =>
    intro zone hz
    unfold buildChain
    simp only [hz.eq]
    refine Always.bind (getDNSKEY_always hz) ?_
    intro cached hcached
    split
    · rename_i hne
      rcases hcached with e | ⟨h1, h2⟩
      · rw [e] at hne; simp at hne
      · exact ⟨fun z hs he => ⟨fun a ha => by cases ha; exact h1 z hs he, fun _ => ⟨_, rfl⟩⟩, fun u hu he => absurd he (h2 u hu)⟩
    · refine Always.bind (lookupDNSKEY_always hw hz) ?_
      intro r hr
      cases r with
      | error e =>
        refine Chained.error_of (fun z hs he => ?_) (fun u hu he _ hx => ?_)
        · obtain ⟨m, _, h⟩ := hr.1 z hs he; cases h
        · obtain ⟨a, h, _⟩ := hr.2 u hu he hx; cases h
      | ok r =>
        obtain ⟨zsk, ksk, sigs⟩ := r
        dsimp only
        have hkr : ∀ z, W.signed z → zone = present z → ∃ m, W.KeyReply C z m ∧ zsk = keysOf m.answer 256 ∧ ksk = keysOf m.answer 257 ∧ sigs = allSigs m.answer := by
          intro z hs he
          obtain ⟨m, hk, h⟩ := hr.1 z hs he
          simp only [Except.ok.injEq, Prod.mk.injEq] at h
          exact ⟨m, hk, h⟩
        split
        · rename_i hke
          refine Chained.error_of (fun z hs he => ?_) (fun u hu he _ hx => ?_)
          · obtain ⟨m, ⟨_, hp, s, k, _, _, _, hk, hf, _⟩, _, h2, _⟩ := hkr z hs he
            rw [hke, keysOf_eq] at h2
            exact absurd h2.symm (List.ne_nil_of_mem (List.mem_filter.mpr ⟨hp.mem_iff.mpr hk, by simpa using hf⟩))
          · obtain ⟨a, h, hne⟩ := hr.2 u hu he hx
            cases h
            exact absurd hke hne
        · split
          · rename_i hroot
            refine Always.bind getDS_always ?_
            intro ds hds
            have hnu : ∀ u, W.unsigned u → zone ≠ present u := by
              intro u hu he
              obtain ⟨l, z, e, hwf, _⟩ := hw.unsigned u hu
              have := (present_root_iff hwf).mp (he ▸ hroot)
              rw [e] at this; cases this
            have hroot' : ∀ z, W.signed z → zone = present z → z = [] := fun z hs he => (present_root_iff (hw.name z hs).1).mp (he ▸ hroot)
            split
            · rename_i hde
              refine Chained.error_of (fun z hs he => ?_) (fun u hu he => absurd he (hnu u hu))
              obtain ⟨m, ⟨_, _, s, k, _, _, _, _, _, ⟨d, hd, _⟩, _⟩, _⟩ := hkr z hs he
              rw [hroot' z hs he, ← hds, hde] at hd
              simp at hd
            · refine acceptKeys_always hw hz hnu ?_
              intro z hs he
              refine ⟨?_, hkr z hs he⟩
              rw [hroot' z hs he, hds]
          · rename_i hroot
            refine Always.bind (lookupDS_always hw hz) ?_
            intro dr hdr
            have hsplit : ∀ z, W.signed z → zone = present z → ∃ l z', z = l :: z' := by
              intro z hs he
              cases z with
              | nil => exact absurd (he.trans rfl) hroot
              | cons l z' => exact ⟨l, z', rfl⟩
            cases dr with
            | error e =>
              refine Chained.error_of (fun z hs he => ?_) (fun u hu he _ hx => ?_)
              · obtain ⟨l, z', rfl⟩ := hsplit z hs he
                obtain ⟨m, _, h⟩ := hdr.1 l z' hs he; cases h
              · obtain ⟨_, _, _, _, _, _, h⟩ := hdr.2 u hu he; cases h
            | ok dr =>
              obtain ⟨ds, dsSigs, ns⟩ := dr
              dsimp only
              obtain ⟨_, hpc, _, hplen⟩ := parentZone_spec hz hroot
              have hpar : ∀ l z, (W.signed (l :: z) ∨ W.unsigned (l :: z)) → zone = present (l :: z) → W.signed z ∧ parentZone zone = present z := by
                intro l z h he
                rcases h with h | h
                · have hn := hw.name _ h
                  have ha := hw.above l z h
                  exact ⟨ha.2, by rw [he]; exact parent_of hn.1 hn.2 ha.1⟩
                · obtain ⟨l', z', e, h1, h2, h3, h4, _⟩ := hw.unsigned _ h
                  cases e
                  exact ⟨h4, by rw [he]; exact parent_of h1 h2 h3⟩
              refine Always.bind (ih hpc) ?_
              intro p hp
              cases p with
              | error e =>
                have : ∀ l z, (W.signed (l :: z) ∨ W.unsigned (l :: z)) → zone = present (l :: z) → ¬ zone.length < fuel + 1 := by
                  intro l z h he hlen
                  obtain ⟨h1, h2⟩ := hpar l z h he
                  obtain ⟨a, ha⟩ := (hp.1 z h1 h2).2 (by omega)
                  cases ha
                refine Chained.error_of (fun z hs he => ?_) (fun u hu he hl hx => ?_)
                · obtain ⟨l, z', rfl⟩ := hsplit z hs he
                  exact this l z' (.inl hs) he
                · obtain ⟨l, z, e, _⟩ := hw.unsigned u hu
                  subst e
                  exact absurd hl (this l z (.inr hu) he)
              | ok p =>
                obtain ⟨pz, pk⟩ := p
                dsimp only
                have hzsk : ∀ l z, (W.signed (l :: z) ∨ W.unsigned (l :: z)) → zone = present (l :: z) → pz.Perm (zskOf (W.keys z)) := by
                  intro l z h he
                  obtain ⟨h1, h2⟩ := hpar l z h he
                  exact ((hp.1 z h1 h2).1 _ rfl).1
                refine Always.bind (checkDS_always hw (r := (ds, dsSigs, ns)) hdr hzsk) ?_
                intro x hx
                cases x with
                | error e =>
                  refine Chained.error_of (fun z hs he => ?_) (fun u hu he _ _ => ?_)
                  · obtain ⟨l, z', rfl⟩ := hsplit z hs he
                    obtain ⟨D, h, _⟩ := hx.1 l z' hs he; cases h
                  · have := hx.2 u hu he
                    cases this; rfl
                | ok D =>
                  refine acceptKeys_always hw hz (fun u hu he => ?_) (fun z hs he => ⟨?_, hkr z hs he⟩)
                  · have := hx.2 u hu he; cases this
                  · obtain ⟨l, z', rfl⟩ := hsplit z hs he
                    obtain ⟨D', h, hp⟩ := hx.1 l z' hs he
                    cases h; exact hp

theorem chain_always (hw : Honest C W) {zone : Str} (hz : Canon zone) : Always W (Chained W zone (zone.length + 1)) (chain C zone) := by
  unfold chain
  rw [hz.eq]
  exact buildChain_always hw _ hz

theorem chain_signed (hw : Honest C W) {z : Name} (hs : W.signed z) : Always W (fun r => ∃ a, r = .ok a ∧ a.1.Perm (zskOf (W.keys z))) (chain C (present z)) := by
  refine (chain_always hw (signed_canon hw hs)).mono ?_
  intro r hr
  obtain ⟨h1, h2⟩ := hr.1 z hs rfl
  obtain ⟨a, ha⟩ := h2 (by omega)
  exact ⟨a, ha, (h1 a ha).1⟩

theorem zsk_mem {z : Name} {l : List Key} (h : l.Perm (zskOf (W.keys z))) {k : Key} (hk : k ∈ W.keys z) (hf : k.flags = 256) : k ∈ l :=
  h.mem_iff.mpr (List.mem_filter.mpr ⟨hk, by simpa using hf⟩)

/-! ### Absence of DS records -/

theorem proveNoDS_any (hw : Honest C W) {zone : Str} (hz : Canon zone) (hr : zone ≠ root) : Always W (fun _ => True) (proveNoDS C zone) := by
  unfold proveNoDS
  refine Always.bind (lookupDS_always hw hz) ?_
  intro r _
  cases r with
  | error e => trivial
  | ok r =>
    obtain ⟨ds, ss, ns⟩ := r
    dsimp only
    split
    · trivial
    · refine Always.bind (chain_always hw (parentZone_spec hz hr).2.1) ?_
      intro p _
      cases p with
      | error e => dsimp only; split <;> trivial
      | ok p =>
        obtain ⟨a, b⟩ := p
        intro t _ _
        dsimp only
        split <;> trivial

theorem proveNoDS_signed (hw : Honest C W) {l : Str} {z : Name} (hs : W.signed (l :: z)) : Always W (fun r => r = .ok false) (proveNoDS C (present (l :: z))) := by
  unfold proveNoDS
  refine Always.bind (lookupDS_always hw (signed_canon hw hs)) ?_
  intro r hr
  obtain ⟨m, ⟨_, hp, s, _, _, k, _, _, hg⟩, rfl⟩ := hr.1 l z hs rfl
  dsimp only
  rw [if_pos]
  · rfl
  · intro e
    rw [e] at hp
    exact hg.nonempty (by rw [List.nil_perm.mp hp]; rfl)

theorem proveNoDS_unsigned (hw : Honest C W) {u : Name} (hu : W.unsigned u) : Always W (fun r => r = .ok true) (proveNoDS C (present u)) := by
  obtain ⟨l, z, e, hwf, hc, hd, hs, _⟩ := hw.unsigned u hu
  unfold proveNoDS
  refine Always.bind (lookupDS_always hw (canon_present hc)) ?_
  intro r hr
  obtain ⟨l', z', m, s, e', hn, rfl⟩ := hr.2 u hu rfl
  have hll : l' = l ∧ z' = z := by rw [e] at e'; cases e'; exact ⟨rfl, rfl⟩
  obtain ⟨rfl, rfl⟩ := hll
  dsimp only
  rw [if_neg (by simp)]
  have hp : parentZone (present u) = present z' := by rw [e] at hwf hc ⊢; exact parent_of hwf hc hd
  rw [hp]
  refine Always.bind (chain_signed hw hs) ?_
  rintro p ⟨⟨a, b⟩, rfl, hperm⟩
  intro t h1 h2
  dsimp only
  rw [verifyDSDenial_of hw hwf hc hn (fun k hk hf => zsk_mem hperm hk hf) h1 h2]
  rfl

theorem proveNoDSAny_any (hw : Honest C W) : ∀ zones : List Str, (∀ z ∈ zones, Canon z ∧ z ≠ root) → Always W (fun _ => True) (proveNoDSAny C zones)
  | [], _ => trivial
  | z :: rest, h => by
    unfold proveNoDSAny
    refine Always.bind (proveNoDS_any hw (h z (by simp)).1 (h z (by simp)).2) ?_
    intro r _
    split
    · trivial
    · trivial
    · exact proveNoDSAny_any hw rest fun z hz => h z (by simp [hz])

/-- From the top down there are signed zones until an unsigned one. -/
theorem proveNoDSAny_unsigned (hw : Honest C W) {u : Name} (hu : W.unsigned u) : ∀ (pre post : List Str), (∀ s ∈ pre, ∃ l z, W.signed (l :: z) ∧ s = present (l :: z)) →
    Always W (fun r => r = .error .insecure) (proveNoDSAny C (pre ++ present u :: post))
  | [], post, _ => by
    show Always W _ (proveNoDSAny C (present u :: post))
    unfold proveNoDSAny
    refine Always.bind (proveNoDS_unsigned hw hu) ?_
    rintro r rfl
    rfl
  | s :: pre, post, h => by
    show Always W _ (proveNoDSAny C (s :: (pre ++ present u :: post)))
    unfold proveNoDSAny
    obtain ⟨l, z, hs, rfl⟩ := h s (by simp)
    refine Always.bind (proveNoDS_signed hw hs) ?_
    rintro r rfl
    exact proveNoDSAny_unsigned hw hu pre post fun s hs => h s (by simp [hs])

theorem zonesAbove_eq {n : Name} (hw : WfName n) : zonesAbove (splitName (present n)) = (List.range n.length).map fun i => present (n.drop (n.length - 1 - i)) := by
  unfold zonesAbove
  rw [splitName_present hw, List.length_map]
  apply List.map_congr_left
  intro i hi
  rw [List.mem_range] at hi
  rw [← List.map_drop]
  refine fqdn_join ?_ fun l hl => hw l (List.mem_of_mem_drop hl)
  intro he
  have := congrArg List.length he
  simp at this
  omega

theorem signed_suffix (hw : Honest C W) : ∀ (p z : Name), W.signed (p ++ z) → W.signed z
  | [], _, h => h
  | l :: p, z, h => signed_suffix hw p z (hw.above l (p ++ z) h).2

theorem checkInsecure_any (hw : Honest C W) {s : Str} (h : WireName s) : Always W (fun _ => True) (checkInsecure C s) := by
  obtain ⟨n, hn, rfl⟩ := h
  unfold checkInsecure
  simp only
  split
  · trivial
  · refine proveNoDSAny_any hw _ ?_
    intro z hz
    rw [canonicalName_present] at hz
    obtain ⟨m, hm, hs, rfl⟩ := zonesAbove_present (wf_canon hn) (canon_idem n) hz
    refine ⟨canon_present (canon_suffix hs (canon_idem n)), ?_⟩
    intro he
    exact hm ((present_root_iff (wf_suffix hs (wf_canon hn))).mp he)

/-- The zones above a name, from the top down: signed ones, then one that is below a signed zone, then others. -/
theorem zones_split (hw : Honest C W) {n p z : Name} {l : Str} (hn : WfName n) (hp : p ++ l :: z = canon n) (hs : W.signed z) :
    ∃ pre post : List Str, zonesAbove (splitName (present (canon n))) = pre ++ present (l :: z) :: post ∧ ∀ s ∈ pre, ∃ l z, W.signed (l :: z) ∧ s = present (l :: z) := by
  rw [zonesAbove_eq (wf_canon hn)]
  have hlen : (canon n).length = p.length + (z.length + 1) := by rw [← hp]; simp
  have hsplit : List.range (canon n).length = List.range z.length ++ z.length :: (List.range p.length).map (z.length + 1 + ·) := by
    rw [hlen, Nat.add_comm, List.range_add, List.range_succ]
    simp
  rw [hsplit, List.map_append, List.map_cons]
  have hu' : (canon n).drop ((canon n).length - 1 - z.length) = l :: z := by
    rw [hlen, ← hp]
    have : p.length + (z.length + 1) - 1 - z.length = p.length := by omega
    rw [this, List.drop_left]
  rw [hu']
  refine ⟨_, _, rfl, ?_⟩
  intro s hs'
  obtain ⟨i, hi, rfl⟩ := List.mem_map.mp hs'
  rw [List.mem_range] at hi
  have hdrop : (canon n).drop ((canon n).length - 1 - i) = z.drop (z.length - 1 - i) := by
    rw [hlen, ← hp]
    have : p.length + (z.length + 1) - 1 - i = p.length + ((z.length - 1 - i) + 1) := by omega
    rw [this, List.drop_append, List.drop_eq_nil_of_le (by omega)]
    simp
  rw [hdrop]
  have hsg : W.signed (z.drop (z.length - 1 - i)) := signed_suffix hw (z.take (z.length - 1 - i)) _ (by rw [List.take_append_drop]; exact hs)
  cases hz : z.drop (z.length - 1 - i) with
  | nil =>
    have := congrArg List.length hz
    simp at this
    omega
  | cons l' z' => exact ⟨l', z', hz ▸ hsg, rfl⟩

theorem checkInsecure_unsigned (hw : Honest C W) {n : Name} (hn : WfName n) (h : W.BelowUnsigned n) : Always W (fun r => r = .error .insecure) (checkInsecure C (present n)) := by
  obtain ⟨u, hu, p, hp⟩ := h
  obtain ⟨l, z, e, hwf, hc, hd, hs, _⟩ := hw.unsigned u hu
  rw [hc, e] at hp
  have hne : canon n ≠ [] := by rw [← hp]; simp
  unfold checkInsecure
  simp only [canonicalName_present]
  rw [if_neg (by rw [present_root_iff (wf_canon hn)]; exact hne)]
  obtain ⟨pre, post, e1, e2⟩ := zones_split hw hn hp hs
  rw [e1, ← e]
  exact proveNoDSAny_unsigned hw hu _ _ e2

/-! ### Validation -/

theorem trySigs_any (hw : Honest C W) {owner : Str} {rrset : List Rec} : ∀ (sigs : List Sig) (last : Except VErr Unit), (∀ s ∈ sigs, WireName s.signer) →
    Always W (fun _ => True) (trySigs C owner rrset last sigs)
  | [], _, _ => trivial
  | s :: rest, last, h => by
    have ih := fun last => trySigs_any hw (owner := owner) (rrset := rrset) rest last fun s hs => h s (by simp [hs])
    unfold trySigs
    simp only
    split
    · exact ih _
    · obtain ⟨n, hn, e⟩ := h s (by simp)
      refine Always.bind (chain_always hw (e ▸ canon_canonical n)) ?_
      intro r _
      cases r with
      | error e => exact ih _
      | ok r =>
        obtain ⟨a, b⟩ := r
        intro t _ _
        dsimp only
        split
        · exact ih _
        · trivial

theorem trySigs_signed (hw : Honest C W) {owner : Name} {rrset : List Rec} {s : Sig} {z : Name} {k : Key} (ho : WfName owner) (hoc : canon owner = owner)
    (hz : W.signed z) (hsz : canonicalName s.signer = present z) (hsub : AncestorOrSelf z owner) (hk : k ∈ W.keys z) (hf : k.flags = 256)
    (hg : Genuine C s k rrset W.lo W.hi) : ∀ (sigs : List Sig) (last : Except VErr Unit), (∀ s ∈ sigs, WireName s.signer) → s ∈ sigs →
    Always W (fun r => r = .ok ()) (trySigs C (present owner) rrset last sigs)
  | [], _, _, hs => by simp at hs
  | x :: rest, last, h, hs => by
    have ih := fun last hs => trySigs_signed hw ho hoc hz hsz hsub hk hf hg rest last (fun s hs => h s (by simp [hs])) hs
    unfold trySigs
    simp only
    by_cases hx : x = s
    · subst hx
      rw [hsz, if_neg (by rw [(isSubDomain_present (hw.name z hz).1 ho).mpr hsub]; simp)]
      refine Always.bind (chain_signed hw hz) ?_
      rintro r ⟨⟨a, b⟩, rfl, hp⟩
      intro t h1 h2
      dsimp only
      rw [verifyRRSIG_genuine hw hg (.refl _) (zsk_mem hp hk hf) h1 h2]
      rfl
    · have hs : s ∈ rest := by rcases List.mem_cons.mp hs with h | h; exact absurd h.symm hx; exact h
      split
      · exact ih _ hs
      · obtain ⟨n, hn, e⟩ := h x (by simp)
        refine Always.bind (chain_always hw (e ▸ canon_canonical n)) ?_
        intro r _
        cases r with
        | error e => exact ih _ hs
        | ok r =>
          obtain ⟨a, b⟩ := r
          intro t _ _
          dsimp only
          split
          · exact ih _ hs
          · rfl

theorem chain_unsigned (hw : Honest C W) {u : Name} (hu : W.unsigned u)
    (hx : ∀ x, W.reply (present u) 48 x → ∃ m, x = .msg m ∧ m.rcode = 0 ∧ ∃ k ∈ keysIn m.answer, k.flags = 257) :
    Always W (fun r => r = .error .insecure) (chain C (present u)) := by
  obtain ⟨l, z, e, hwf, hc, hd, hs, _⟩ := hw.unsigned u hu
  refine (chain_always hw (canon_present hc)).mono ?_
  intro r hr
  exact (hr.2 u hu rfl).2 (by omega) hx

theorem trySigs_unsigned (hw : Honest C W) {owner : Name} {rrset : List Rec} (ho : WfName owner) : ∀ (sigs : List Sig) (last : Except VErr Unit),
    (∀ s ∈ sigs, ∃ u, W.unsigned u ∧ canonicalName s.signer = present u ∧ AncestorOrSelf u owner ∧
      ∀ x, W.reply (present u) 48 x → ∃ m, x = .msg m ∧ m.rcode = 0 ∧ ∃ k ∈ keysIn m.answer, k.flags = 257) →
    (sigs = [] → last = .error .insecure) → Always W (fun r => r = .error .insecure) (trySigs C (present owner) rrset last sigs)
  | [], last, _, hl => hl rfl
  | s :: rest, last, h, _ => by
    obtain ⟨u, hu, hsn, hsub, hx⟩ := h s (by simp)
    obtain ⟨_, _, _, hwf, _⟩ := hw.unsigned u hu
    unfold trySigs
    simp only
    rw [hsn, if_neg (by rw [(isSubDomain_present hwf ho).mpr hsub]; simp)]
    refine Always.bind (chain_unsigned hw hu hx) ?_
    rintro r rfl
    exact trySigs_unsigned hw ho rest _ (fun s hs => h s (by simp [hs])) (fun _ => rfl)

theorem validateRRset_eq {rrset : List Rec} {sigs : List Sig} : validateRRset C rrset sigs = trySigs C (canonicalName (ownerOf rrset)) rrset (.ok ()) sigs := rfl

/-- What comes out for one set -/
theorem owner_of_key {l : List Rec} {k : RKey} (h : k ∈ rrsetKeys l) : ∃ r ∈ l, isSig r = false ∧ rkey r = k ∧ ownerOf (rrsetOf l k) = r.hdr.name := by
  obtain ⟨r, hr, e⟩ := ownerOf_mem h
  obtain ⟨h1, h2, h3⟩ := rrsetOf_mem hr
  exact ⟨r, h1, h2, h3, e⟩

theorem validateSets_any (hw : Honest C W) {l : List Rec} (ho : ∀ r ∈ l, WireName r.hdr.name) (hs : ∀ s, Rec.rrsig s ∈ l → WireName s.signer) :
    ∀ keys : List RKey, (∀ k ∈ keys, k ∈ rrsetKeys l) → Always W (fun _ => True) (validateSets C l keys)
  | [], _ => trivial
  | k :: rest, h => by
    obtain ⟨r, hr, _, _, e⟩ := owner_of_key (h k (by simp))
    unfold validateSets
    simp only
    split
    · refine Always.bind (checkInsecure_any hw (s := ownerOf (rrsetOf l k)) (by rw [e]; exact ho r hr)) ?_
      intro r _
      cases r <;> trivial
    · refine Always.bind (trySigs_any hw _ _ fun s h => hs s (sigsOf_mem h).1) ?_
      intro r _
      cases r with
      | error e => trivial
      | ok _ => exact validateSets_any hw ho hs rest fun k hk => h k (by simp [hk])

/-- Signed sets are accepted; if there is none that is not signed, so is the whole, and otherwise the whole is found insecure. -/
theorem validateSets_sets (hw : Honest C W) {l : List Rec} (hs : ∀ s, Rec.rrsig s ∈ l → WireName s.signer) {P : RKey → Prop} :
    ∀ keys : List RKey, (∀ k ∈ keys, k ∈ rrsetKeys l ∧ ∀ r ∈ l, isSig r = false → rkey r = k → (P k ∧ W.SignedSet C l r) ∨ (¬ P k ∧ W.UnsignedSet l r)) →
      Always W (fun x => (x = .ok () ∧ ∀ k ∈ keys, P k) ∨ (x = .error .insecure ∧ ∃ k ∈ keys, ¬ P k)) (validateSets C l keys)
  | [], _ => .inl ⟨rfl, by simp⟩
  | k :: rest, h => by
    obtain ⟨r, hr, hrs, hrk, e⟩ := owner_of_key (h k (by simp)).1
    have ih := validateSets_sets hw hs rest fun k hk => h k (by simp [hk])
    unfold validateSets
    simp only
    rcases (h k (by simp)).2 r hr hrs hrk with ⟨hP, hS⟩ | ⟨hP, hU⟩
    · obtain ⟨s, z, o, hsf, hsz, hz, hwo, hro, hsub, _, key, hk, hf, hg⟩ := hS
      have hmem := sigFor_iff.mp hsf
      rw [hrk] at hmem
      rw [if_neg (List.ne_nil_of_mem hmem)]
      rw [setIn_eq, hrk] at hg
      have := trySigs_signed hw (owner := canon o) (rrset := rrsetOf l k) (wf_canon hwo) (canon_idem o) hz hsz
        (by unfold AncestorOrSelf at *; rw [canon_idem]; exact hsub) hk hf hg (sigsOf l k) (.ok ()) (fun s h => hs s (sigsOf_mem h).1) hmem
      rw [validateRRset_eq, e, hro, canonicalName_present]
      refine Always.bind this ?_
      rintro _ rfl
      refine ih.mono ?_
      rintro x (⟨rfl, hx⟩ | ⟨rfl, k', hk', hx⟩)
      · exact .inl ⟨rfl, fun k' hk' => by
          rcases List.mem_cons.mp hk' with rfl | hk'
          · exact hP
          · exact hx k' hk'⟩
      · exact .inr ⟨rfl, k', by simp [hk'], hx⟩
    · obtain ⟨o, hwo, hro, ⟨hno, hbel⟩ | ⟨⟨s, hsf⟩, hall⟩⟩ := hU
      · have hnil : sigsOf l k = [] := by
          rw [List.eq_nil_iff_forall_not_mem]
          intro s hs
          exact hno s (sigFor_iff.mpr (hrk ▸ hs))
        rw [if_pos hnil]
        have hc := checkInsecure_unsigned hw hwo hbel
        rw [← hro, ← e] at hc
        refine Always.bind hc ?_
        rintro _ rfl
        exact .inr ⟨rfl, k, by simp, hP⟩
      · have hmem := sigFor_iff.mp hsf
        rw [hrk] at hmem
        rw [if_neg (List.ne_nil_of_mem hmem)]
        have := trySigs_unsigned hw (owner := canon o) (rrset := rrsetOf l k) (wf_canon hwo) (sigsOf l k) (.ok ()) (by
          intro s hs
          obtain ⟨u, h1, h2, h3, h4⟩ := hall s (sigFor_iff.mpr (hrk ▸ hs))
          exact ⟨u, h1, h2, by unfold AncestorOrSelf at *; rw [canon_idem]; exact h3, h4⟩) (fun h => absurd h (List.ne_nil_of_mem hmem))
        rw [validateRRset_eq, e, hro, canonicalName_present]
        refine Always.bind this ?_
        rintro _ rfl
        exact .inr ⟨rfl, k, by simp, hP⟩

theorem signedFromAncestor_any (hw : Honest C W) {q : Str} {rrset : List Rec} : ∀ sigs : List Sig, (∀ s ∈ sigs, WireName s.signer) →
    Always W (fun _ => True) (signedFromAncestor C rrset q sigs)
  | [], _ => trivial
  | s :: rest, h => by
    have ih := signedFromAncestor_any hw (q := q) (rrset := rrset) rest fun s hs => h s (by simp [hs])
    unfold signedFromAncestor
    simp only
    split
    · exact ih
    · obtain ⟨n, hn, e⟩ := h s (by simp)
      refine Always.bind (chain_always hw (e ▸ canon_canonical n)) ?_
      intro r _
      cases r with
      | error e => exact ih
      | ok r =>
        obtain ⟨a, b⟩ := r
        intro t _ _
        dsimp only
        split
        · trivial
        · exact ih

theorem signedFromAncestor_signed (hw : Honest C W) {q : Name} {rrset : List Rec} {s : Sig} {z : Name} {k : Key} (hq : WfName q)
    (hz : W.signed z) (hsz : canonicalName s.signer = present z) (hsub : AncestorOrSelf z q) (hk : k ∈ W.keys z) (hf : k.flags = 256)
    (hg : Genuine C s k rrset W.lo W.hi) : ∀ sigs : List Sig, (∀ s ∈ sigs, WireName s.signer) → s ∈ sigs →
    Always W (fun b => b = true) (signedFromAncestor C rrset (present q) sigs)
  | [], _, hs => by simp at hs
  | x :: rest, h, hs => by
    have ih := fun hs => signedFromAncestor_signed hw hq hz hsz hsub hk hf hg rest (fun s hs => h s (by simp [hs])) hs
    unfold signedFromAncestor
    simp only
    by_cases hx : x = s
    · subst hx
      rw [hsz, if_neg (by rw [(isSubDomain_present (hw.name z hz).1 hq).mpr hsub]; simp)]
      refine Always.bind (chain_signed hw hz) ?_
      rintro r ⟨⟨a, b⟩, rfl, hp⟩
      intro t h1 h2
      dsimp only
      rw [verifyRRSIG_genuine hw hg (.refl _) (zsk_mem hp hk hf) h1 h2]
      rfl
    · have hs : s ∈ rest := by rcases List.mem_cons.mp hs with h | h; exact absurd h.symm hx; exact h
      split
      · exact ih hs
      · obtain ⟨n, hn, e⟩ := h x (by simp)
        refine Always.bind (chain_always hw (e ▸ canon_canonical n)) ?_
        intro r _
        cases r with
        | error e => exact ih hs
        | ok r =>
          obtain ⟨a, b⟩ := r
          intro t _ _
          dsimp only
          split
          · rfl
          · exact ih hs

/-- A set of denial records -/
def isDenial (k : RKey) : Prop := k.2 = 47 ∨ k.2 = 50

theorem collect_sub (hw : Honest C W) {ns : List Rec} (hs : ∀ s, Rec.rrsig s ∈ ns → WireName s.signer) {q : Str} :
    ∀ keys : List RKey, Always W (fun l => ∀ r ∈ l, r ∈ ns ∧ isSig r = false ∧ isDenial (rkey r)) (collect C ns q keys)
  | [] => by intro r hr; simp at hr
  | k :: rest => by
    have ih := collect_sub hw hs (q := q) rest
    unfold collect
    split
    · exact ih
    · rename_i hk
      refine Always.bind (signedFromAncestor_any hw _ fun s h => hs s (sigsOf_mem h).1) ?_
      intro b _
      refine Always.bind ih ?_
      intro l hl
      split
      · intro r hr
        rcases List.mem_append.mp hr with hr | hr
        · obtain ⟨h1, h2, h3⟩ := rrsetOf_mem hr
          refine ⟨h1, h2, ?_⟩
          rw [h3]
          unfold isDenial
          by_cases h : k.2 = 47
          · exact .inl h
          · right
            by_cases h' : k.2 = 50
            · exact h'
            · exact absurd ⟨h, h'⟩ hk
        · exact hl r hr
      · exact hl

theorem collect_signed (hw : Honest C W) {ns : List Rec} (hs : ∀ s, Rec.rrsig s ∈ ns → WireName s.signer) {q : Name} (hq : WfName q) :
    ∀ keys : List RKey, (∀ k ∈ keys, k ∈ rrsetKeys ns ∧ (isDenial k → ∀ r ∈ ns, isSig r = false → rkey r = k → W.SignedDenial C ns q r)) →
      Always W (fun l => ∀ r, r ∈ l ↔ (r ∈ ns ∧ isSig r = false ∧ isDenial (rkey r) ∧ rkey r ∈ keys)) (collect C ns (present q) keys)
  | [], _ => by intro r; simp
  | k :: rest, h => by
    have ih := collect_signed hw hs hq rest fun k hk => h k (by simp [hk])
    unfold collect
    split
    · rename_i hk
      refine ih.mono ?_
      intro l hl r
      rw [hl r]
      constructor
      · rintro ⟨h1, h2, h3, h4⟩; exact ⟨h1, h2, h3, by simp [h4]⟩
      · rintro ⟨h1, h2, h3, h4⟩
        refine ⟨h1, h2, h3, ?_⟩
        rcases List.mem_cons.mp h4 with e | h4
        · rw [e] at h3; rcases h3 with h3 | h3
          · exact absurd h3 hk.1
          · exact absurd h3 hk.2
        · exact h4
    · rename_i hk
      have hd : isDenial k := by
        unfold isDenial
        by_cases h : k.2 = 47
        · exact .inl h
        · right
          by_cases h' : k.2 = 50
          · exact h'
          · exact absurd ⟨h, h'⟩ hk
      obtain ⟨r0, hr0, hr0s, hr0k⟩ := mem_rrsetKeys.mp (h k (by simp)).1
      obtain ⟨s, z, hsf, hsz, hz, hsub, _, key, hkk, hf, hg⟩ := (h k (by simp)).2 hd r0 hr0 hr0s hr0k
      rw [setIn_eq, hr0k] at hg
      rw [sigFor_iff, hr0k] at hsf
      refine Always.bind (signedFromAncestor_signed hw hq hz hsz hsub hkk hf hg _ (fun s h => hs s (sigsOf_mem h).1) hsf) ?_
      rintro b rfl
      refine Always.bind ih ?_
      intro l hl
      rw [if_pos rfl]
      intro r
      rw [List.mem_append, hl r]
      constructor
      · rintro (hr | ⟨h1, h2, h3, h4⟩)
        · obtain ⟨h1, h2, h3⟩ := rrsetOf_mem hr
          exact ⟨h1, h2, h3 ▸ hd, by simp [h3]⟩
        · exact ⟨h1, h2, h3, by simp [h4]⟩
      · rintro ⟨h1, h2, h3, h4⟩
        rcases List.mem_cons.mp h4 with e | h4
        · left
          unfold rrsetOf
          exact List.mem_filter.mpr ⟨h1, by simp [h2, e]⟩
        · exact .inr ⟨h1, h2, h3, h4⟩

theorem Always.and {α : Type} {Q R : α → Prop} {p : Prog α} (h : Always W Q p) (h' : Always W R p) : Always W (fun a => Q a ∧ R a) p := by
  induction p with
  | ret a => exact ⟨h, h'⟩
  | panic => exact h
  | clock k ih => exact fun t h1 h2 => ih t (h t h1 h2) (h' t h1 h2)
  | query n ty k ih => exact fun r hr => ih r (h r hr) (h' r hr)
  | order l k ih => exact fun l' hl => ih l' (h l' hl) (h' l' hl)
  | getKeys z k ih => exact fun r hr => ih r (h r hr) (h' r hr)
  | putKeys z ks k ih => exact ⟨h.1, ih h.2 h'.2⟩
  | getDS z k ih => exact fun r hr => ih r (h r hr) (h' r hr)

theorem Always.imp {α : Type} {P : Prop} {Q : α → Prop} {p : Prog α} (h0 : Always W (fun _ => True) p) (h : P → Always W Q p) : Always W (fun a => P → Q a) p := by
  by_cases hp : P
  · exact (h hp).mono fun a ha _ => ha
  · exact h0.mono fun a _ h' => absurd h' hp

theorem unsigned_congr {l : List Rec} {r r' : Rec} (h : W.UnsignedSet l r) (hk : rkey r = rkey r') (hw' : WireName r'.hdr.name) : W.UnsignedSet l r' := by
  obtain ⟨o, ho, hro, hx⟩ := h
  obtain ⟨o', ho', hro'⟩ := hw'
  have hsf : ∀ s, SigFor l r s ↔ SigFor l r' s := fun s => by rw [sigFor_iff, sigFor_iff, hk]
  have hc : canon o = canon o' := by
    have : canonicalName r.hdr.name = canonicalName r'.hdr.name := congrArg Prod.fst hk
    rw [hro, hro', canonicalName_present, canonicalName_present] at this
    exact present_inj (wf_canon ho) (wf_canon ho') this
  refine ⟨o', ho', hro', ?_⟩
  rcases hx with ⟨h1, u, h2, h3⟩ | ⟨⟨s, h1⟩, h2⟩
  · exact .inl ⟨fun s hs => h1 s ((hsf s).mpr hs), u, h2, by unfold AncestorOrSelf at *; rw [← hc]; exact h3⟩
  · refine .inr ⟨⟨s, (hsf s).mp h1⟩, fun s hs => ?_⟩
    obtain ⟨u, h3, h4, h5, h6⟩ := h2 s ((hsf s).mpr hs)
    exact ⟨u, h3, h4, by unfold AncestorOrSelf at *; rw [← hc]; exact h5, h6⟩

theorem validateDenial_any (hw : Honest C W) {m : SMsg} (hm : WireMsg m) : Always W (fun _ => True) (validateDenial C m) := by
  unfold validateDenial
  split
  · trivial
  · rename_i name qt hq
    intro keys _
    refine Always.bind (collect_sub hw (fun s h => hm.signer s (by simp [h])) keys) ?_
    intro l _
    split
    · trivial
    · split
      · trivial
      · refine Always.bind (checkInsecure_any hw (wireName_canonical (hm.question _ hq))) ?_
        intro r _
        cases r <;> trivial

theorem validate_any (hw : Honest C W) {m : SMsg} (hm : WireMsg m) : Always W (fun _ => True) (validate C m) := by
  unfold validate
  split
  · exact validateDenial_any hw hm
  · intro keys hk
    exact validateSets_any hw (fun r h => hm.owner r (by simp [h])) (fun s h => hm.signer s (by simp [h])) keys fun k h => hk.mem_iff.mp h

theorem isRecord_of {r : Rec} (h : isSig r = false) : isRecord r = true := by rw [isRecord_eq, h]; rfl

theorem validate_signed (hw : Honest C W) {m : SMsg} (hm : WireMsg m) (hne : m.answer ≠ []) (hs : ∀ r ∈ m.answer, isRecord r = true → W.SignedSet C m.answer r) :
    Always W (fun x => x = .ok ()) (validate C m) := by
  unfold validate
  rw [if_neg hne]
  intro keys hk
  refine (validateSets_sets hw (fun s h => hm.signer s (by simp [h])) (P := fun _ => True) keys ?_).mono ?_
  · intro k h
    exact ⟨hk.mem_iff.mp h, fun r hr h2 _ => .inl ⟨trivial, hs r hr (isRecord_of h2)⟩⟩
  · rintro x (⟨h, _⟩ | ⟨_, _, _, h⟩)
    · exact h
    · exact absurd trivial h

theorem validate_unsigned (hw : Honest C W) {m : SMsg} (hm : WireMsg m)
    (hs : ∀ r ∈ m.answer, isRecord r = true → W.SignedSet C m.answer r ∨ W.UnsignedSet m.answer r) (hu : ∃ r ∈ m.answer, isRecord r = true ∧ W.UnsignedSet m.answer r) :
    Always W (fun x => x = .error .insecure) (validate C m) := by
  obtain ⟨r0, hr0, hi0, hu0⟩ := hu
  unfold validate
  rw [if_neg (List.ne_nil_of_mem hr0)]
  intro keys hk
  refine (validateSets_sets hw (fun s h => hm.signer s (by simp [h])) (P := fun k => ¬ ∃ r ∈ m.answer, isRecord r = true ∧ rkey r = k ∧ W.UnsignedSet m.answer r) keys ?_).mono ?_
  · intro k h
    refine ⟨hk.mem_iff.mp h, fun r hr h2 hrk => ?_⟩
    by_cases hP : ∃ r ∈ m.answer, isRecord r = true ∧ rkey r = k ∧ W.UnsignedSet m.answer r
    · right
      refine ⟨fun h => h hP, ?_⟩
      obtain ⟨r', _, _, hk', hu'⟩ := hP
      exact unsigned_congr hu' (hk'.trans hrk.symm) (hm.owner r (by simp [hr]))
    · left
      refine ⟨hP, ?_⟩
      rcases hs r hr (isRecord_of h2) with h | h
      · exact h
      · exact absurd ⟨r, hr, isRecord_of h2, hrk, h⟩ hP
  · rintro x (⟨_, h⟩ | ⟨h, _⟩)
    · exact absurd ⟨r0, hr0, hi0, rfl, hu0⟩ (h (rkey r0) (hk.mem_iff.mpr (mem_rrsetKeys.mpr ⟨r0, hr0, by rw [isRecord_eq] at hi0; simpa using hi0, rfl⟩)))
    · exact h

theorem validate_below (hw : Honest C W) {m : SMsg} (hm : WireMsg m) {q : Name} {t : Nat} (he : m.answer = []) (hq : m.question = some (present q, t)) (hwq : WfName q)
    (hb : W.BelowUnsigned q) : Always W (fun x => (x = .ok () ∨ x = .error .insecure) ∧ ((∀ r ∈ m.ns, r.rtype ≠ 47 ∧ r.rtype ≠ 50) → x = .error .insecure)) (validate C m) := by
  unfold validate
  rw [if_pos he]
  unfold validateDenial
  rw [hq]
  dsimp only
  intro keys _
  refine Always.bind (collect_sub hw (fun s h => hm.signer s (by simp [h])) keys) ?_
  intro l hl
  have hnil : (∀ r ∈ m.ns, r.rtype ≠ 47 ∧ r.rtype ≠ 50) → l = [] := by
    intro h
    rw [List.eq_nil_iff_forall_not_mem]
    intro r hr
    obtain ⟨h1, _, h2 | h2⟩ := hl r hr
    · exact (h r h1).1 h2
    · exact (h r h1).2 h2
  split
  · rename_i hx
    refine ⟨.inl rfl, fun h => ?_⟩
    rw [hnil h] at hx
    simp [nsecsOf, nsecProvesDenial] at hx
  · split
    · rename_i hx
      refine ⟨.inl rfl, fun h => ?_⟩
      rw [hnil h] at hx
      simp [nsec3sOf, nsec3ProvesDenial] at hx
    · rw [canonicalName_present]
      have hb' : W.BelowUnsigned (canon q) := by
        obtain ⟨u, h1, h2⟩ := hb
        exact ⟨u, h1, by unfold AncestorOrSelf at *; rw [canon_idem]; exact h2⟩
      refine Always.bind (checkInsecure_unsigned hw (wf_canon hwq) hb') ?_
      rintro _ rfl
      exact ⟨.inr rfl, fun _ => rfl⟩

theorem rtype_isSig {r : Rec} (h : r.rtype = 47 ∨ r.rtype = 50) : isSig r = false := by
  cases r <;> first | rfl | (rcases h with h | h <;> exact absurd (show (46 : Nat) = _ from h) (by decide))

theorem validate_denied (hw : Honest C W) {m : SMsg} (hm : WireMsg m) {q : Name} {t : Nat} (he : m.answer = []) (hq : m.question = some (present q, t)) (hwq : WfName q)
    (hs : ∀ r ∈ m.ns, r.rtype = 47 ∨ r.rtype = 50 → W.SignedDenial C m.ns (canon q) r) :
    Always W (fun x => ∃ l : List Rec, (∀ r, r ∈ l ↔ (r ∈ m.ns ∧ (r.rtype = 47 ∨ r.rtype = 50))) ∧
      (nsecProvesDenial (nsecsOf l) (present (canon q)) t m.rcode = true ∨ nsec3ProvesDenial C.lib (nsec3sOf l) (present (canon q)) t m.rcode = true → x = .ok ())) (validate C m) := by
  unfold validate
  rw [if_pos he]
  unfold validateDenial
  rw [hq]
  dsimp only
  intro keys hk
  rw [canonicalName_present]
  refine Always.bind (collect_signed hw (fun s h => hm.signer s (by simp [h])) (wf_canon hwq) keys ?_) ?_
  · intro k h
    refine ⟨hk.mem_iff.mp h, fun hd r hr h1 h2 => hs r hr ?_⟩
    rw [← h2] at hd
    exact hd
  · intro l hl
    have hl' : ∀ r, r ∈ l ↔ (r ∈ m.ns ∧ (r.rtype = 47 ∨ r.rtype = 50)) := by
      intro r
      rw [hl r]
      constructor
      · rintro ⟨h1, _, h2, _⟩; exact ⟨h1, h2⟩
      · rintro ⟨h1, h2⟩
        exact ⟨h1, rtype_isSig h2, h2, hk.mem_iff.mpr (mem_rrsetKeys.mpr ⟨r, h1, rtype_isSig h2, rfl⟩)⟩
    split
    · exact ⟨l, hl', fun _ => rfl⟩
    · rename_i h1
      split
      · exact ⟨l, hl', fun _ => rfl⟩
      · rename_i h2
        refine Always.bind (checkInsecure_any hw ⟨_, wf_canon hwq, rfl⟩) ?_
        intro x _
        cases x with
        | error e => exact ⟨l, hl', fun h => h.elim (fun h => absurd h h1) (fun h => absurd h h2)⟩
        | ok _ => exact ⟨l, hl', fun h => h.elim (fun h => absurd h h1) (fun h => absurd h h2)⟩

/-! ### The validator -/

/-- The store is as it should be. -/
structure Good (W : World) (st : Store) : Prop where
  keys : ∀ zone ks, st.keys zone = some ks → Held W zone ks
  ds : ∃ e : Int, W.hi ≤ e ∧ st.ds root = some ⟨e, W.ds []⟩

/-- One step keeps the store good, and what the rest of the program always does. -/
theorem step_good {α : Type} {Q : α → Prop} {st st' : Store} {lo t : Int} {p p' : Prog α} (hg : Good W st) (ha : Always W Q p) (hlo : W.lo ≤ lo)
    (h : Step st lo p st' t p') (ht : t ≤ W.hi) (hr : ∀ n ty k, p = .query n ty k → ∃ r, W.reply n ty r ∧ p' = k r) :
    Good W st' ∧ Always W Q p' ∧ lo ≤ t := by
  cases h with
  | clock h => exact ⟨hg, ha _ (Int.le_trans hlo h) ht, h⟩
  | query r =>
    obtain ⟨r', h1, h2⟩ := hr _ _ _ rfl
    rw [h2]
    exact ⟨hg, ha r' h1, Int.le_refl _⟩
  | order h => exact ⟨hg, ha _ h, Int.le_refl _⟩
  | getKeys => exact ⟨hg, ha _ fun ks h => hg.keys _ ks h, Int.le_refl _⟩
  | putKeys =>
    refine ⟨⟨?_, hg.ds⟩, ha.2, Int.le_refl _⟩
    rename_i z ks
    intro zone ks' h
    dsimp only at h
    split at h
    · rename_i e
      cases h
      rw [e]; exact ha.1
    · exact hg.keys zone ks' h
  | getDS =>
    refine ⟨hg, ha _ ?_, Int.le_refl _⟩
    rintro rfl
    exact hg.ds

theorem reach_always {Q : SMsg → Except VErr Unit → Prop} (hq : ∀ m, WireMsg m → Always W (Q m) (validate C m)) {s0 s : Sys} (h0 : Ready W s0) (h : W.Reach C s0 s) :
    Good W s.store ∧ W.lo ≤ s.now ∧ ∀ c ∈ s.calls, WireMsg c.msg ∧ Always W (Q c.msg) c.prog := by
  induction h with
  | refl =>
    refine ⟨⟨fun zone ks hz => ⟨fun z hs he => ?_, fun u hu he => ?_⟩, h0.anchors⟩, h0.time, fun c hc => by rw [h0.calls] at hc; simp at hc⟩
    · rw [he] at hz; exact h0.kept z ks hs hz
    · rw [he] at hz; exact h0.keptUnsigned u ks hu hz
  | call _ hm h1 h2 ih =>
    refine ⟨ih.1, Int.le_trans ih.2.1 h1, fun c hc => ?_⟩
    rcases List.mem_append.mp hc with hc | hc
    · exact ih.2.2 c hc
    · rw [List.mem_singleton] at hc
      subst hc
      exact ⟨hm, hq _ hm⟩
  | @step s i c st t p _ hi hs ht hr ih =>
    obtain ⟨ihg, ihl, ihc⟩ := ih
    have hc := ihc c (List.mem_of_getElem? hi)
    obtain ⟨g, a, l⟩ := step_good ihg hc.2 ihl hs ht hr
    refine ⟨g, Int.le_trans ihl l, fun c' hc' => ?_⟩
    rcases List.mem_or_eq_of_mem_set hc' with hc' | rfl
    · exact ihc c' hc'
    · exact ⟨hc.1, a⟩

end Verif.DnssecServes
