import Verif.Spec.Dnssec
import Verif.Lemmas.DnssecName
/-
Reasoning about validations that run interleaved: `Safe` holds for a program if whatever the environment answers, its result is as claimed and it writes
only keys into the store that are linked to the trust anchors, as long as others do the same.
-/
set_option linter.unusedVariables false
set_option linter.unusedSimpArgs false
namespace Verif.Dnssec
open Verif Verif.DnssecSpec

/-! ### Names -/

def Canon (s : Str) : Prop := Blocklist.isFqdn s = true ∧ lower s = s

theorem Canon.eq {s : Str} (h : Canon s) : canonicalName s = s := by
  unfold canonicalName Blocklist.fqdn; rw [if_pos h.1, h.2]

theorem canon_present {n : Name} (h : canon n = n) : Canon (present n) := ⟨isFqdn_present n, by rw [lower_present, h]⟩

theorem canon_canonical (n : Name) : Canon (canonicalName (present n)) := by
  rw [canonicalName_present]; exact canon_present (canon_idem n)

theorem takeWhile_stop (r l : Str) : (r ++ 46 :: l).takeWhile (fun c => decide (c = 92)) = r.takeWhile (fun c => decide (c = 92)) := by
  induction r with
  | nil => rfl
  | cons c cs ih =>
    simp only [List.cons_append, List.takeWhile_cons, ih]

theorem isFqdn_rest {l p : Str} (hp : p ≠ []) (h : Blocklist.isFqdn (l ++ 46 :: p) = true) : Blocklist.isFqdn p = true := by
  unfold Blocklist.isFqdn at h ⊢
  have : (l ++ 46 :: p).reverse = p.reverse ++ 46 :: l.reverse := by simp
  rw [this] at h
  cases hr : p.reverse with
  | nil => simp at hr; exact absurd hr hp
  | cons c r =>
    rw [hr] at h
    rw [List.cons_append] at h
    by_cases hc : c = 46
    · subst hc
      simp only [takeWhile_stop] at h
      exact h
    · exfalso
      revert h
      split
      · rename_i heq; simp only [List.cons.injEq] at heq; exact absurd heq.1 hc
      · simp

theorem cutDot_spec : ∀ s : Str, match cutDot s with
    | none => 46 ∉ s
    | some p => ∃ l : Str, 46 ∉ l ∧ s = l ++ 46 :: p
  | [] => by simp [cutDot]
  | c :: cs => by
    have ih := cutDot_spec cs
    unfold cutDot
    by_cases h : c = 46
    · subst h; simp only [if_true]; exact ⟨[], by simp, rfl⟩
    · simp only [h, if_false]
      cases hc : cutDot cs with
      | none => rw [hc] at ih; simp only at ih ⊢; simp [ih, Ne.symm h]
      | some p =>
        rw [hc] at ih
        obtain ⟨l, hl, e⟩ := ih
        exact ⟨c :: l, by simp [hl, Ne.symm h], by rw [e]; rfl⟩

theorem fqdn_dot {s : Str} (h : Blocklist.isFqdn s = true) : 46 ∈ s := by
  unfold Blocklist.isFqdn at h
  revert h
  split
  · rename_i rest heq
    intro _
    have : 46 ∈ s.reverse := by rw [heq]; simp
    simpa using this
  · simp

/-- The parent of a canonical name other than the root -/
theorem parentZone_spec {z : Str} (hz : Canon z) (hr : z ≠ root) :
    ParentName z (parentZone z) ∧ Canon (parentZone z) ∧ parentZone z <:+ z ∧ (parentZone z).length < z.length := by
  unfold parentZone
  simp only [hz.eq, hr, if_false]
  have hs := cutDot_spec z
  cases hc : cutDot z with
  | none => rw [hc] at hs; exact absurd (fqdn_dot hz.1) hs
  | some p =>
    rw [hc] at hs
    obtain ⟨l, hl, e⟩ := hs
    cases p with
    | nil =>
      refine ⟨⟨l, hl, .inr ⟨e, rfl⟩⟩, ⟨by decide, by decide⟩, ⟨l, e.symm⟩, ?_⟩
      cases l with
      | nil => exact absurd e hr
      | cons c cs => rw [e]; simp
    | cons c cs =>
      refine ⟨⟨l, hl, .inl ⟨e, by simp⟩⟩, ⟨?_, ?_⟩, ⟨l ++ [46], by rw [e]; simp⟩, ?_⟩
      · exact isFqdn_rest (l := l) (by simp) (e ▸ hz.1)
      · have := hz.2
        rw [e, lower_append] at this
        have h2 := List.append_inj this (by simp [lower])
        have h3 : lower (46 :: c :: cs) = 46 :: c :: cs := h2.2
        exact (List.cons.inj h3).2
      · rw [e]; simp; omega

/-! ### Programs -/

variable (C : Crypto) (A : List Ds)

/-- What is kept for a zone at a time is linked to the trust anchors -/
def KeyOk (zone : Str) (ks : KeySet) (now : Int) : Prop :=
  ∃ (keys : List Key) (a' b' c : Int), Trusted C A zone keys a' b' ∧ b' ≤ c ∧ c ≤ now ∧ (∀ k ∈ ks.zsk, k ∈ keys ∧ k.flags = 256)
    ∧ ∀ k ∈ keys, ks.expiresAt ≤ c + (k.hdr.ttl : Int) * 1000000000

def DsOk (zone : Str) (ds : DsSet) : Prop := zone = root → ∀ d ∈ ds.records, d ∈ A

def Safe {α : Type} (Q : Int → α → Prop) : Int → Prog α → Prop
  | lo, .ret x => ∀ t : Int, lo ≤ t → Q t x
  | _, .panic => True
  | lo, .clock k => ∀ t : Int, lo ≤ t → Safe Q t (k t)
  | lo, .query _ _ k => ∀ t : Int, lo ≤ t → ∀ r : Reply, Safe Q t (k r)
  | lo, .order l k => ∀ t : Int, lo ≤ t → ∀ l' : List RKey, l'.Perm l → Safe Q t (k l')
  | lo, .getKeys z k => ∀ t : Int, lo ≤ t → ∀ r : Option KeySet, (∀ ks : KeySet, r = some ks → KeyOk C A z ks t) → Safe Q t (k r)
  | lo, .putKeys z ks k => ∀ t : Int, lo ≤ t → KeyOk C A z ks t ∧ Safe Q t k
  | lo, .getDS z k => ∀ t : Int, lo ≤ t → ∀ r : Option DsSet, (∀ ds : DsSet, r = some ds → DsOk A z ds) → Safe Q t (k r)

variable {C A}

theorem Safe.later {α : Type} {Q : Int → α → Prop} {p : Prog α} {lo lo' : Int} (h : Safe C A Q lo p) (hl : lo ≤ lo') : Safe C A Q lo' p := by
  cases p <;> simp only [Safe] at h ⊢ <;> intro t ht <;> exact h t (Int.le_trans hl ht)

theorem Safe.bind {α β : Type} {Q : Int → α → Prop} {R : Int → β → Prop} {p : Prog α} {f : α → Prog β} {lo : Int} (h : Safe C A Q lo p)
    (hf : ∀ t : Int, lo ≤ t → ∀ x : α, Q t x → Safe C A R t (f x)) : Safe C A R lo (p.bind f) := by
  induction p generalizing lo with
  | ret x => exact hf lo (Int.le_refl _) x (h lo (Int.le_refl _))
  | panic => trivial
  | clock k ih => intro t ht; exact ih t (h t ht) fun t' ht' => hf t' (Int.le_trans ht ht')
  | query n ty k ih => intro t ht r; exact ih r (h t ht r) fun t' ht' => hf t' (Int.le_trans ht ht')
  | order l k ih => intro t ht l' hl; exact ih l' (h t ht l' hl) fun t' ht' => hf t' (Int.le_trans ht ht')
  | getKeys z k ih => intro t ht r hr; exact ih r (h t ht r hr) fun t' ht' => hf t' (Int.le_trans ht ht')
  | putKeys z ks k ih => intro t ht; exact ⟨(h t ht).1, ih (h t ht).2 fun t' ht' => hf t' (Int.le_trans ht ht')⟩
  | getDS z k ih => intro t ht r hr; exact ih r (h t ht r hr) fun t' ht' => hf t' (Int.le_trans ht ht')

theorem Safe.mono {α : Type} {Q R : Int → α → Prop} {p : Prog α} {lo : Int} (h : Safe C A Q lo p) (hq : ∀ t : Int, lo ≤ t → ∀ x : α, Q t x → R t x) :
    Safe C A R lo p := by
  induction p generalizing lo with
  | ret x => intro t ht; exact hq t ht x (h t ht)
  | panic => trivial
  | clock k ih => intro t ht; exact ih t (h t ht) fun t' ht' => hq t' (Int.le_trans ht ht')
  | query n ty k ih => intro t ht r; exact ih r (h t ht r) fun t' ht' => hq t' (Int.le_trans ht ht')
  | order l k ih => intro t ht l' hl; exact ih l' (h t ht l' hl) fun t' ht' => hq t' (Int.le_trans ht ht')
  | getKeys z k ih => intro t ht r hr; exact ih r (h t ht r hr) fun t' ht' => hq t' (Int.le_trans ht ht')
  | putKeys z ks k ih => intro t ht; exact ⟨(h t ht).1, ih (h t ht).2 fun t' ht' => hq t' (Int.le_trans ht ht')⟩
  | getDS z k ih => intro t ht r hr; exact ih r (h t ht r hr) fun t' ht' => hq t' (Int.le_trans ht ht')

theorem Safe.ret {α : Type} {Q : Int → α → Prop} {x : α} {lo : Int} (h : ∀ t : Int, lo ≤ t → Q t x) : Safe C A Q lo (.ret x) := h
theorem Safe.clock {α : Type} {Q : Int → α → Prop} {k : Int → Prog α} {lo : Int} (h : ∀ t : Int, lo ≤ t → Safe C A Q t (k t)) : Safe C A Q lo (.clock k) := h

/-! ### Signatures -/

theorem isRRset_spec {l : List Rec} (h : isRRset l = true) : l ≠ [] ∧ (∀ r ∈ l, ∀ r' ∈ l, r.rtype = r'.rtype ∧ r.hdr.cls = r'.hdr.cls ∧ r.hdr.name = r'.hdr.name) := by
  cases l with
  | nil => simp [isRRset] at h
  | cons x xs =>
    refine ⟨by simp, ?_⟩
    have hx : ∀ r ∈ x :: xs, r.rtype = x.rtype ∧ r.hdr.cls = x.hdr.cls ∧ r.hdr.name = x.hdr.name := by
      intro r hr
      rcases List.mem_cons.mp hr with rfl | hr
      · exact ⟨rfl, rfl, rfl⟩
      · have := List.all_eq_true.mp h r hr
        simp only [Bool.and_eq_true, decide_eq_true_eq] at this
        exact ⟨this.1.1, this.1.2, this.2⟩
    intro r hr r' hr'
    have h1 := hx r hr
    have h2 := hx r' hr'
    exact ⟨h1.1.trans h2.1.symm, h1.2.1.trans h2.2.1.symm, h1.2.2.trans h2.2.2.symm⟩

theorem lower_canonicalName (s : Str) : lower (canonicalName s) = canonicalName s := by unfold canonicalName; rw [lower_idem]

theorem verifyRRSIG_ok {s : Sig} {keys : List Key} {rrset : List Rec} {t : Int} (h : verifyRRSIG C s keys rrset t = .ok ()) :
    ∃ k ∈ keys, SignedBy C s k rrset t := by
  unfold verifyRRSIG at h
  split at h
  · simp at h
  · rename_i hp
    simp only at h
    split at h
    · simp at h
    · split at h
      · rename_i hany
        obtain ⟨k, hk, hv⟩ := List.any_eq_true.mp hany
        obtain ⟨hk, hm⟩ := List.mem_filter.mp hk
        unfold verify at hv
        simp only [Bool.and_eq_true, decide_eq_true_eq] at hv hm
        obtain ⟨⟨⟨⟨⟨⟨⟨h1, h2⟩, h3⟩, h4⟩, h5⟩, h6⟩, h7⟩, h8⟩ := hv
        obtain ⟨hne, hall⟩ := isRRset_spec h1
        refine ⟨k, hk, ?_, h8, h2, h4.symm, ?_, hne, ?_, fun r hr r' hr' => (hall r hr r' hr').2.2⟩
        · simpa using hp
        · unfold equalFold at h5
          simp only [beq_iff_eq] at h5
          rw [← h5, lower_canonicalName]
        · cases rrset with
          | nil => exact absurd rfl hne
          | cons x xs =>
            simp only [Bool.and_eq_true, decide_eq_true_eq] at h7
            intro r hr
            have := hall r hr x (by simp)
            exact ⟨this.1.trans h7.1.2, this.2.1.trans h7.1.1⟩
      · simp at h

theorem filterKeysByDS_mem {keys : List Key} {ds : List Ds} {k : Key} (h : k ∈ filterKeysByDS C keys ds) : k ∈ keys ∧ HasDs C k ds := by
  obtain ⟨h1, h2⟩ := List.mem_filter.mp h
  obtain ⟨d, hd, hx⟩ := List.any_eq_true.mp h2
  refine ⟨h1, d, hd, ?_⟩
  revert hx
  split
  · rename_i x hx; intro he; exact ⟨x, hx, he⟩
  · simp

theorem anySigVerifies_safe {keys : List Key} {rrset : List Rec} {sigs : List Sig} {lo : Int} :
    Safe C A (fun b r => r = true → ∃ s ∈ sigs, ∃ k ∈ keys, ∃ t : Int, lo ≤ t ∧ t ≤ b ∧ SignedBy C s k rrset t) lo (anySigVerifies C keys rrset sigs) := by
  suffices H : ∀ (l : List Sig), (∀ s ∈ l, s ∈ sigs) → ∀ lo' : Int, lo ≤ lo' →
      Safe C A (fun b r => r = true → ∃ s ∈ sigs, ∃ k ∈ keys, ∃ t : Int, lo ≤ t ∧ t ≤ b ∧ SignedBy C s k rrset t) lo' (anySigVerifies C keys rrset l) from
    H sigs (fun s h => h) lo (Int.le_refl _)
  intro l
  induction l with
  | nil => intro _ lo' _; apply Safe.ret; simp
  | cons s rest ih =>
    intro hs lo' hlo
    apply Safe.clock
    intro t ht
    cases hv : verifyRRSIG C s keys rrset t with
    | ok u =>
      apply Safe.ret
      intro b hb _
      obtain ⟨k, hk, hsig⟩ := verifyRRSIG_ok hv
      exact ⟨s, hs s (by simp), k, hk, t, Int.le_trans hlo ht, hb, hsig⟩
    | error e => exact ih (fun s' h' => hs s' (by simp [h'])) t (Int.le_trans hlo ht)

theorem verifyAny_ok {sigs : List Sig} {keys : List Key} {rrset : List Rec} {t : Int} (h : verifyAnyRRSIG C sigs keys rrset t = true) :
    ∃ s ∈ sigs, ∃ k ∈ keys, SignedBy C s k rrset t := by
  obtain ⟨s, hs, hv⟩ := List.any_eq_true.mp h
  cases he : verifyRRSIG C s keys rrset t with
  | ok u => exact ⟨s, hs, verifyRRSIG_ok he⟩
  | error e => rw [he] at hv; simp at hv

theorem _root_.Verif.DnssecSpec.UsableIn.later {keys : List Key} {a' b' a b b2 : Int} (h : UsableIn keys a' b' a b) (hb : b ≤ b2) : UsableIn keys a' b' a b2 := by
  rcases h with ⟨h1, h2⟩ | ⟨c, u, h1, h2, h3, h4, h5⟩
  · exact .inl ⟨h1, Int.le_trans h2 hb⟩
  · exact .inr ⟨c, u, h1, h2, h3, Int.le_trans h4 hb, h5⟩

theorem _root_.Verif.DnssecSpec.Usable.later {zone : Str} {keys : List Key} {a b b2 : Int} (h : Usable C A zone keys a b) (hb : b ≤ b2) : Usable C A zone keys a b2 := by
  obtain ⟨a', b', h1, h2⟩ := h
  exact ⟨a', b', h1, h2.later hb⟩

theorem _root_.Verif.DnssecSpec.SignedByZone.later {zone : Str} {s : Sig} {l : List Rec} {a b b2 : Int} (h : SignedByZone C A zone s l a b) (hb : b ≤ b2) :
    SignedByZone C A zone s l a b2 := by
  obtain ⟨keys, k, t, h1, h2, h3, h4, h5, h6⟩ := h
  exact ⟨keys, k, t, h1.later hb, h2, h3, h4, Int.le_trans h5 hb, h6⟩

theorem _root_.Verif.DnssecSpec.Insecure.later {zone : Str} {a b b2 : Int} (h : Insecure C A zone a b) (hb : b ≤ b2) : Insecure C A zone a b2 := by
  obtain ⟨p, s, l, r, h1, h2, h3⟩ := h
  exact ⟨p, s, l, r, h1, h2.later hb, h3⟩

theorem _root_.Verif.DnssecSpec.InsecureAbove.later {zone : Str} {a b b2 : Int} (h : InsecureAbove C A zone a b) (hb : b ≤ b2) : InsecureAbove C A zone a b2 := by
  obtain ⟨z, h1, h2⟩ := h
  exact ⟨z, h1, h2.later hb⟩

theorem rrsetOf_mem {l : List Rec} {k : RKey} {r : Rec} (h : r ∈ rrsetOf l k) : r ∈ l ∧ isSig r = false ∧ rkey r = k := by
  obtain ⟨h1, h2⟩ := List.mem_filter.mp h
  simp only [Bool.and_eq_true, Bool.not_eq_true', decide_eq_true_eq] at h2
  exact ⟨h1, h2.1, h2.2⟩

/-- An accepted proof that there is no DS: it is signed with a key of the parent -/
theorem verifyDSDenial_ok {ns : List Rec} {zone parent : Str} {pkeys zsk : List Key} {a b t : Int} (hz : Canon zone) (hp : ParentName zone parent)
    (hu : Usable C A parent pkeys a b) (hzsk : ∀ k ∈ zsk, k ∈ pkeys ∧ k.flags = 256) (hta : a ≤ t) (htb : t ≤ b)
    (h : verifyDSDenial C ns zone zsk t = .ok ()) : Insecure C A zone a b := by
  unfold verifyDSDenial at h
  simp only [hz.eq] at h
  split at h
  · rename_i hany
    obtain ⟨k, _, hk⟩ := List.any_eq_true.mp hany
    simp only [Bool.and_eq_true] at hk
    obtain ⟨⟨_, hv⟩, hd⟩ := hk
    obtain ⟨s, hs, key, hkey, hsig⟩ := verifyAny_ok hv
    obtain ⟨r, hr, hdr⟩ := List.any_eq_true.mp hd
    refine ⟨parent, s, rrsetOf ns k, r, hp, ⟨pkeys, key, t, hu, (hzsk key hkey).1, (hzsk key hkey).2, hta, htb, hsig⟩, hr, ?_⟩
    cases r <;> simp only [deniesDS] at hdr
    · exact absurd hdr (by simp)
    · exact absurd hdr (by simp)
    · exact absurd hdr (by simp)
    · rename_i n; exact .inl ⟨n, rfl, hdr⟩
    · rename_i n; exact .inr ⟨n, rfl, hdr⟩
    · exact absurd hdr (by simp)
  · simp at h

/-! ### Chain of trust -/

/-- What `buildChainOfTrust` returns -/
def ChainPost (C : Crypto) (A : List Ds) (zone : Str) (a : Int) (b : Int) : Except VErr (List Key × List Key) → Prop
  | .ok r => ∃ keys : List Key, Usable C A zone keys a b ∧ ∀ k ∈ r.1, k ∈ keys ∧ k.flags = 256
  | .error e => e ≠ .outOfFuel ∧ (e = .insecure → InsecureAbove C A zone a b)

theorem getDNSKEY_safe {zone : Str} (hz : Canon zone) {a : Int} : Safe C A (fun b (r : List Key × List Key) => (r.1 ≠ [] ∨ r.2 ≠ []) →
    ∃ keys : List Key, Usable C A zone keys a b ∧ ∀ k ∈ r.1, k ∈ keys ∧ k.flags = 256) a (getDNSKEY zone) := by
  unfold getDNSKEY
  rw [hz.eq]
  intro t ht r hr
  cases r with
  | none => apply Safe.ret; simp
  | some ks =>
    apply Safe.clock
    intro u hu
    split
    · apply Safe.ret; simp
    · rename_i hexp
      apply Safe.ret
      intro b hb _
      obtain ⟨keys, a', b', c, h1, h2, h3, h4, h5⟩ := hr ks rfl
      refine ⟨keys, ⟨a', b', h1, .inr ⟨c, u, h2, by omega, by omega, hb, ?_⟩⟩, h4⟩
      intro k hk
      have := h5 k hk
      omega

theorem getDS_safe {lo : Int} : Safe C A (fun b (r : List Ds) => ∀ d ∈ r, d ∈ A) lo (getDS root) := by
  unfold getDS
  have : canonicalName root = root := by decide
  rw [this]
  intro t ht r hr
  cases r with
  | none => apply Safe.ret; simp
  | some ds =>
    apply Safe.clock
    intro u hu
    split
    · apply Safe.ret; simp
    · apply Safe.ret
      intro b hb
      exact hr ds rfl rfl

theorem keysOf_mem {l : List Rec} {f : Nat} {k : Key} (h : k ∈ keysOf l f) : k.flags = f := by
  obtain ⟨r, _, hr⟩ := List.mem_filterMap.mp h
  cases r <;> simp only [reduceCtorEq] at hr
  split at hr
  · simp only [Option.some.injEq] at hr; subst hr; assumption
  · simp at hr

theorem lookupDNSKEY_safe {zone : Str} {lo : Int} : Safe C A (fun b (r : Except VErr (List Key × List Key × List Sig)) => match r with
    | .ok r => (∀ k ∈ r.1, k.flags = 256) ∧ (∀ k ∈ r.2.1, k.flags = 257)
    | .error e => e = .lookup) lo (lookupDNSKEY zone) := by
  unfold lookupDNSKEY
  intro t ht r
  cases r with
  | err => apply Safe.ret; simp
  | none => trivial
  | msg m =>
    simp only
    split
    · apply Safe.ret; simp
    · apply Safe.ret
      intro b hb
      exact ⟨fun k hk => keysOf_mem hk, fun k hk => keysOf_mem hk⟩

theorem lookupDS_safe {zone : Str} {lo : Int} : Safe C A (fun b (r : Except VErr (List Ds × List Sig × List Rec)) => match r with
    | .ok _ => True
    | .error e => e = .lookup) lo (lookupDS zone) := by
  unfold lookupDS
  intro t ht r
  cases r with
  | err => apply Safe.ret; simp
  | none => trivial
  | msg m =>
    simp only
    split
    · apply Safe.ret; simp
    · apply Safe.ret; simp

theorem foldl_min_le (l : List Key) (m : Nat) : l.foldl (fun m k => min m k.hdr.ttl) m ≤ m ∧ ∀ k ∈ l, l.foldl (fun m k => min m k.hdr.ttl) m ≤ k.hdr.ttl := by
  induction l generalizing m with
  | nil => simp
  | cons x xs ih =>
    obtain ⟨h1, h2⟩ := ih (min m x.hdr.ttl)
    simp only [List.foldl_cons]
    refine ⟨by omega, ?_⟩
    intro k hk
    rcases List.mem_cons.mp hk with rfl | hk
    · omega
    · exact h2 k hk

theorem minTtl_le {l : List Key} {k : Key} (h : k ∈ l) : minTtl l ≤ k.hdr.ttl := (foldl_min_le l _).2 k h

theorem addDNSKEY_safe {zone : Str} (hz : Canon zone) {keys : List Key} {a lo : Int} (ht : Trusted C A zone keys a lo) :
    Safe C A (fun _ (_ : Unit) => True) lo (addDNSKEY zone keys) := by
  unfold addDNSKEY
  rw [hz.eq]
  apply Safe.clock
  intro t htt
  intro t' ht'
  refine ⟨⟨keys, a, lo, t, ht, htt, ht', ?_, ?_⟩, ?_⟩
  · intro k hk
    have := List.mem_filter.mp hk
    exact ⟨this.1, by simpa using this.2⟩
  · intro k hk
    have := minTtl_le hk
    simp only [seconds]
    omega
  · apply Safe.ret; simp

theorem acceptKeys_safe {zone : Str} (hz : Canon zone) {zsk ksk : List Key} {sigs : List Sig} {D : List Ds} {a lo : Int} (halo : a ≤ lo)
    (h256 : ∀ k ∈ zsk, k.flags = 256) (h257 : ∀ k ∈ ksk, k.flags = 257)
    (ht : ∀ b : Int, lo ≤ b → KeysOk C zone (zsk ++ ksk) D a b → Trusted C A zone (zsk ++ ksk) a b) :
    Safe C A (ChainPost C A zone a) lo (acceptKeys C zone zsk ksk sigs D) := by
  unfold acceptKeys
  simp only
  split
  · apply Safe.ret; intro b hb; simp [ChainPost]
  · refine Safe.bind anySigVerifies_safe ?_
    intro t htt x hx
    split
    · apply Safe.ret; intro b hb; simp [ChainPost]
    · split
      · rename_i hxt
        obtain ⟨s, hs, k, hk, u, hu1, hu2, hsig⟩ := hx hxt
        obtain ⟨hsm, hsp⟩ := List.mem_filter.mp hs
        simp only [Bool.and_eq_true, decide_eq_true_eq] at hsp
        obtain ⟨hkm, hds⟩ := filterKeysByDS_mem hk
        have hko : ∀ b : Int, t ≤ b → KeysOk C zone (zsk ++ ksk) D a b := fun b hb =>
          ⟨k, s, u, by simp [hkm], h257 k hkm, hds, hsp.1, hsp.2, by omega, by omega, hsig⟩
        have htr := ht t htt (hko t (Int.le_refl _))
        refine Safe.bind (addDNSKEY_safe hz htr) ?_
        intro t2 ht2 _ _
        apply Safe.ret
        intro b hb
        refine ⟨zsk ++ ksk, ⟨a, t, htr, .inl ⟨Int.le_refl _, by omega⟩⟩, ?_⟩
        intro k' hk'
        exact ⟨by simp [hk'], h256 k' hk'⟩
      · apply Safe.ret; intro b hb; simp [ChainPost]

theorem checkDS_safe {zone parent : Str} {ds : List Ds} {dsSigs : List Sig} {ns : List Rec} {zsk pkeys : List Key} {a lo : Int} (hz : Canon zone)
    (hp : ParentName zone parent) (halo : a ≤ lo) (hu : Usable C A parent pkeys a lo) (hzsk : ∀ k ∈ zsk, k ∈ pkeys ∧ k.flags = 256) :
    Safe C A (fun b r => match r with
      | .ok D => ∃ s k t, k ∈ pkeys ∧ k.flags = 256 ∧ a ≤ t ∧ t ≤ b ∧ SignedBy C s k (D.map .ds) t
      | .error e => e ≠ .outOfFuel ∧ (e = .insecure → Insecure C A zone a b)) lo (checkDS C zone ds dsSigs ns zsk) := by
  unfold checkDS
  split
  · apply Safe.clock
    intro t ht
    cases hv : verifyDSDenial C ns zone zsk t with
    | error e =>
      apply Safe.ret
      intro b hb
      have : e = .bogusDenial := by
        unfold verifyDSDenial at hv
        simp only at hv
        split at hv
        · simp at hv
        · simpa using hv.symm
      subst this
      simp
    | ok u =>
      apply Safe.ret
      intro b hb
      refine ⟨by simp, fun _ => ?_⟩
      exact verifyDSDenial_ok hz hp (hu.later (by omega)) hzsk (by omega) hb hv
  · split
    · apply Safe.ret; simp
    · refine Safe.bind anySigVerifies_safe ?_
      intro t ht x hx
      split
      · rename_i hxt
        obtain ⟨s, hs, k, hk, u, hu1, hu2, hsig⟩ := hx hxt
        apply Safe.ret
        intro b hb
        exact ⟨s, k, u, (hzsk k hk).1, (hzsk k hk).2, by omega, by omega, hsig⟩
      · apply Safe.ret; simp

theorem buildChain_safe : ∀ (fuel : Nat) {zone : Str}, Canon zone → zone.length < fuel → ∀ a : Int, Safe C A (ChainPost C A zone a) a (buildChain C fuel zone) := by
  intro fuel
  induction fuel with
  | zero => intro zone _ h; omega
  | succ fuel ih =>
    intro zone hz hlen a
    unfold buildChain
    simp only [hz.eq]
    refine Safe.bind (getDNSKEY_safe hz) ?_
    intro t1 ht1 cached hc
    split
    · rename_i hne
      apply Safe.ret
      intro b hb
      obtain ⟨keys, h1, h2⟩ := hc hne
      exact ⟨keys, h1.later hb, h2⟩
    · refine Safe.bind lookupDNSKEY_safe ?_
      intro t2 ht2 r hr
      cases r with
      | error e =>
        simp only at hr
        subst hr
        apply Safe.ret; intro b hb; simp [ChainPost]
      | ok r =>
        obtain ⟨zsk, ksk, sigs⟩ := r
        obtain ⟨h256, h257⟩ := hr
        simp only at h256 h257 ⊢
        split
        · apply Safe.ret; intro b hb; simp [ChainPost]
        · split
          · rename_i hroot
            refine Safe.bind getDS_safe ?_
            intro t3 ht3 D hD
            split
            · apply Safe.ret; intro b hb; simp [ChainPost]
            · apply acceptKeys_safe hz (by omega) h256 h257
              intro b hb hk
              subst hroot
              exact .root hD hk
          · rename_i hroot
            refine Safe.bind lookupDS_safe ?_
            intro t3 ht3 r hr
            cases r with
            | error e =>
              simp only at hr
              subst hr
              apply Safe.ret; intro b hb; simp [ChainPost]
            | ok r =>
              obtain ⟨ds, dsSigs, ns⟩ := r
              obtain ⟨hpn, hpc, hps, hpl⟩ := parentZone_spec hz hroot
              simp only
              refine Safe.bind (Q := ChainPost C A (parentZone zone) a) ?_ ?_
              · have := ih hpc (by omega) t3
                refine Safe.mono this ?_
                intro t ht x hx
                cases x with
                | ok r =>
                  obtain ⟨keys, ⟨a', b', h1, h2⟩, h3⟩ := hx
                  refine ⟨keys, ⟨a', b', h1, ?_⟩, h3⟩
                  rcases h2 with ⟨g1, g2⟩ | ⟨c, u, g1, g2, g3, g4, g5⟩
                  · exact .inl ⟨by omega, g2⟩
                  · exact .inr ⟨c, u, g1, g2, by omega, g4, g5⟩
                | error e =>
                  refine ⟨hx.1, fun he => ?_⟩
                  obtain ⟨z, hz1, p, s, l, r, hz2, ⟨keys, k, t', ⟨a', b', h1, h2⟩, h3, h4, h5, h6, h7⟩, h8⟩ := hx.2 he
                  refine ⟨z, hz1, p, s, l, r, hz2, ⟨keys, k, t', ⟨a', b', h1, ?_⟩, h3, h4, by omega, h6, h7⟩, h8⟩
                  rcases h2 with ⟨g1, g2⟩ | ⟨c, u, g1, g2, g3, g4, g5⟩
                  · exact .inl ⟨by omega, g2⟩
                  · exact .inr ⟨c, u, g1, g2, by omega, g4, g5⟩
              · intro t4 ht4 p hp
                cases p with
                | error e =>
                  apply Safe.ret
                  intro b hb
                  refine ⟨hp.1, fun he => ?_⟩
                  obtain ⟨z, hz1, hz2⟩ := hp.2 he
                  exact ⟨z, hz1.trans hps, hz2.later hb⟩
                | ok p =>
                  obtain ⟨pzsk, pksk⟩ := p
                  obtain ⟨pkeys, hpu, hpk⟩ := hp
                  simp only at hpk ⊢
                  refine Safe.bind (checkDS_safe hz hpn (by omega) hpu hpk) ?_
                  intro t5 ht5 r hr
                  cases r with
                  | error e =>
                    apply Safe.ret
                    intro b hb
                    exact ⟨hr.1, fun he => ⟨zone, List.suffix_refl _, (hr.2 he).later hb⟩⟩
                  | ok D =>
                    obtain ⟨s, k, u, hk1, hk2, hu1, hu2, hsig⟩ := hr
                    apply acceptKeys_safe hz (by omega) h256 h257
                    intro b hb hk
                    obtain ⟨a', b', htr, hus⟩ := hpu
                    exact .child hpn htr (hus.later (by omega)) hk1 hk2 hu1 (by omega) hsig hk

theorem chain_safe {zone : Str} (hz : Canon zone) (a : Int) : Safe C A (ChainPost C A zone a) a (chain C zone) := by
  unfold chain
  rw [hz.eq]
  exact buildChain_safe _ hz (by omega) a

/-! ### Validation -/

/-- Something that began at `a` may be read as begun earlier -/
theorem _root_.Verif.DnssecSpec.UsableIn.earlier {keys : List Key} {a' b' a b a0 : Int} (h : UsableIn keys a' b' a b) (ha : a0 ≤ a) : UsableIn keys a' b' a0 b := by
  rcases h with ⟨h1, h2⟩ | ⟨c, u, h1, h2, h3, h4, h5⟩
  · exact .inl ⟨Int.le_trans ha h1, h2⟩
  · exact .inr ⟨c, u, h1, h2, Int.le_trans ha h3, h4, h5⟩

theorem _root_.Verif.DnssecSpec.Usable.earlier {zone : Str} {keys : List Key} {a b a0 : Int} (h : Usable C A zone keys a b) (ha : a0 ≤ a) : Usable C A zone keys a0 b := by
  obtain ⟨a', b', h1, h2⟩ := h
  exact ⟨a', b', h1, h2.earlier ha⟩

theorem _root_.Verif.DnssecSpec.SignedByZone.earlier {zone : Str} {s : Sig} {l : List Rec} {a b a0 : Int} (h : SignedByZone C A zone s l a b) (ha : a0 ≤ a) :
    SignedByZone C A zone s l a0 b := by
  obtain ⟨keys, k, t, h1, h2, h3, h4, h5, h6⟩ := h
  exact ⟨keys, k, t, h1.earlier ha, h2, h3, Int.le_trans ha h4, h5, h6⟩

theorem _root_.Verif.DnssecSpec.InsecureAbove.earlier {zone : Str} {a b a0 : Int} (h : InsecureAbove C A zone a b) (ha : a0 ≤ a) : InsecureAbove C A zone a0 b := by
  obtain ⟨z, h0, p, s, l, r, h1, h2, h3⟩ := h
  exact ⟨z, h0, p, s, l, r, h1, h2.earlier ha, h3⟩

theorem ChainPost.earlier {zone : Str} {a b a0 : Int} {r : Except VErr (List Key × List Key)} (h : ChainPost C A zone a b r) (ha : a0 ≤ a) : ChainPost C A zone a0 b r := by
  cases r with
  | ok r =>
    obtain ⟨keys, h1, h2⟩ := h
    exact ⟨keys, h1.earlier ha, h2⟩
  | error e => exact ⟨h.1, fun he => (h.2 he).earlier ha⟩

theorem chain_safe' {zone : Str} (hz : Canon zone) {a lo : Int} (h : a ≤ lo) : Safe C A (ChainPost C A zone a) lo (chain C zone) :=
  Safe.mono (chain_safe hz lo) fun _ _ _ hx => hx.earlier h

theorem verifyDSDenial_err {ns : List Rec} {zone : Str} {keys : List Key} {t : Int} {e : VErr} (h : verifyDSDenial C ns zone keys t = .error e) : e = .bogusDenial := by
  unfold verifyDSDenial at h
  simp only at h
  split at h
  · simp at h
  · simpa using h.symm

theorem parentZone_root : parentZone root = root := by decide

theorem proveNoDS_safe {zone : Str} (hz : Canon zone) (hr : zone ≠ root) {a lo : Int} (hlo : a ≤ lo) : Safe C A (fun b r => match r with
    | .ok x => x = true → InsecureAbove C A zone a b
    | .error e => e ≠ .outOfFuel ∧ e ≠ .insecure) lo (proveNoDS C zone) := by
  unfold proveNoDS
  refine Safe.bind lookupDS_safe ?_
  intro t1 ht1 r hr1
  cases r with
  | error e =>
    simp only at hr1
    subst hr1
    apply Safe.ret; simp
  | ok r =>
    obtain ⟨ds, dsSigs, ns⟩ := r
    simp only
    split
    · apply Safe.ret; simp
    · obtain ⟨hpn, hpc, hps, hpl⟩ := parentZone_spec hz hr
      refine Safe.bind (chain_safe' hpc (a := a) (by omega)) ?_
      intro t2 ht2 p hp
      cases p with
      | error e =>
        simp only
        split
        · rename_i he
          apply Safe.ret
          intro b hb _
          obtain ⟨z, hz1, hz2⟩ := hp.2 he
          exact ⟨z, hz1.trans hps, hz2.later hb⟩
        · rename_i he
          apply Safe.ret
          intro b hb
          exact ⟨hp.1, he⟩
      | ok p =>
        obtain ⟨pzsk, pksk⟩ := p
        obtain ⟨pkeys, hpu, hpk⟩ := hp
        simp only at hpk ⊢
        apply Safe.clock
        intro t3 ht3
        cases hv : verifyDSDenial C ns zone pzsk t3 with
        | error e =>
          apply Safe.ret
          intro b hb
          rw [verifyDSDenial_err hv]
          simp
        | ok u =>
          apply Safe.ret
          intro b hb _
          exact ⟨zone, List.suffix_refl _, verifyDSDenial_ok hz hpn (hpu.later (by omega)) hpk (by omega) hb hv⟩

theorem proveNoDSAny_safe {name : Str} {zones : List Str} (hz : ∀ z ∈ zones, Canon z ∧ z ≠ root ∧ z <:+ name) {a lo : Int} (hlo : a ≤ lo) :
    Safe C A (fun b r => match r with
      | .ok _ => True
      | .error e => e ≠ .outOfFuel ∧ (e = .insecure → InsecureAbove C A name a b)) lo (proveNoDSAny C zones) := by
  induction zones generalizing lo with
  | nil => apply Safe.ret; simp
  | cons z rest ih =>
    unfold proveNoDSAny
    obtain ⟨hc, hr, hs⟩ := hz z (by simp)
    refine Safe.bind (proveNoDS_safe hc hr hlo) ?_
    intro t ht r hr
    cases r with
    | error e => apply Safe.ret; intro b hb; exact ⟨hr.1, fun he => absurd he hr.2⟩
    | ok x =>
      cases x with
      | true =>
        apply Safe.ret
        intro b hb
        refine ⟨by simp, fun _ => ?_⟩
        obtain ⟨z', h1, h2⟩ := hr rfl
        exact ⟨z', h1.trans hs, h2.later hb⟩
      | false => exact ih (fun z' hz' => hz z' (by simp [hz'])) (by omega)

theorem zonesAbove_present {n : Name} (hw : WfName n) (hc : canon n = n) {z : Str} (h : z ∈ zonesAbove (splitName (present n))) :
    ∃ m : Name, m ≠ [] ∧ m <:+ n ∧ z = present m := by
  unfold zonesAbove at h
  obtain ⟨i, hi, rfl⟩ := List.mem_map.mp h
  rw [splitName_present hw] at hi ⊢
  simp only [List.length_map, List.mem_range] at hi
  rw [← List.map_drop, List.length_map]
  have hne : n.drop (n.length - 1 - i) ≠ [] := by
    intro he
    have := congrArg List.length he
    simp at this
    omega
  refine ⟨n.drop (n.length - 1 - i), hne, List.drop_suffix _ _, ?_⟩
  exact fqdn_join hne (fun l hl => hw l (List.mem_of_mem_drop hl))

theorem present_suffix {m n : Name} (hm : m ≠ []) (h : m <:+ n) : present m <:+ present n := by
  obtain ⟨p, rfl⟩ := h
  unfold present
  rw [if_neg hm, if_neg (by simp [hm])]
  simp only [List.flatMap_append]
  exact List.suffix_append _ _

theorem checkInsecure_safe {s : Str} (hw : WireName s) {a lo : Int} (hlo : a ≤ lo) : Safe C A (fun b r => match r with
    | .ok _ => True
    | .error e => e ≠ .outOfFuel ∧ (e = .insecure → InsecureAbove C A (canonicalName s) a b)) lo (checkInsecure C s) := by
  obtain ⟨n, hn, rfl⟩ := hw
  unfold checkInsecure
  simp only
  split
  · apply Safe.ret; simp
  · apply proveNoDSAny_safe _ hlo
    intro z hz
    rw [canonicalName_present] at hz ⊢
    obtain ⟨m, hm, hs, rfl⟩ := zonesAbove_present (wf_canon hn) (canon_idem n) hz
    have hcm : canon m = m := by
      obtain ⟨p, hp⟩ := hs
      have := canon_idem n
      rw [← hp] at this
      unfold canon at this
      rw [List.map_append] at this
      exact (List.append_inj this (by simp)).2
    refine ⟨canon_present hcm, ?_, present_suffix hm hs⟩
    intro he
    have hwm : WfName m := fun l hl => wf_canon hn l (hs.subset hl)
    exact hm ((present_root_iff hwm).mp he)

theorem trySigs_safe {owner : Str} {rrset : List Rec} {sigs all : List Sig} (hsub : ∀ s ∈ sigs, s ∈ all) (hw : ∀ s ∈ sigs, WireName s.signer) {a lo : Int}
    (hlo : a ≤ lo) {last : Except VErr Unit}
    (hl : match last with
      | .ok _ => sigs ≠ []
      | .error e => e ≠ .outOfFuel ∧ (e = .insecure → ∃ s ∈ all, isSubDomain (canonicalName s.signer) owner = true ∧ InsecureAbove C A (canonicalName s.signer) a lo)) :
    Safe C A (fun b r => match r with
      | .ok _ => ∃ s ∈ all, isSubDomain (canonicalName s.signer) owner = true ∧ SignedByZone C A (canonicalName s.signer) s rrset a b
      | .error e => e ≠ .outOfFuel ∧ (e = .insecure → ∃ s ∈ all, isSubDomain (canonicalName s.signer) owner = true ∧ InsecureAbove C A (canonicalName s.signer) a b))
      lo (trySigs C owner rrset last sigs) := by
  induction sigs generalizing lo last with
  | nil =>
    unfold trySigs
    apply Safe.ret
    intro b hb
    cases last with
    | ok u => exact absurd rfl hl
    | error e =>
      refine ⟨hl.1, fun he => ?_⟩
      obtain ⟨s, h1, h2, h3⟩ := hl.2 he
      exact ⟨s, h1, h2, h3.later hb⟩
  | cons sig rest ih =>
    unfold trySigs
    simp only
    split
    · exact ih (fun s hs => hsub s (by simp [hs])) (fun s hs => hw s (by simp [hs])) hlo (by simp)
    · rename_i hsd
      have hsd' : isSubDomain (canonicalName sig.signer) owner = true := by simpa using hsd
      have hcan : Canon (canonicalName sig.signer) := by
        obtain ⟨n, _, h⟩ := hw sig (by simp)
        rw [h]; exact canon_canonical n
      refine Safe.bind (chain_safe' hcan hlo) ?_
      intro t ht r hr
      cases r with
      | error e =>
        apply ih (fun s hs => hsub s (by simp [hs])) (fun s hs => hw s (by simp [hs])) (by omega)
        exact ⟨hr.1, fun he => ⟨sig, hsub sig (by simp), hsd', hr.2 he⟩⟩
      | ok r =>
        obtain ⟨zsk, ksk⟩ := r
        obtain ⟨keys, hu, hk⟩ := hr
        simp only at hk ⊢
        apply Safe.clock
        intro t2 ht2
        cases hv : verifyRRSIG C sig zsk rrset t2 with
        | error e =>
          apply ih (fun s hs => hsub s (by simp [hs])) (fun s hs => hw s (by simp [hs])) (by omega)
          have : e ≠ .outOfFuel ∧ e ≠ .insecure := by
            unfold verifyRRSIG at hv
            simp only at hv
            split at hv
            · have : e = .expired := by simpa using hv.symm
              subst this; simp
            · split at hv
              · have : e = .noKey := by simpa using hv.symm
                subst this; simp
              · split at hv
                · simp at hv
                · have : e = .sigInvalid := by simpa using hv.symm
                  subst this; simp
          exact ⟨this.1, fun he => absurd he this.2⟩
        | ok u =>
          apply Safe.ret
          intro b hb
          obtain ⟨k, hk1, hsig⟩ := verifyRRSIG_ok hv
          exact ⟨sig, hsub sig (by simp), hsd', keys, k, t2, hu.later (by omega), (hk k hk1).1, (hk k hk1).2, by omega, hb, hsig⟩

/-- The owner of a record set -/
def ownerOf (l : List Rec) : Str := (l.head?.map fun r => r.hdr.name).getD []

theorem rrset_nonempty {l : List Rec} {k : RKey} (h : k ∈ rrsetKeys l) : ∃ r rs, rrsetOf l k = r :: rs := by
  unfold rrsetKeys at h
  rw [List.mem_eraseDups] at h
  obtain ⟨r, hr, rfl⟩ := List.mem_map.mp h
  obtain ⟨h1, h2⟩ := List.mem_filter.mp hr
  have hm : r ∈ rrsetOf l (rkey r) := List.mem_filter.mpr ⟨h1, by simpa using h2⟩
  cases he : rrsetOf l (rkey r) with
  | nil => rw [he] at hm; simp at hm
  | cons x xs => exact ⟨x, xs, rfl⟩

theorem ownerOf_mem {l : List Rec} {k : RKey} (h : k ∈ rrsetKeys l) : ∃ r ∈ rrsetOf l k, ownerOf (rrsetOf l k) = r.hdr.name := by
  obtain ⟨r, rs, he⟩ := rrset_nonempty h
  exact ⟨r, by rw [he]; simp, by rw [he]; rfl⟩

theorem sigsOf_mem {l : List Rec} {k : RKey} {s : Sig} (h : s ∈ sigsOf l k) : Rec.rrsig s ∈ l ∧ canonicalName s.hdr.name = k.1 ∧ s.covered = k.2 := by
  obtain ⟨r, hr, he⟩ := List.mem_filterMap.mp h
  cases r <;> simp only [reduceCtorEq] at he
  split at he
  · rename_i hk
    simp only [Option.some.injEq] at he
    subst he
    exact ⟨hr, congrArg Prod.fst hk, congrArg Prod.snd hk⟩
  · simp at he

/-- What is claimed for a validated record set -/
def SetOk (C : Crypto) (A : List Ds) (l : List Rec) (k : RKey) (a b : Int) : Prop :=
  ∃ s : Sig, s ∈ sigsOf l k ∧ isSubDomain (canonicalName s.signer) k.1 = true ∧ SignedByZone C A (canonicalName s.signer) s (rrsetOf l k) a b

/-- What is claimed when a name was found to be in an unsigned zone -/
def InsecureFor (C : Crypto) (A : List Ds) (l : List Rec) (a b : Int) : Prop :=
  ∃ r ∈ l, isSig r = false ∧ (InsecureAbove C A (canonicalName r.hdr.name) a b
    ∨ ∃ s : Sig, Rec.rrsig s ∈ l ∧ isSubDomain (canonicalName s.signer) (canonicalName r.hdr.name) = true ∧ InsecureAbove C A (canonicalName s.signer) a b)

theorem SetOk.later {l : List Rec} {k : RKey} {a b b2 : Int} (h : SetOk C A l k a b) (hb : b ≤ b2) : SetOk C A l k a b2 := by
  obtain ⟨s, h1, h2, h3⟩ := h
  exact ⟨s, h1, h2, h3.later hb⟩

theorem InsecureFor.later {l : List Rec} {a b b2 : Int} (h : InsecureFor C A l a b) (hb : b ≤ b2) : InsecureFor C A l a b2 := by
  obtain ⟨r, h1, h2, h3⟩ := h
  refine ⟨r, h1, h2, ?_⟩
  rcases h3 with h | ⟨s, h4, h5, h6⟩
  · exact .inl (h.later hb)
  · exact .inr ⟨s, h4, h5, h6.later hb⟩

theorem validateSets_safe {l : List Rec} (hwo : ∀ r ∈ l, WireName r.hdr.name) (hws : ∀ s : Sig, Rec.rrsig s ∈ l → WireName s.signer) {keys : List RKey}
    (hk : ∀ k ∈ keys, k ∈ rrsetKeys l) {a lo : Int} (hlo : a ≤ lo) : Safe C A (fun b r => match r with
      | .ok _ => ∀ k ∈ keys, SetOk C A l k a b
      | .error e => e ≠ .outOfFuel ∧ (e = .insecure → InsecureFor C A l a b)) lo (validateSets C l keys) := by
  induction keys generalizing lo with
  | nil => apply Safe.ret; simp
  | cons k rest ih =>
    unfold validateSets
    obtain ⟨r, hr, hro⟩ := ownerOf_mem (hk k (by simp))
    obtain ⟨hrl, hrs, hrk⟩ := rrsetOf_mem hr
    have hk1 : canonicalName r.hdr.name = k.1 := congrArg Prod.fst hrk
    have ho : (Option.map (fun r => r.hdr.name) (rrsetOf l k).head?).getD [] = r.hdr.name := hro
    simp only [ho]
    split
    · refine Safe.bind (checkInsecure_safe (hwo r hrl) hlo) ?_
      intro t ht x hx
      cases x with
      | error e =>
        apply Safe.ret
        intro b hb
        exact ⟨hx.1, fun he => ⟨r, hrl, hrs, .inl ((hx.2 he).later hb)⟩⟩
      | ok u => apply Safe.ret; simp
    · rename_i hne
      unfold validateRRset
      rw [ho, hk1]
      refine Safe.bind (trySigs_safe (all := sigsOf l k) (fun s h => h) (fun s hs => hws s (sigsOf_mem hs).1) hlo (by simpa using hne)) ?_
      intro t ht x hx
      cases x with
      | error e =>
        apply Safe.ret
        intro b hb
        refine ⟨hx.1, fun he => ?_⟩
        obtain ⟨s, h1, h2, h3⟩ := hx.2 he
        exact ⟨r, hrl, hrs, .inr ⟨s, (sigsOf_mem h1).1, hk1 ▸ h2, h3.later hb⟩⟩
      | ok u =>
        obtain ⟨s, h1, h2, h3⟩ := hx
        refine Safe.mono (ih (fun k' hk' => hk k' (by simp [hk'])) (by omega)) ?_
        intro b hb y hy
        cases y with
        | error e => exact hy
        | ok u =>
          intro k' hk'
          rcases List.mem_cons.mp hk' with rfl | hk'
          · exact ⟨s, h1, h2, h3.later hb⟩
          · exact hy k' hk'

/-- What is claimed for a record used in a denial -/
def DenialOk (C : Crypto) (A : List Ds) (ns : List Rec) (qname : Str) (r : Rec) (a b : Int) : Prop :=
  ∃ k : RKey, r ∈ rrsetOf ns k ∧ ∃ s : Sig, s ∈ sigsOf ns k ∧ isSubDomain (canonicalName s.signer) qname = true
    ∧ SignedByZone C A (canonicalName s.signer) s (rrsetOf ns k) a b

theorem DenialOk.later {ns : List Rec} {q : Str} {r : Rec} {a b b2 : Int} (h : DenialOk C A ns q r a b) (hb : b ≤ b2) : DenialOk C A ns q r a b2 := by
  obtain ⟨k, h1, s, h2, h3, h4⟩ := h
  exact ⟨k, h1, s, h2, h3, h4.later hb⟩

theorem signedFromAncestor_safe {rrset : List Rec} {qname : Str} {sigs all : List Sig} (hsub : ∀ s ∈ sigs, s ∈ all) (hw : ∀ s ∈ sigs, WireName s.signer) {a lo : Int}
    (hlo : a ≤ lo) : Safe C A (fun b r => r = true → ∃ s ∈ all, isSubDomain (canonicalName s.signer) qname = true ∧ SignedByZone C A (canonicalName s.signer) s rrset a b)
      lo (signedFromAncestor C rrset qname sigs) := by
  induction sigs generalizing lo with
  | nil => apply Safe.ret; simp
  | cons sig rest ih =>
    unfold signedFromAncestor
    simp only
    split
    · exact ih (fun s hs => hsub s (by simp [hs])) (fun s hs => hw s (by simp [hs])) hlo
    · rename_i hsd
      have hsd' : isSubDomain (canonicalName sig.signer) qname = true := by simpa using hsd
      have hcan : Canon (canonicalName sig.signer) := by
        obtain ⟨n, _, h⟩ := hw sig (by simp)
        rw [h]; exact canon_canonical n
      refine Safe.bind (chain_safe' hcan hlo) ?_
      intro t ht r hr
      cases r with
      | error e => exact ih (fun s hs => hsub s (by simp [hs])) (fun s hs => hw s (by simp [hs])) (by omega)
      | ok r =>
        obtain ⟨zsk, ksk⟩ := r
        obtain ⟨keys, hu, hk⟩ := hr
        simp only at hk ⊢
        apply Safe.clock
        intro t2 ht2
        cases hv : verifyRRSIG C sig zsk rrset t2 with
        | error e => exact ih (fun s hs => hsub s (by simp [hs])) (fun s hs => hw s (by simp [hs])) (by omega)
        | ok u =>
          apply Safe.ret
          intro b hb _
          obtain ⟨k, hk1, hsig⟩ := verifyRRSIG_ok hv
          exact ⟨sig, hsub sig (by simp), hsd', keys, k, t2, hu.later (by omega), (hk k hk1).1, (hk k hk1).2, by omega, hb, hsig⟩

theorem collect_safe {ns : List Rec} (hws : ∀ s : Sig, Rec.rrsig s ∈ ns → WireName s.signer) {qname : Str} {keys : List RKey} {a lo : Int} (hlo : a ≤ lo) :
    Safe C A (fun b r => ∀ x ∈ r, DenialOk C A ns qname x a b) lo (collect C ns qname keys) := by
  induction keys generalizing lo with
  | nil => apply Safe.ret; simp
  | cons k rest ih =>
    unfold collect
    split
    · exact ih hlo
    · refine Safe.bind (signedFromAncestor_safe (all := sigsOf ns k) (fun s h => h) (fun s hs => hws s (sigsOf_mem hs).1) hlo) ?_
      intro t ht ok hok
      refine Safe.bind (ih (by omega)) ?_
      intro t2 ht2 l hl
      split
      · rename_i he
        apply Safe.ret
        intro b hb x hx
        rcases List.mem_append.mp hx with hx | hx
        · obtain ⟨s, h1, h2, h3⟩ := hok he
          exact ⟨k, hx, s, h1, h2, h3.later (by omega)⟩
        · exact (hl x hx).later hb
      · apply Safe.ret
        intro b hb x hx
        exact (hl x hx).later hb

/-- What `Validate` returns -/
def ValidatePost (C : Crypto) (A : List Ds) (m : SMsg) (a b : Int) : Except VErr Unit → Prop
  | .ok _ => (m.answer ≠ [] ∧ ∀ k ∈ rrsetKeys m.answer, SetOk C A m.answer k a b)
      ∨ (m.answer = [] ∧ ∃ (name : Str) (qtype : Nat) (l : List Rec), m.question = some (name, qtype)
          ∧ (∀ r ∈ l, DenialOk C A m.ns (canonicalName name) r a b)
          ∧ (nsecProvesDenial (nsecsOf l) (canonicalName name) qtype m.rcode = true ∨ nsec3ProvesDenial C.lib (nsec3sOf l) (canonicalName name) qtype m.rcode = true))
  | .error e => e ≠ .outOfFuel ∧ (e = .insecure →
      (m.answer ≠ [] ∧ InsecureFor C A m.answer a b) ∨ (m.answer = [] ∧ ∃ (name : Str) (qtype : Nat), m.question = some (name, qtype) ∧ InsecureAbove C A (canonicalName name) a b))

theorem wireName_canonical {s : Str} (h : WireName s) : WireName (canonicalName s) := by
  obtain ⟨n, hn, rfl⟩ := h
  exact ⟨canon n, wf_canon hn, canonicalName_present n⟩

theorem canonical_twice {s : Str} (h : WireName s) : canonicalName (canonicalName s) = canonicalName s := by
  obtain ⟨n, hn, rfl⟩ := h
  rw [canonicalName_present, canonicalName_present, canon_idem]

theorem validate_safe {m : SMsg} (hw : WireMsg m) (a : Int) : Safe C A (ValidatePost C A m a) a (validate C m) := by
  unfold validate
  split
  · rename_i hempty
    unfold validateDenial
    cases hq : m.question with
    | none => apply Safe.ret; intro b hb; simp [ValidatePost]
    | some q =>
      obtain ⟨name, qtype⟩ := q
      have hwn : WireName name := hw.question (name, qtype) hq
      simp only
      intro t ht keys hperm
      refine Safe.bind (collect_safe (a := a) (fun s hs => hw.signer s (by simp [hs])) ht) ?_
      intro t2 ht2 l hl
      split
      · rename_i hn
        apply Safe.ret
        intro b hb
        exact .inr ⟨hempty, name, qtype, l, hq, fun r hr => (hl r hr).later hb, .inl hn⟩
      · split
        · rename_i hn
          apply Safe.ret
          intro b hb
          exact .inr ⟨hempty, name, qtype, l, hq, fun r hr => (hl r hr).later hb, .inr hn⟩
        · refine Safe.bind (checkInsecure_safe (a := a) (wireName_canonical hwn) (by omega)) ?_
          intro t3 ht3 x hx
          cases x with
          | error e =>
            apply Safe.ret
            intro b hb
            refine ⟨hx.1, fun he => .inr ⟨hempty, name, qtype, hq, ?_⟩⟩
            have := (hx.2 he).later hb
            rw [canonical_twice hwn] at this
            exact this
          | ok u => apply Safe.ret; intro b hb; simp [ValidatePost]
  · rename_i hne
    intro t ht keys hperm
    refine Safe.mono (validateSets_safe (a := a) (fun r hr => hw.owner r (by simp [hr])) (fun s hs => hw.signer s (by simp [hs]))
      (fun k hk => hperm.subset hk) ht) ?_
    intro b hb x hx
    cases x with
    | ok u => exact .inl ⟨hne, fun k hk => hx k (hperm.symm.subset hk)⟩
    | error e => exact ⟨hx.1, fun he => .inl ⟨hne, hx.2 he⟩⟩

/-! ### Interleaving -/

/-- The store holds only what is linked to the trust anchors -/
def StoreOk (C : Crypto) (A : List Ds) (st : Store) (now : Int) : Prop :=
  (∀ z ks, st.keys z = some ks → KeyOk C A z ks now) ∧ ∀ ds, st.ds root = some ds → ∀ d ∈ ds.records, d ∈ A

theorem KeyOk.later {z : Str} {ks : KeySet} {t t2 : Int} (h : KeyOk C A z ks t) (ht : t ≤ t2) : KeyOk C A z ks t2 := by
  obtain ⟨keys, a', b', c, h1, h2, h3, h4, h5⟩ := h
  exact ⟨keys, a', b', c, h1, h2, Int.le_trans h3 ht, h4, h5⟩

theorem StoreOk.later {st : Store} {t t2 : Int} (h : StoreOk C A st t) (ht : t ≤ t2) : StoreOk C A st t2 :=
  ⟨fun z ks hz => (h.1 z ks hz).later ht, h.2⟩

theorem step_ok {α : Type} {st st' : Store} {lo lo' : Int} {p p' : Prog α} {Q : Int → α → Prop} (hst : StoreOk C A st lo) (hp : Safe C A Q lo p)
    (h : Step st lo p st' lo' p') : lo ≤ lo' ∧ StoreOk C A st' lo' ∧ Safe C A Q lo' p' := by
  cases h with
  | clock h => exact ⟨h, hst.later h, hp _ h⟩
  | query r => exact ⟨Int.le_refl _, hst, hp lo (Int.le_refl _) r⟩
  | order h => exact ⟨Int.le_refl _, hst, hp lo (Int.le_refl _) _ h⟩
  | getKeys => exact ⟨Int.le_refl _, hst, hp lo (Int.le_refl _) _ fun ks hks => hst.1 _ ks hks⟩
  | putKeys =>
    obtain ⟨h1, h2⟩ := hp lo (Int.le_refl _)
    refine ⟨Int.le_refl _, ⟨?_, hst.2⟩, h2⟩
    intro z ks hz
    simp only at hz
    split at hz
    · rename_i he
      simp only [Option.some.injEq] at hz
      subst he; subst hz; exact h1
    · exact hst.1 z ks hz
  | getDS => exact ⟨Int.le_refl _, hst, hp lo (Int.le_refl _) _ fun ds hds hz => by subst hz; exact hst.2 ds hds⟩

/-- The invariant of the whole -/
structure SysOk (C : Crypto) (A : List Ds) (s : Sys) : Prop where
  store : StoreOk C A s.store s.now
  calls : ∀ c ∈ s.calls, c.start ≤ s.now ∧ Safe C A (ValidatePost C A c.msg c.start) s.now c.prog

theorem reach_ok {s0 s : Sys} (h0 : StoreOk C A s0.store s0.now) (hc0 : s0.calls = []) (h : Sys.Reach C s0 s) (hw : ∀ c ∈ s.calls, WireMsg c.msg) : SysOk C A s := by
  induction h with
  | refl => exact ⟨h0, by rw [hc0]; simp⟩
  | @step s s' hr hs ih =>
    cases hs with
    | @call m t ht =>
      have ih := ih fun c hc => hw c (by simp [hc])
      refine ⟨ih.store.later ht, ?_⟩
      intro c hc
      rcases List.mem_append.mp hc with hc | hc
      · exact ⟨Int.le_trans (ih.calls c hc).1 ht, (ih.calls c hc).2.later ht⟩
      · simp only [List.mem_singleton] at hc
        subst hc
        exact ⟨Int.le_refl _, validate_safe (hw _ (by simp)) t⟩
    | @step i c st t p hi hstep =>
      have hmsgs : ∀ c' ∈ s.calls, WireMsg c'.msg := by
        intro c' hc'
        obtain ⟨j, hj⟩ := List.mem_iff_getElem?.mp hc'
        by_cases hij : i = j
        · subst hij
          rw [hi] at hj
          simp only [Option.some.injEq] at hj
          subst hj
          have : { c with prog := p } ∈ s.calls.set i { c with prog := p } := by
            have hlt : i < s.calls.length := by
              rcases Nat.lt_or_ge i s.calls.length with h | h
              · exact h
              · rw [List.getElem?_eq_none h] at hi; simp at hi
            exact List.mem_iff_getElem?.mpr ⟨i, by rw [List.getElem?_set_self hlt]⟩
          exact hw { c with prog := p } this
        · exact hw c' (List.mem_iff_getElem?.mpr ⟨j, by rw [List.getElem?_set_ne hij]; exact hj⟩)
      have ih := ih hmsgs
      have hcm : c ∈ s.calls := List.mem_iff_getElem?.mpr ⟨i, hi⟩
      obtain ⟨h1, h2, h3⟩ := step_ok ih.store (ih.calls c hcm).2 hstep
      refine ⟨h2, ?_⟩
      intro c' hc'
      obtain ⟨j, hj⟩ := List.mem_iff_getElem?.mp hc'
      simp only [List.getElem?_set] at hj
      split at hj
      · split at hj
        · simp only [Option.some.injEq] at hj
          subst hj
          exact ⟨Int.le_trans (ih.calls c hcm).1 h1, h3⟩
        · simp at hj
      · have hm : c' ∈ s.calls := List.mem_iff_getElem?.mpr ⟨j, hj⟩
        exact ⟨Int.le_trans (ih.calls c' hm).1 h1, (ih.calls c' hm).2.later h1⟩

end Verif.Dnssec
