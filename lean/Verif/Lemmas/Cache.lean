import Verif.Model.CacheFile
import Verif.Spec.Cache
import Verif.Lemmas.Lru
import Verif.Props.Blob
set_option linter.unusedSimpArgs false
set_option linter.unusedSectionVars false
namespace Verif.CacheM
open Verif Verif.Spec.Cache

/-! ### Ageing -/
theorem cacheAge_eq {now t : Int} (h1 : now - t ≤ 4294967295 * 1000000000) :
    cacheAge now t = wholeSeconds t now := by
  unfold cacheAge wholeSeconds
  by_cases h : now ≤ t
  · rw [if_pos h]
    have : (now - t) / 1000000000 ≤ 0 := by omega
    omega
  · rw [if_neg h, toI64_toU64 ⟨by omega, by omega⟩]
    unfold second
    rw [Int.tdiv_eq_ediv_of_nonneg (by omega)]
    omega

theorem ageSection_some {age : Nat} {l l' : List RR} (h : ageSection age l = some l') :
    Pointwise (Lowered age) l l' := by
  induction l generalizing l' with
  | nil => simp [ageSection] at h; subst h; trivial
  | cons a rest ih =>
    unfold ageSection at h
    split at h
    · rename_i ho
      obtain ⟨r', h1, rfl⟩ := Option.map_eq_some_iff.mp h
      exact ⟨by simp [Lowered, ho], ih h1⟩
    · split at h
      · simp at h
      · rename_i ho hage
        obtain ⟨r', h1, rfl⟩ := Option.map_eq_some_iff.mp h
        refine ⟨?_, ih h1⟩
        unfold Lowered; rw [if_neg ho]; exact ⟨by omega, rfl⟩

theorem ageCachedAnswer_some {m q a : Msg} {age : Nat} (h : ageCachedAnswer m q age = some a) :
    AgedCopy age q m a := by
  unfold ageCachedAnswer at h
  simp only [Option.bind_eq_bind, Option.bind_eq_some_iff] at h
  obtain ⟨an, h1, ns, h2, ex, h3, h⟩ := h
  have : a = { m with id := q.id, question := q.question, answer := an, ns := ns, extra := ex } := by
    simpa using h.symm
  subst this
  exact ⟨rfl, rfl, ageSection_some h1, ageSection_some h2, ageSection_some h3, rfl⟩

/-! ### Keys -/
theorem ecsOfOptions_eq (ipStr : Str → Str) (l : List EOpt) (acc : Str × Nat) :
    ecsOfOptions ipStr l acc = (l.reverse.findSome? fun o => match o with
      | .ecs _ mask _ addr => some (ipStr addr, mask)
      | _ => none).getD acc := by
  induction l generalizing acc with
  | nil => rfl
  | cons o l ih =>
    rw [List.reverse_cons, List.findSome?_append]
    cases o <;> simp only [ecsOfOptions, ih, List.findSome?_cons, List.findSome?_nil]
    case ecs f m s a =>
      cases (l.reverse.findSome? fun o => match o with
        | .ecs _ mask _ addr => some (ipStr addr, mask)
        | _ => none) <;> rfl
    all_goals
      cases (l.reverse.findSome? fun o => match o with
        | .ecs _ mask _ addr => some (ipStr addr, mask)
        | _ => none) <;> rfl

theorem lruKey_form {ipStr : Str → Str} {q : Msg} {k : LruKey} (h : lruKeyFromQuery ipStr q = some k) :
    ∃ qu, q.question.head? = some qu ∧ k.name = lower qu.name ∧ k.qtype = qu.qtype ∧ k.qclass = qu.qclass
      ∧ k.cd = q.cd ∧ k.dnssecOk = wantsDnssec q ∧ (k.net, k.ecsMask) = (subnet ipStr q).getD ([], 0) := by
  unfold lruKeyFromQuery at h
  cases hq : q.question.head? with
  | none => rw [hq] at h; simp at h
  | some qu =>
    rw [hq] at h
    simp only [Option.bind_eq_bind, Option.bind_some] at h
    refine ⟨qu, rfl, ?_⟩
    cases he : q.edns? with
    | none =>
      rw [he] at h
      simp at h; subst h
      simp [wantsDnssec, subnet, he]
    | some e =>
      rw [he] at h
      simp at h; subst h
      simp [wantsDnssec, subnet, he, ecsOfOptions_eq]; rfl

/-- Equal keys mean equal requests. -/
theorem lruKey_same {ipStr : Str → Str} (hip : ∀ a, ipStr a ≠ []) {q q' : Msg} {k : LruKey}
    (h : lruKeyFromQuery ipStr q = some k) (h' : lruKeyFromQuery ipStr q' = some k) : SameRequest ipStr q q' := by
  obtain ⟨a, e1, e2, e3, e4, e5, e6, e7⟩ := lruKey_form h
  obtain ⟨b, f1, f2, f3, f4, f5, f6, f7⟩ := lruKey_form h'
  have hsub : ∀ q x, subnet ipStr q = some x → x.1 ≠ [] := by
    intro q x hx
    unfold subnet at hx
    obtain ⟨e, -, he⟩ := Option.bind_eq_some_iff.mp hx
    obtain ⟨o, -, ho⟩ := List.exists_of_findSome?_eq_some he
    split at ho
    · simp at ho; rw [← ho]; exact hip _
    · simp at ho
  refine ⟨⟨a, b, e1, f1, by rw [← e2, f2], by rw [← e3, f3], by rw [← e4, f4]⟩, by rw [← e5, f5], by rw [← e6, f6], ?_⟩
  rw [e7] at f7
  cases hs : subnet ipStr q with
  | none =>
    cases hs' : subnet ipStr q' with
    | none => rfl
    | some x' => rw [hs, hs'] at f7; simp at f7; exact absurd (by rw [← f7]) (hsub _ _ hs')
  | some x =>
    cases hs' : subnet ipStr q' with
    | none => rw [hs, hs'] at f7; simp at f7; exact absurd (by rw [f7]) (hsub _ _ hs)
    | some x' => rw [hs, hs'] at f7; simp at f7; rw [f7]

theorem lruKey_of_same {ipStr : Str → Str} {q q' : Msg} {k : LruKey}
    (h : lruKeyFromQuery ipStr q = some k) (hs : SameRequest ipStr q q') : lruKeyFromQuery ipStr q' = some k := by
  obtain ⟨a, e1, e2, e3, e4, e5, e6, e7⟩ := lruKey_form h
  obtain ⟨⟨a', b, g1, g2, g3, g4, g5⟩, hcd, hdo, hsub⟩ := hs
  rw [e1] at g1; obtain rfl := Option.some.inj g1
  have : ∃ k', lruKeyFromQuery ipStr q' = some k' := by
    unfold lruKeyFromQuery
    rw [g2]
    cases q'.edns? <;> simp
  obtain ⟨k', hk'⟩ := this
  obtain ⟨b', f1, f2, f3, f4, f5, f6, f7⟩ := lruKey_form hk'
  rw [g2] at f1; obtain rfl := Option.some.inj f1
  rw [hk']
  obtain ⟨n, t, c, ne, d, cd, m⟩ := k
  obtain ⟨n', t', c', ne', d', cd', m'⟩ := k'
  simp only at *
  have : (ne, m) = (ne', m') := by rw [e7, f7, hsub]
  simp only [Prod.mk.injEq] at this
  simp [e2, f2, e3, f3, e4, f4, e5, f5, e6, f6, g3, g4, g5, hcd, hdo, this.1, this.2]

/-! ### Invariant: every entry is an encoded record with provenance `Q` -/
variable {H : Type} [DecidableEq H]

/-- `b` encodes a record under key `k` satisfying `Q`. -/
def Good (Q : LruKey → Bool → Int → Int → Str → Prop) (k : LruKey) (b : Str) : Prop :=
  k.Valid ∧ ∃ pf ts ex w, InI64 ts ∧ InI64 ex ∧ Blob.newFromWire k pf ts ex w = some b ∧ Q k pf ts ex w

structure Inv (env : Env H) (Q : LruKey → Bool → Int → Int → Str → Prop) (c : State H) (es : List (H × Str)) : Prop where
  rep : ∃ refs, Lru.Rep c refs es
  cap : Lru.CapOk c.maxItems es
  good : ∀ e ∈ es, ∃ k, Good Q k e.2 ∧ e.1 = env.hash k

variable {env : Env H} {Q : LruKey → Bool → Int → Int → Str → Prop} {c : State H} {es : List (H × Str)}

theorem good_matches {k k' : LruKey} {b : Str} (h : Good Q k b) : matchKey b k' = true ↔ k' = k := by
  obtain ⟨hv, pf, ts, ex, w, -, -, hn, -⟩ := h
  unfold matchKey
  rw [Props.Blob.blob_matches_iff hv hn]
  simp

theorem Inv.nodup (h : Inv env Q c es) : (es.map (·.1)).Nodup := by
  obtain ⟨refs, hr⟩ := h.rep; exact hr.hnodup

theorem new_inv (env : Env H) (Q) (cap : Int) : Inv env Q (Lru.new cap) [] :=
  ⟨⟨[], Lru.new_rep cap⟩, by intro h; simp; exact Int.le_of_lt h, by simp⟩

theorem Inv.mem_lookup (h : Inv env Q c es) {k : LruKey} {e : H × Str}
    (hl : Spec.Lru.lookup matchKey es (env.hash k) k = some e) : e ∈ es ∧ Good Q k e.2 ∧ e.1 = env.hash k := by
  obtain ⟨h1, h2, h3⟩ := Lru.lookup_mem hl
  obtain ⟨k', hg, -⟩ := h.good e h1
  have := (good_matches hg).mp h3
  subst this
  exact ⟨h1, hg, h2⟩

theorem Inv.add {Q' : LruKey → Bool → Int → Int → Str → Prop} (h : Inv env Q c es) {k : LruKey} {b : Str}
    (hQ : ∀ k' pf ts ex w, k' ≠ k → Q k' pf ts ex w → Q' k' pf ts ex w) (hg : Good Q' k b) :
    ∃ c', Lru.addKey env.hash matchKey c k b = some c' ∧ c'.maxItems = c.maxItems ∧
      Inv env Q' c' (Spec.Lru.add c.maxItems es (env.hash k) b) := by
  obtain ⟨refs, hr⟩ := h.rep
  obtain ⟨c', refs', h1, h2, h3⟩ := hr.addKey_ok h.cap env.hash matchKey k b
  refine ⟨c', h1, h3, ⟨refs', h2⟩, ?_, ?_⟩
  · rw [h3]; exact Lru.capOk_trim _ _
  · intro e he
    have : e ∈ (env.hash k, b) :: Spec.Lru.without es (env.hash k) := by
      unfold Spec.Lru.add Spec.Lru.trim at he
      split at he
      · exact he
      · exact List.mem_of_mem_take he
    simp only [List.mem_cons, Spec.Lru.without, List.mem_filter] at this
    rcases this with rfl | ⟨hm, hne⟩
    · exact ⟨k, hg, rfl⟩
    · obtain ⟨k', hg', hh⟩ := h.good e hm
      have hne' : k' ≠ k := by
        intro h0
        rw [h0] at hh
        simp only [decide_eq_true_eq] at hne
        exact hne hh
      obtain ⟨hv, pf, ts, ex, w, g1, g2, g3, g4⟩ := hg'
      exact ⟨k', ⟨hv, pf, ts, ex, w, g1, g2, g3, hQ _ _ _ _ _ hne' g4⟩, hh⟩

/-- The record found for a key. -/
def found (env : Env H) (es : List (H × Str)) (k : LruKey) : Option Str :=
  (Spec.Lru.lookup matchKey es (env.hash k) k).map (·.2)

theorem Inv.get (h : Inv env Q c es) (k : LruKey) :
    ∃ c' es', Lru.get env.hash matchKey c k = some (c', found env es k) ∧ c'.maxItems = c.maxItems ∧
      Inv env Q c' es' ∧ es'.Perm es := by
  obtain ⟨refs, hr⟩ := h.rep
  obtain ⟨c', refs', h1, h2, h3⟩ := hr.get_ok env.hash matchKey k
  refine ⟨c', (Spec.Lru.get matchKey es (env.hash k) k).1, ?_, h3, ?_⟩
  · rw [h1]; unfold found Spec.Lru.get
    cases Spec.Lru.lookup matchKey es (env.hash k) k <;> rfl
  · cases hl : Spec.Lru.lookup matchKey es (env.hash k) k with
    | none =>
      have he : (Spec.Lru.get matchKey es (env.hash k) k).1 = es := by simp [Spec.Lru.get, hl]
      rw [he] at h2 ⊢
      exact ⟨⟨⟨refs', h2⟩, by rw [h3]; exact h.cap, h.good⟩, List.Perm.refl _⟩
    | some e =>
      have he : (Spec.Lru.get matchKey es (env.hash k) k).1 = e :: Spec.Lru.without es (env.hash k) := by
        simp [Spec.Lru.get, hl]
      rw [he] at h2 ⊢
      obtain ⟨hm, hg, hh⟩ := h.mem_lookup hl
      obtain ⟨e1, e2, rfl⟩ := List.append_of_mem hm
      have hw : Spec.Lru.without (e1 ++ e :: e2) (env.hash k) = e1 ++ e2 := by
        obtain ⟨x, y⟩ := e
        simp only at hh; subst hh
        exact Lru.without_split h.nodup
      rw [hw] at h2 ⊢
      have hp : (e :: (e1 ++ e2)).Perm (e1 ++ e :: e2) := List.perm_middle.symm
      refine ⟨⟨⟨refs', h2⟩, ?_, ?_⟩, hp⟩
      · rw [h3]; intro h0; rw [hp.length_eq]; exact h.cap h0
      · intro e' he'; exact h.good e' (hp.mem_iff.mp he')

theorem Inv.sub (h : Inv env Q c es) {c' : State H} {es' : List (H × Str)} (hr : ∃ refs, Lru.Rep c' refs es')
    (hm : c'.maxItems = c.maxItems) (hs : es'.Sublist es) : Inv env Q c' es' :=
  ⟨hr, by rw [hm]; intro h0; have := h.cap h0; have := hs.length_le; omega, fun e he => h.good e (hs.subset he)⟩

theorem Inv.delete (h : Inv env Q c es) (k : LruKey) :
    ∃ c', Lru.delete env.hash matchKey c k = some c' ∧ c'.maxItems = c.maxItems ∧
      Inv env Q c' (Spec.Lru.delete matchKey es (env.hash k) k) := by
  obtain ⟨refs, hr⟩ := h.rep
  obtain ⟨c', refs', h1, h2, h3⟩ := hr.delete_ok env.hash matchKey k
  refine ⟨c', h1, h3, h.sub ⟨refs', h2⟩ h3 ?_⟩
  unfold Spec.Lru.delete
  split
  · exact List.filter_sublist
  · exact List.Sublist.refl _

theorem Inv.gc (h : Inv env Q c es) (now : Int) :
    ∃ c' es', gc c now = some c' ∧ c'.maxItems = c.maxItems ∧ Inv env Q c' es' ∧ es'.Sublist es := by
  obtain ⟨refs, hr⟩ := h.rep
  obtain ⟨c', refs', h1, h2, h3⟩ := hr.deleteFunc_ok (fun e => match Blob.expiry? e.2 with
    | some x => decide (now > x)
    | none => false)
  exact ⟨c', _, h1, h3, h.sub ⟨refs', h2⟩ h3 List.filter_sublist, List.filter_sublist⟩

theorem Inv.flush (h : Inv env Q c es) : Inv env Q (flush c) [] := by
  obtain ⟨refs, hr⟩ := h.rep
  exact h.sub (c' := CacheM.flush c) ⟨[], hr.reset_ok⟩ rfl (by simp)

theorem Good.mono {Q Q' : LruKey → Bool → Int → Int → Str → Prop} (hQ : ∀ k pf ts ex w, Q k pf ts ex w → Q' k pf ts ex w)
    {k b} (h : Good Q k b) : Good Q' k b := by
  obtain ⟨hv, pf, ts, ex, w, h1, h2, h3, h4⟩ := h
  exact ⟨hv, pf, ts, ex, w, h1, h2, h3, hQ _ _ _ _ _ h4⟩

theorem Inv.mono {Q' : LruKey → Bool → Int → Int → Str → Prop} (h : Inv env Q c es)
    (hQ : ∀ k pf ts ex w, Q k pf ts ex w → Q' k pf ts ex w) : Inv env Q' c es :=
  ⟨h.rep, h.cap, fun e he => by obtain ⟨k, hg, hh⟩ := h.good e he; exact ⟨k, hg.mono hQ, hh⟩⟩

/-! ### Saving and loading -/
/-- Whether the record survives a save and load. -/
def usable (env : Env H) (b : Str) : Bool :=
  match toRecord b with
  | some r => (toCacheBlob env.decode r).isSome
  | none => false

theorem good_record {k : LruKey} {b : Str} (h : Good Q k b) :
    ∃ r, toRecord b = some r ∧ r.key = k ∧ (usable env b = true → toCacheBlob env.decode r = some b) ∧
      (usable env b = false → toCacheBlob env.decode r = none) := by
  obtain ⟨hv, pf, ts, ex, w, h1, h2, hn, -⟩ := h
  obtain ⟨r1, r2, r3, r4, r5⟩ := Props.Blob.blob_roundtrip hv h1 h2 hn
  have hr : toRecord b = some ⟨k, ts, ex, pf, w⟩ := by simp [toRecord, r1, r2, r3, r4, r5]
  refine ⟨_, hr, rfl, ?_, ?_⟩
  · intro hu
    unfold usable at hu
    rw [hr] at hu
    simp only [toCacheBlob] at hu ⊢
    split at hu
    · simp at hu
    · rename_i hne
      rw [if_neg hne]
      split at hu
      · simp at hu
      · rename_i m hd
        simp [hn]
  · intro hu
    unfold usable at hu
    rw [hr] at hu
    simpa using hu

theorem loadFile_ok (l : List (H × Str)) :
    ∀ {c : State H} {es : List (H × Str)}, Inv env Q c es → (∀ e ∈ l, ∃ k, Good Q k e.2 ∧ e.1 = env.hash k) →
    (l.map (·.1) ++ es.map (·.1)).Nodup → (0 < c.maxItems → (l.length + es.length : Int) ≤ c.maxItems) →
    ∃ recs c', (l.map (·.2)).mapM toRecord = some recs ∧ loadFile env c recs = some c' ∧ c'.maxItems = c.maxItems ∧
      Inv env Q c' ((l.filter (fun e => usable env e.2)).reverse ++ es) := by
  induction l with
  | nil => intro c es h _ _ _; exact ⟨[], c, rfl, rfl, rfl, by simpa using h⟩
  | cons e l ih =>
    intro c es h hg hn hcap
    obtain ⟨k, hgk, hk⟩ := hg e (by simp)
    obtain ⟨r, hr, hrk, hu1, hu2⟩ := good_record (env := env) hgk
    simp only [List.map_cons, List.cons_append, List.nodup_cons, List.mem_append, not_or] at hn
    cases hu : usable env e.2 with
    | true =>
      obtain ⟨c1, ha, hm1, hi1⟩ := h.add (fun _ _ _ _ _ _ h => h) hgk
      have hw : Spec.Lru.add c.maxItems es (env.hash k) e.2 = e :: es := by
        unfold Spec.Lru.add
        rw [Lru.without_absent]
        · rw [Lru.trim_of_capOk]
          · rw [← hk]
          · intro h0; have := hcap h0; simp at this ⊢; omega
        · intro x hx h0
          apply hn.1.2
          rw [hk, ← h0]
          exact List.mem_map.mpr ⟨x, hx, rfl⟩
      rw [hw] at hi1
      obtain ⟨recs, c', g1, g2, g3, g4⟩ := ih hi1 (fun x hx => hg x (by simp [hx]))
        (by simp only [List.map_cons, List.nodup_append, List.nodup_cons, List.mem_cons] at hn ⊢; grind)
        (by rw [hm1]; intro h0; have := hcap h0; simp at this ⊢; omega)
      refine ⟨r :: recs, c', ?_, ?_, by omega, ?_⟩
      · simp [hr, g1]
      · simp only [loadFile, hu1 hu, hrk, ha, Option.bind_eq_bind, Option.bind_some, g2]
      · simpa [hu] using g4
    | false =>
      obtain ⟨recs, c', g1, g2, g3, g4⟩ := ih h (fun x hx => hg x (by simp [hx])) hn.2
        (by intro h0; have := hcap h0; simp at this; omega)
      refine ⟨r :: recs, c', ?_, ?_, g3, ?_⟩
      · simp [hr, g1]
      · simp only [loadFile, hu2 hu, g2]
      · simpa [hu] using g4

theorem Inv.saveLoad (h : Inv env Q c es) :
    ∃ recs c', saveFile c = some recs ∧ loadFile env (Lru.new c.maxItems) recs = some c' ∧
      c'.maxItems = c.maxItems ∧ Inv env Q c' (es.filter (fun e => usable env e.2)) := by
  obtain ⟨refs, hr⟩ := h.rep
  obtain ⟨recs, c', h1, h2, h3, h4⟩ := loadFile_ok (env := env) (Q := Q) es.reverse (new_inv env Q c.maxItems)
    (fun e he => h.good e (by simpa using he))
    (by simpa using (List.reverse_perm _).symm.nodup h.nodup)
    (by intro h0; have := h.cap h0; simp only [List.length_reverse, List.length_nil]; simp; exact this)
  refine ⟨recs, c', ?_, h2, h3, ?_⟩
  · simp only [saveFile, hr.serialize_ok, Option.bind_eq_bind, Option.bind_some, h1]
  · simpa [List.filter_reverse] using h4

/-! ### Lookups -/
theorem found_iff (hn : (es.map (·.1)).Nodup) (k : LruKey) (b : Str) :
    found env es k = some b ↔ (env.hash k, b) ∈ es ∧ matchKey b k = true := by
  unfold found
  constructor
  · intro h
    obtain ⟨e, h1, rfl⟩ := Option.map_eq_some_iff.mp h
    obtain ⟨hm, h2, h3⟩ := Lru.lookup_mem h1
    obtain ⟨x, y⟩ := e
    simp only at h2 h3; subst h2
    exact ⟨hm, h3⟩
  · rintro ⟨h1, h2⟩
    cases hl : Spec.Lru.lookup matchKey es (env.hash k) k with
    | none =>
      unfold Spec.Lru.lookup at hl
      rw [List.find?_eq_none] at hl
      have := hl _ h1
      simp [h2] at this
    | some e =>
      obtain ⟨hm, h3, h4⟩ := Lru.lookup_mem hl
      have : e = (env.hash k, b) := by
        obtain ⟨e1, e2, rfl⟩ := List.append_of_mem hm
        simp only [List.map_append, List.map_cons, List.nodup_append, List.nodup_cons, List.mem_map, List.mem_cons] at hn
        simp only [List.mem_append, List.mem_cons] at h1
        rcases h1 with h1 | h1 | h1
        · exact absurd h3.symm (hn.2.2 _ ⟨_, h1, rfl⟩ _ (Or.inl rfl))
        · exact h1.symm
        · exact absurd ⟨_, h1, h3.symm⟩ hn.2.1.1
      subst this; rfl

theorem Inv.delete_gone (h : Inv env Q c es) (k : LruKey) {e : H × Str}
    (he : e ∈ Spec.Lru.delete matchKey es (env.hash k) k) : e ∈ es ∧ ¬ Good Q k e.2 ∨ e.1 ≠ env.hash k ∧ e ∈ es := by
  unfold Spec.Lru.delete at he
  cases hl : Spec.Lru.lookup matchKey es (env.hash k) k with
  | some x =>
    rw [hl] at he
    simp only [Spec.Lru.without, List.mem_filter, decide_eq_true_eq] at he
    exact Or.inr ⟨he.2, he.1⟩
  | none =>
    rw [hl] at he
    by_cases hx : e.1 = env.hash k
    · refine Or.inl ⟨he, ?_⟩
      intro hg
      have hm := (good_matches (k' := k) hg).mpr rfl
      obtain ⟨x, b⟩ := e
      simp only at hx hm; subst hx
      have := (found_iff (env := env) h.nodup k b).mpr ⟨he, hm⟩
      unfold found at this
      rw [hl] at this
      simp at this
    · exact Or.inr ⟨hx, he⟩

theorem Inv.delete_strong {Q' : LruKey → Bool → Int → Int → Str → Prop} (h : Inv env Q c es) {k : LruKey}
    (hQ : ∀ k' pf ts ex w, k' ≠ k → Q k' pf ts ex w → Q' k' pf ts ex w) :
    ∃ c', Lru.delete env.hash matchKey c k = some c' ∧ c'.maxItems = c.maxItems ∧
      Inv env Q' c' (Spec.Lru.delete matchKey es (env.hash k) k) := by
  obtain ⟨c', h1, h2, h3⟩ := h.delete k
  refine ⟨c', h1, h2, h3.rep, h3.cap, ?_⟩
  intro e he
  rcases h.delete_gone k he with ⟨hm, hng⟩ | ⟨hx, hm⟩
  · obtain ⟨k', hg, hh⟩ := h.good e hm
    have hne : k' ≠ k := by rintro rfl; exact hng hg
    obtain ⟨hv, pf, ts, ex, w, g1, g2, g3, g4⟩ := hg
    exact ⟨k', ⟨hv, pf, ts, ex, w, g1, g2, g3, hQ _ _ _ _ _ hne g4⟩, hh⟩
  · obtain ⟨k', hg, hh⟩ := h.good e hm
    have hne : k' ≠ k := by rintro rfl; exact hx hh
    obtain ⟨hv, pf, ts, ex, w, g1, g2, g3, g4⟩ := hg
    exact ⟨k', ⟨hv, pf, ts, ex, w, g1, g2, g3, hQ _ _ _ _ _ hne g4⟩, hh⟩

theorem found_perm {es' : List (H × Str)} (hn : (es.map (·.1)).Nodup) (hp : es'.Perm es) (k : LruKey) :
    found env es' k = found env es k := by
  have hn' : (es'.map (·.1)).Nodup := (hp.map _).symm.nodup hn
  apply Option.ext
  intro b
  rw [found_iff hn', found_iff hn, hp.mem_iff]

theorem Inv.found_delete (h : Inv env Q c es) {k k' : LruKey} (hne : k' ≠ k) :
    found env (Spec.Lru.delete matchKey es (env.hash k) k) k' = found env es k' := by
  unfold Spec.Lru.delete
  cases hl : Spec.Lru.lookup matchKey es (env.hash k) k with
  | none => rfl
  | some e =>
    obtain ⟨hm, hg, hh⟩ := h.mem_lookup hl
    have hn' : ((Spec.Lru.without es (env.hash k)).map (·.1)).Nodup := h.nodup.sublist (List.filter_sublist.map _)
    apply Option.ext
    intro b
    simp only
    rw [found_iff hn', found_iff h.nodup]
    constructor
    · rintro ⟨h1, h2⟩; simp [Spec.Lru.without] at h1; exact ⟨h1.1, h2⟩
    · rintro ⟨h1, h2⟩
      refine ⟨?_, h2⟩
      simp only [Spec.Lru.without, List.mem_filter, h1, true_and, decide_eq_true_eq]
      intro h0
      apply hne
      have : found env es k = some b := by
        rw [h0] at h1
        have hfk : found env es k = some e.2 := by unfold found; rw [hl]; rfl
        have hmem : (env.hash k, e.2) ∈ es := by rw [← hh]; exact hm
        have : e.2 = b := by
          obtain ⟨e1, e2, hes⟩ := List.append_of_mem hmem
          have hn := h.nodup
          rw [hes] at hn h1
          simp only [List.map_append, List.map_cons, List.nodup_append, List.nodup_cons, List.mem_map, List.mem_cons] at hn
          simp only [List.mem_append, List.mem_cons] at h1
          rcases h1 with h1 | h1 | h1
          · exact absurd rfl (hn.2.2 _ ⟨_, h1, rfl⟩ _ (Or.inl rfl))
          · exact (Prod.mk.inj h1).2.symm
          · exact absurd ⟨_, h1, rfl⟩ hn.2.1.1
        rw [← this]; exact hfk
      have hb : e.2 = b := by
        have : some e.2 = some b := by rw [← this]; unfold found; rw [hl]; rfl
        exact Option.some.inj this
      rw [hb] at hg
      exact (good_matches hg).mp h2

/-- What a record yields for a query at a time: nothing if expired, undecodable or aged out. -/
def yield (env : Env H) (pf : Bool) (ts ex : Int) (w : Str) (q : Msg) (now : Int) : Option (Msg × Bool) :=
  if now > ex then none
  else match env.decode w with
    | none => none
    | some m => (ageCachedAnswer m q (cacheAge now ts)).map (·, pf)

theorem serve_good {k : LruKey} {b : Str} {pf ts ex w} (hv : k.Valid) (h1 : InI64 ts) (h2 : InI64 ex)
    (hn : Blob.newFromWire k pf ts ex w = some b) (q : Msg) (now : Int) :
    serve env b q now = some (yield env pf ts ex w q now) := by
  obtain ⟨r1, r2, r3, r4, r5⟩ := Props.Blob.blob_roundtrip hv h1 h2 hn
  unfold serve yield
  simp only [r2, r3, r4, r5, Option.bind_eq_bind, Option.bind_some]
  split
  · rfl
  · cases hd : env.decode w with
    | none => rfl
    | some m =>
      simp only
      cases ha : ageCachedAnswer m q (cacheAge now ts) <;> rfl

/-- The answer the cache contents `es` hold for a query at a time. -/
def peek (env : Env H) (es : List (H × Str)) (q : Msg) (now : Int) : Option (Msg × Bool) :=
  (lruKeyFromQuery env.ipStr q).bind fun k => (found env es k).bind fun b => (serve env b q now).join

theorem Inv.serve_some (h : Inv env Q c es) {k : LruKey} {b : Str} (hf : found env es k = some b) (q : Msg) (now : Int) :
    ∃ r, serve env b q now = some r := by
  rw [found_iff h.nodup] at hf
  obtain ⟨k', hg, -⟩ := h.good _ hf.1
  obtain ⟨hv, pf, ts, ex, w, h1, h2, hn, -⟩ := hg
  exact ⟨_, serve_good hv h1 h2 hn q now⟩

theorem Inv.lookup (h : Inv env Q c es) {q : Msg} {k : LruKey} (hk : lruKeyFromQuery env.ipStr q = some k) (now : Int) :
    ∃ c' es', lookup env c q now = some (c', peek env es q now) ∧ c'.maxItems = c.maxItems ∧ Inv env Q c' es' ∧
      ∀ k', k' ≠ k → found env es' k' = found env es k' := by
  obtain ⟨c1, es1, h1, hm1, hi1, hp⟩ := h.get k
  have hf1 : ∀ k', found env es1 k' = found env es k' := found_perm h.nodup hp
  cases hf : found env es k with
  | none =>
    refine ⟨c1, es1, ?_, hm1, hi1, fun k' _ => hf1 k'⟩
    simp [CacheM.lookup, lookupGet, hk, h1, hf, peek]
  | some b =>
    obtain ⟨r, hr⟩ := h.serve_some hf q now
    cases r with
    | some r =>
      refine ⟨c1, es1, ?_, hm1, hi1, fun k' _ => hf1 k'⟩
      simp [CacheM.lookup, lookupGet, hk, h1, hf, peek, hr]
    | none =>
      obtain ⟨c2, h2, hm2, hi2⟩ := hi1.delete k
      refine ⟨c2, _, ?_, by omega, hi2, ?_⟩
      · simp [CacheM.lookup, lookupGet, hk, h1, hf, peek, hr, evict, h2]
      · intro k' hne; rw [hi1.found_delete hne, hf1]

theorem lruKey_isSome {ipStr : Str → Str} {q : Msg} (hq : q.question ≠ []) : ∃ k, lruKeyFromQuery ipStr q = some k := by
  unfold lruKeyFromQuery
  cases hl : q.question with
  | nil => exact absurd hl hq
  | cons a l => cases q.edns? <;> simp

end Verif.CacheM
