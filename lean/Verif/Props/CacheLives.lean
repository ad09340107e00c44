import Verif.Spec.CacheLives
import Verif.Props.Cache
/-
C91: a cache with a file, over restarts.
-/
set_option linter.unusedSectionVars false
namespace Verif.Props.CacheLives
open Verif Verif.CacheM Verif.CacheLives Verif.Spec.Cache Verif.Spec.CacheLives
open Verif.Props.Cache (WellFormed SaneTime)
variable {H : Type} [DecidableEq H]

/-- The queries are well-formed, the clock is sane, the options fit. -/
structure OkEv (ipStr : Str → Str) (e : Ev H) : Prop where
  store : ∀ q m t, e = .store q m t → WellFormed ipStr q ∧ SaneTime t
  get : ∀ q, e = .get q → q.question ≠ []
  evict : ∀ q, e = .evict q → q.question ≠ []
  start : ∀ h o c n, e = .start h o c n → o.negativeTTL ≤ 4294967295

private theorem lifetime_isSome (o : Opts) (m : Msg) (t : Int) : (lifetime o m t).isSome = true ↔ cacheable m.rcode = true := by
  have h : cacheable m.rcode = true ↔ (m.rcode = 0 ∨ m.rcode = 1 ∨ m.rcode = 2 ∨ m.rcode = 3 ∨ m.rcode = 4 ∨ m.rcode = 5) := by
    simp [cacheable]
  have h2 : (lifetime o m t).isSome = (baseLifetime o m t).isSome := by
    unfold lifetime
    split
    · rename_i hb; rw [hb]
    · rename_i hb; rw [hb]; split
      · rfl
      · split <;> rfl
  rw [h, h2]
  unfold baseLifetime
  simp only [rcodeSuccess, rcodeNameError, rcodeRefused, rcodeNotImplemented, rcodeFormatError, rcodeServerFailure]
  (repeat' split) <;> simp <;> omega

/-- The event replaces or removes what is stored under the key. -/
private inductive Removes (env : Env H) (k : LruKey) : Ev H → Prop
  | flush : Removes env k .flush
  | evict {q : Msg} : lruKeyFromQuery env.ipStr q = some k → Removes env k (.evict q)
  | store {q m : Msg} {t : Int} : lruKeyFromQuery env.ipStr q = some k → cacheable m.rcode = true → env.encode m ≠ none → Removes env k (.store q m t)

private theorem kept_mono {S S' : Ev H → Prop} (h : ∀ e, S' e → S e) {p : Place} {es : List (Ev H)} (hk : Kept S p es) : Kept S' p es := by
  induction hk with
  | stored => exact .stored
  | stays _ h1 h2 ih => exact .stays ih (fun hs => h1 (h _ hs)) h2
  | saved _ ih => exact .saved ih
  | onDisk _ h1 ih => exact .onDisk ih h1
  | loaded _ ih => exact .loaded ih

private def Prov (env : Env H) (o : Opts) (p : Place) (hist : List (Ev H)) (k : LruKey) (pf : Bool) (ts ex : Int) (w : Str) : Prop :=
  ∃ (q m : Msg) (h1 h2 : List (Ev H)), hist = h1 ++ .store q m ts :: h2 ∧ Kept (Removes env k) p h2 ∧
    lruKeyFromQuery env.ipStr q = some k ∧ env.encode m = some w ∧ lifetime (inForce o h1) m ts = some (ex, pf)

private theorem Prov.stays {env : Env H} {o : Opts} {hist : List (Ev H)} {k pf ts ex w} {e : Ev H} (hr : ¬ Removes env k e) (hs : ∀ h o c n, e ≠ .start h o c n)
    (h : Prov env o .cache hist k pf ts ex w) : Prov env o .cache (hist ++ [e]) k pf ts ex w := by
  obtain ⟨q, m, h1, h2, rfl, h3, h4⟩ := h
  exact ⟨q, m, h1, h2 ++ [e], by simp, .stays h3 hr hs, h4⟩

private theorem Prov.saved {env : Env H} {o : Opts} {hist : List (Ev H)} {k pf ts ex w}
    (h : Prov env o .cache hist k pf ts ex w) : Prov env o .file (hist ++ [.save]) k pf ts ex w := by
  obtain ⟨q, m, h1, h2, rfl, h3, h4⟩ := h
  exact ⟨q, m, h1, h2 ++ [.save], by simp, .saved h3, h4⟩

private theorem Prov.onDisk {env : Env H} {o : Opts} {hist : List (Ev H)} {k pf ts ex w} {e : Ev H} (hs : e ≠ .save)
    (h : Prov env o .file hist k pf ts ex w) : Prov env o .file (hist ++ [e]) k pf ts ex w := by
  obtain ⟨q, m, h1, h2, rfl, h3, h4⟩ := h
  exact ⟨q, m, h1, h2 ++ [e], by simp, .onDisk h3 hs, h4⟩

private theorem Prov.loaded {env : Env H} {o : Opts} {hist : List (Ev H)} {k pf ts ex w} {hash : LruKey → H} {o' : Opts} {cap : Int} {n : Nat}
    (h : Prov env o .file hist k pf ts ex w) : Prov env o .cache (hist ++ [.start hash o' cap n]) k pf ts ex w := by
  obtain ⟨q, m, h1, h2, rfl, h3, h4⟩ := h
  exact ⟨q, m, h1, h2 ++ [.start hash o' cap n], by simp, .loaded h3, h4⟩

/-- A record of the file, with its origin. -/
def RecGood (Q : LruKey → Bool → Int → Int → Str → Prop) (r : FileRec) : Prop :=
  r.key.Valid ∧ InI64 r.timestamp ∧ InI64 r.expiry ∧ Q r.key r.prefetch r.timestamp r.expiry r.msg

theorem save_good {env : Env H} {Q : LruKey → Bool → Int → Int → Str → Prop} {c : State H} {es : List (H × Str)} (h : Inv env Q c es) :
    ∃ recs, saveFile c = some recs ∧ ∀ r ∈ recs, RecGood Q r := by
  obtain ⟨refs, hr⟩ := h.rep
  have key : ∀ l : List (H × Str), (∀ e ∈ l, ∃ k, Good Q k e.2) → ∃ recs, (l.map (·.2)).mapM toRecord = some recs ∧ ∀ r ∈ recs, RecGood Q r := by
    intro l
    induction l with
    | nil => intro _; exact ⟨[], rfl, by simp⟩
    | cons e l ih =>
      intro hg
      obtain ⟨recs, h1, h2⟩ := ih fun x hx => hg x (by simp [hx])
      obtain ⟨k, hv, pf, ts, ex, w, b1, b2, hn, hq⟩ := hg e (by simp)
      obtain ⟨r1, r2, r3, r4, r5⟩ := Props.Blob.blob_roundtrip hv b1 b2 hn
      have hrec : toRecord e.2 = some ⟨k, ts, ex, pf, w⟩ := by simp [toRecord, r1, r2, r3, r4, r5]
      refine ⟨⟨k, ts, ex, pf, w⟩ :: recs, by simp [hrec, h1], ?_⟩
      intro r hr
      rcases List.mem_cons.mp hr with rfl | hr
      · exact ⟨hv, b1, b2, hq⟩
      · exact h2 r hr
  obtain ⟨recs, h1, h2⟩ := key es.reverse (fun e he => by obtain ⟨k, hg, _⟩ := h.good e (by simpa using he); exact ⟨k, hg⟩)
  exact ⟨recs, by simp only [saveFile, hr.serialize_ok, Option.bind_eq_bind, Option.bind_some, h1], h2⟩

private theorem load_good {env : Env H} {Q : LruKey → Bool → Int → Int → Str → Prop} (recs : List FileRec) :
    ∀ {c : State H} {es : List (H × Str)}, Inv env Q c es → (∀ r ∈ recs, RecGood Q r) → ∃ c' es', loadFile env c recs = some c' ∧ c'.maxItems = c.maxItems ∧ Inv env Q c' es' := by
  induction recs with
  | nil => intro c es h _; exact ⟨c, es, rfl, rfl, h⟩
  | cons r recs ih =>
    intro c es h hg
    simp only [loadFile]
    cases hb : toCacheBlob env.decode r with
    | none => exact ih h fun x hx => hg x (by simp [hx])
    | some b =>
      obtain ⟨hv, h1, h2, hq⟩ := hg r (by simp)
      have hn : Blob.newFromWire r.key r.prefetch r.timestamp r.expiry r.msg = some b := by
        unfold toCacheBlob at hb
        split at hb
        · cases hb
        · split at hb
          · cases hb
          · exact hb
      obtain ⟨c1, ha, hmx, hi⟩ := h.add (fun _ _ _ _ _ _ h => h) (k := r.key) (b := b) ⟨hv, _, _, _, _, h1, h2, hn, hq⟩
      obtain ⟨c2, es2, g1, gm, g2⟩ := ih hi fun x hx => hg x (by simp [hx])
      exact ⟨c2, es2, by simp [ha, g1], by omega, g2⟩

private structure Ok (env : Env H) (o : Opts) (cap : Int) (hist : List (Ev H)) (s : Sys H) : Prop where
  opts : s.opts = inForce o hist
  neg : s.opts.negativeTTL ≤ 4294967295
  cap : s.cache.maxItems = capacity cap hist
  cache : ∃ es, Inv (s.env env) (Prov env o .cache hist) s.cache es
  file : ∀ r ∈ s.file, RecGood (Prov env o .file hist) r

private theorem inForce_append (o : Opts) (l : List (Ev H)) (e : Ev H) : inForce o (l ++ [e]) = match e with
    | .start _ o' _ _ => o'
    | _ => inForce o l := by
  induction l generalizing o with
  | nil => cases e <;> rfl
  | cons x l ih => cases x <;> simp only [List.cons_append, inForce] <;> exact ih _

private theorem capacity_append (cap : Int) (l : List (Ev H)) (e : Ev H) : capacity cap (l ++ [e]) = match e with
    | .start _ _ cap' _ => cap'
    | _ => capacity cap l := by
  induction l generalizing cap with
  | nil => cases e <;> rfl
  | cons x l ih => cases x <;> simp only [List.cons_append, capacity] <;> exact ih _

private theorem step_ok {env : Env H} {o : Opts} {cap : Int} {hist : List (Ev H)} {s : Sys H} (h : Ok env o cap hist s) (e : Ev H) (hok : OkEv env.ipStr e) :
    ∃ s', step env s e = some s' ∧ Ok env o cap (hist ++ [e]) s' := by
  obtain ⟨es, hi⟩ := h.cache
  have keep : (∀ k, ¬ Removes env k e) → (∀ h o c n, e ≠ .start h o c n) → Inv (s.env env) (Prov env o .cache (hist ++ [e])) s.cache es :=
    fun hr hs => hi.mono fun k pf ts ex w hp => hp.stays (hr k) hs
  have disk : e ≠ .save → ∀ r ∈ s.file, RecGood (Prov env o .file (hist ++ [e])) r := by
    intro hs r hr
    obtain ⟨h1, h2, h3, h4⟩ := h.file r hr
    exact ⟨h1, h2, h3, h4.onDisk hs⟩
  cases e with
  | store q m t =>
    obtain ⟨hw, ht⟩ := hok.store q m t rfl
    obtain ⟨k, hk⟩ := lruKey_isSome (ipStr := env.ipStr) hw.question
    have hk' : lruKeyFromQuery (s.env env).ipStr q = some k := hk
    have he' : (s.env env).encode = env.encode := rfl
    have same : (∀ k, ¬ Removes env k (.store q m t)) → ∃ s', some s = some s' ∧ Ok env o cap (hist ++ [.store q m t]) s' := fun hr =>
      ⟨s, rfl, by rw [inForce_append]; exact h.opts, h.neg, by rw [capacity_append]; exact h.cap, ⟨es, keep hr (by simp)⟩, disk (by simp)⟩
    cases hl : lifetime s.opts m t with
    | none =>
      have : step env s (.store q m t) = some s := by simp [step, storeInCache, hl]
      rw [this]
      apply same
      intro k hr
      cases hr with
      | store _ hc _ => rw [← lifetime_isSome s.opts m t, hl] at hc; cases hc
    | some x =>
      obtain ⟨ex, pf⟩ := x
      obtain ⟨r1, r2⟩ := Props.Cache.lifetime_range h.neg hl
      cases he : env.encode m with
      | none =>
        have : step env s (.store q m t) = some s := by simp [step, storeInCache, hl, store, hk', he', he]
        rw [this]
        apply same
        intro k hr
        cases hr with
        | store _ _ hc => exact hc he
      | some w =>
        cases hb : Blob.newFromWire k pf t ex w with
        | none =>
          have : step env s (.store q m t) = some s := by simp [step, storeInCache, hl, store, hk', he', he, hb]
          rw [this]
          refine ⟨s, rfl, by rw [inForce_append]; exact h.opts, h.neg, by rw [capacity_append]; exact h.cap, ⟨es, hi.rep, hi.cap, ?_⟩, disk (by simp)⟩
          intro x hx
          obtain ⟨k', ⟨hv, pf', ts, ex', w', g1, g2, g3, g4⟩, hh⟩ := hi.good x hx
          refine ⟨k', ⟨hv, pf', ts, ex', w', g1, g2, g3, g4.stays ?_ (by simp)⟩, hh⟩
          intro hr
          cases hr with
          | store hkk _ _ =>
            have hkk : k = k' := Option.some.inj (hk.symm.trans hkk)
            subst hkk
            have a1 := (Props.Blob.blob_encode_isSome k pf' ts ex' w').mp (by rw [g3]; rfl)
            have a2 := (Props.Blob.blob_encode_isSome k pf t ex w).mpr a1
            rw [hb] at a2; simp at a2
        | some b =>
          unfold SaneTime at ht
          obtain ⟨c', h1, h2, h3⟩ := hi.add (k := k) (b := b) (Q' := Prov env o .cache (hist ++ [.store q m t]))
            (fun k' pf ts ex w hne hp => hp.stays (fun hr => by cases hr with | store hr _ _ => exact hne (Option.some.inj (hr.symm.trans hk))) (by simp))
            ⟨Props.Cache.valid_key hw hk, pf, t, ex, w, ⟨by omega, by omega⟩, ⟨by omega, by omega⟩, hb, q, m, hist, [], rfl, .stored, hk, he, by rw [← h.opts]; exact hl⟩
          refine ⟨{ s with cache := c' }, ?_, by rw [inForce_append]; exact h.opts, h.neg, by rw [capacity_append]; exact h2.trans h.cap, ⟨_, h3⟩, disk (by simp)⟩
          simp only [step, storeInCache, hl, store, hk', he', he, hb, Option.bind_eq_bind, Option.bind_some]
          rw [h1]
          rfl
  | get q =>
    obtain ⟨k, hk⟩ := lruKey_isSome (ipStr := env.ipStr) (hok.get q rfl)
    obtain ⟨c', es', h1, h2, h3, -⟩ := (keep (fun _ hr => by cases hr) (by intros; simp)).get k
    refine ⟨{ s with cache := c' }, ?_, by rw [inForce_append]; exact h.opts, h.neg, by rw [capacity_append]; exact h2.trans h.cap, ⟨es', h3⟩, disk (by simp)⟩
    have hk' : lruKeyFromQuery (s.env env).ipStr q = some k := hk
    simp [step, lookupGet, hk', h1]
  | evict q =>
    obtain ⟨k, hk⟩ := lruKey_isSome (ipStr := env.ipStr) (hok.evict q rfl)
    have hk' : lruKeyFromQuery (s.env env).ipStr q = some k := hk
    obtain ⟨c', h1, h2, h3⟩ := hi.delete_strong (k := k) (Q' := Prov env o .cache (hist ++ [.evict q]))
      (fun k' pf ts ex w hne hp => hp.stays (fun hr => by cases hr with | evict hr => exact hne (Option.some.inj (hr.symm.trans hk))) (by simp))
    exact ⟨{ s with cache := c' }, by simp [step, CacheM.evict, hk', h1], by rw [inForce_append]; exact h.opts, h.neg, by rw [capacity_append]; exact h2.trans h.cap, ⟨_, h3⟩, disk (by simp)⟩
  | gc now =>
    obtain ⟨c', es', h1, h2, h3, -⟩ := (keep (fun _ hr => by cases hr) (by intros; simp)).gc now
    exact ⟨{ s with cache := c' }, by simp [step, h1], by rw [inForce_append]; exact h.opts, h.neg, by rw [capacity_append]; exact h2.trans h.cap, ⟨es', h3⟩, disk (by simp)⟩
  | flush =>
    have hf := hi.flush
    exact ⟨_, rfl, by rw [inForce_append]; exact h.opts, h.neg, by rw [capacity_append]; exact h.cap, ⟨[], hf.rep, hf.cap, by simp⟩, disk (by simp)⟩
  | save =>
    obtain ⟨recs, h1, h2⟩ := save_good hi
    refine ⟨{ s with file := recs }, by simp [step, h1], by rw [inForce_append]; exact h.opts, h.neg, by rw [capacity_append]; exact h.cap, ⟨es, keep (fun _ hr => by cases hr) (by intros; simp)⟩, ?_⟩
    intro r hr
    obtain ⟨g1, g2, g3, g4⟩ := h2 r hr
    exact ⟨g1, g2, g3, g4.saved⟩
  | start hash o' cap' n =>
    obtain ⟨c', es', h1, hm, h2⟩ := load_good (env := { env with hash := hash }) (Q := Prov env o .cache (hist ++ [.start hash o' cap' n])) (s.file.take n) (new_inv _ _ cap') (by
      intro r hr
      obtain ⟨g1, g2, g3, g4⟩ := h.file r (List.mem_of_mem_take hr)
      exact ⟨g1, g2, g3, g4.loaded⟩)
    exact ⟨{ hash := hash, opts := o', cache := c', file := s.file }, by simp [step, h1], by rw [inForce_append], hok.start _ _ _ _ rfl, by rw [capacity_append]; exact hm, ⟨es', h2⟩, disk (by simp)⟩

private theorem run_ok {env : Env H} {o : Opts} {cap : Int} (evs : List (Ev H)) : ∀ {hist : List (Ev H)} {s : Sys H}, Ok env o cap hist s → (∀ e ∈ evs, OkEv env.ipStr e) →
    ∃ s', run env s evs = some s' ∧ Ok env o cap (hist ++ evs) s' := by
  induction evs with
  | nil => intro hist s h _; exact ⟨s, rfl, by simpa using h⟩
  | cons e evs ih =>
    intro hist s h hok
    obtain ⟨s1, h1, h2⟩ := step_ok h e (hok e (by simp))
    obtain ⟨s2, g1, g2⟩ := ih h2 (fun x hx => hok x (by simp [hx]))
    exact ⟨s2, by simp [run, h1, g1], by simpa using g2⟩

private theorem first_ok (env : Env H) (hash : LruKey → H) (o : Opts) (ho : o.negativeTTL ≤ 4294967295) (cap : Int) : Ok env o cap [] (first hash o cap) :=
  ⟨rfl, ho, rfl, ⟨[], new_inv _ _ cap⟩, by intro r hr; cases hr⟩

/-- What the cache holds after any history can be read. -/
theorem reached_inv {env : Env H} {hash : LruKey → H} {o : Opts} (ho : o.negativeTTL ≤ 4294967295) {cap : Int} {hist : List (Ev H)} {s : Sys H} (hok : ∀ e ∈ hist, OkEv env.ipStr e)
    (hr : run env (first hash o cap) hist = some s) : s.opts.negativeTTL ≤ 4294967295 ∧ ∃ es, Inv (s.env env) (fun _ _ _ _ _ => True) s.cache es := by
  obtain ⟨s', h1, h2⟩ := run_ok hist (first_ok env hash o ho cap) hok
  rw [hr] at h1
  cases h1
  obtain ⟨es, h3⟩ := h2.cache
  exact ⟨h2.neg, es, h3.mono fun _ _ _ _ _ _ => trivial⟩

/-- C91: neither the cache nor saving and loading its file ever crash, whatever happened before, in this run of the program or in earlier ones. -/
theorem never_panics (env : Env H) (hash : LruKey → H) (o : Opts) (ho : o.negativeTTL ≤ 4294967295) (cap : Int) (hist : List (Ev H)) (hok : ∀ e ∈ hist, OkEv env.ipStr e) :
    ∃ s, run env (first hash o cap) hist = some s := by
  obtain ⟨s, h, _⟩ := run_ok hist (first_ok env hash o ho cap) hok
  exact ⟨s, h⟩

private theorem sym {ipStr : Str → Str} {q q' : Msg} (h : SameRequest ipStr q q') : SameRequest ipStr q' q := by
  obtain ⟨⟨a, b, h1, h2, h3, h4, h5⟩, h6, h7, h8⟩ := h
  exact ⟨⟨b, a, h2, h1, h3.symm, h4.symm, h5.symm⟩, h6.symm, h7.symm, h8.symm⟩

/-- C91: whatever the cache serves after any number of restarts is justified by a response stored before, in this run of the program or an earlier one. -/
theorem served_after_restarts (env : Env H) (hip : ∀ a, env.ipStr a ≠ []) (hash : LruKey → H) (o : Opts) (ho : o.negativeTTL ≤ 4294967295) (cap : Int) (hist : List (Ev H))
    (hok : ∀ e ∈ hist, OkEv env.ipStr e) (s : Sys H) (hrun : run env (first hash o cap) hist = some s) (q : Msg) (hq : q.question ≠ []) (now : Int) :
    ∃ c' r, lookup (s.env env) s.cache q now = some (c', r) ∧ ∀ a pf, r = some (a, pf) → Justified env o hist q now a := by
  obtain ⟨s1, h, hs⟩ := run_ok hist (first_ok env hash o ho cap) hok
  rw [hrun] at h
  cases h
  simp only [List.nil_append] at hs
  obtain ⟨es, hi⟩ := hs.cache
  obtain ⟨k, hk⟩ := lruKey_isSome (ipStr := env.ipStr) hq
  obtain ⟨c', es', h1, -, -⟩ := hi.lookup (q := q) hk now
  refine ⟨c', _, h1, ?_⟩
  intro a pf hp
  unfold peek at hp
  obtain ⟨k', hk', hp⟩ := Option.bind_eq_some_iff.mp hp
  have : k' = k := Option.some.inj ((show lruKeyFromQuery env.ipStr q = some k' from hk').symm.trans hk)
  subst this
  obtain ⟨b, hb, hp⟩ := Option.bind_eq_some_iff.mp hp
  rw [found_iff hi.nodup] at hb
  obtain ⟨k2, hg, -⟩ := hi.good _ hb.1
  have := (good_matches hg).mp hb.2
  subst this
  obtain ⟨hv, pf', ts, ex, w, b1, b2, hn, q0, m, g1, g2, hm, hkept, hk0, he, hl⟩ := hg
  rw [serve_good hv b1 b2 hn] at hp
  simp only [Option.join_some] at hp
  unfold yield at hp
  split at hp
  · simp at hp
  · rename_i hnow
    split at hp
    · simp at hp
    · rename_i m' hd
      obtain ⟨a', ha, hx⟩ := Option.map_eq_some_iff.mp hp
      obtain ⟨rfl, rfl⟩ := Prod.mk.inj hx
      have hneg : (inForce o g1).negativeTTL ≤ 4294967295 := by
        have hok1 : ∀ e ∈ g1, OkEv env.ipStr e := fun e he => hok e (by rw [hm]; simp [he])
        obtain ⟨s2, _, hs2⟩ := run_ok g1 (first_ok env hash o ho cap) hok1
        have := hs2.neg
        rw [hs2.opts] at this
        simpa using this
      obtain ⟨r1, r2⟩ := Props.Cache.lifetime_range hneg hl
      rw [cacheAge_eq (by omega)] at ha
      refine ⟨q0, m, ts, m', ex, _, g1, g2, hm, kept_mono ?_ hkept, lruKey_same hip hk0 hk, hl, by omega, ⟨w, he, hd⟩, ageCachedAnswer_some ha⟩
      intro e hs
      cases hs with
      | flush => exact .flush
      | evict hs => exact .evict (lruKey_of_same hk (sym hs))
      | store hs h2 h3 => exact .store (lruKey_of_same hk (sym hs)) h2 h3

private theorem mapM_length {α β : Type} {f : α → Option β} : ∀ {l : List α} {l' : List β}, l.mapM f = some l' → l'.length = l.length
  | [], l', h => by cases h; rfl
  | a :: l, l', h => by
    simp only [List.mapM_cons, Option.bind_eq_bind, Option.bind_eq_some_iff, Option.pure_def, Option.some.injEq] at h
    obtain ⟨b, -, t, ht, rfl⟩ := h
    simp [mapM_length ht]

/-- C91: however many records an earlier run left in the file, the cache never has more entries than the present run allows, and neither has the file that it saves. -/
theorem within_capacity (env : Env H) (hash : LruKey → H) (o : Opts) (ho : o.negativeTTL ≤ 4294967295) (cap : Int) (hist : List (Ev H)) (hok : ∀ e ∈ hist, OkEv env.ipStr e)
    (hcap : 0 < capacity cap hist) : ∃ s, run env (first hash o cap) (hist ++ [.save]) = some s ∧ (s.file.length : Int) ≤ capacity cap hist := by
  obtain ⟨s0, h, hs⟩ := run_ok hist (first_ok env hash o ho cap) hok
  simp only [List.nil_append] at hs
  obtain ⟨es, hi⟩ := hs.cache
  obtain ⟨refs, hr⟩ := hi.rep
  obtain ⟨recs, h1, -⟩ := save_good hi
  have hlen : recs.length = es.length := by
    simp only [saveFile, hr.serialize_ok, Option.bind_eq_bind, Option.bind_some] at h1
    simpa using mapM_length h1
  refine ⟨{ s0 with file := recs }, ?_, ?_⟩
  · have : ∀ (l : List (Ev H)) (a b : Sys H), run env a l = some b → run env a (l ++ [.save]) = step env b .save := by
      intro l
      induction l with
      | nil => intro a b h; cases h; simp only [List.nil_append, run]; cases step env a .save <;> rfl
      | cons e l ih =>
        intro a b h
        simp only [run, Option.bind_eq_bind, Option.bind_eq_some_iff, List.cons_append] at h ⊢
        obtain ⟨x, hx, h⟩ := h
        rw [hx]
        exact ih x b h
    rw [this _ _ _ h]
    simp [step, h1]
  · have := hi.cap (by rw [hs.cap]; exact hcap)
    rw [hs.cap] at this
    simp only [hlen]
    exact this

/-- The hash tells the requests of all stored responses apart. -/
def TellsApart (env : Env H) (hash : LruKey → H) (hist : List (Ev H)) : Prop :=
  ∀ q m t q' m' t', Ev.store q m t ∈ hist → Ev.store q' m' t' ∈ hist →
    ∀ k k', lruKeyFromQuery env.ipStr q = some k → lruKeyFromQuery env.ipStr q' = some k' → hash k = hash k' → k = k'

private theorem lookup_peek {env : Env H} {Q : LruKey → Bool → Int → Int → Str → Prop} {c : State H} {es : List (H × Str)} (h : Inv env Q c es) (q : Msg) (now : Int) :
    (CacheM.lookup env c q now).map (·.2) = (lruKeyFromQuery env.ipStr q).map fun _ => peek env es q now := by
  cases hk : lruKeyFromQuery env.ipStr q with
  | none => simp [CacheM.lookup, lookupGet, hk]
  | some k =>
    obtain ⟨c', es', h1, -⟩ := h.lookup hk now
    simp [h1]

private theorem prov_usable {env env' : Env H} (hd : env'.decode = env.decode) (hcodec : ∀ m w, env.encode m = some w → w ≠ [] ∧ ∃ m', env.decode w = some m') {o : Opts} {p : Place} {hist : List (Ev H)}
    (hname : ∀ q m t, Ev.store q m t ∈ hist → ∀ a ∈ q.question, a.name ≠ []) {k : LruKey} {b : Str} (hg : Good (Prov env o p hist) k b) : usable env' b = true := by
  obtain ⟨hv, pf, ts, ex, w, b1, b2, hn, q, m, g1, g2, hq, -, hk, henc, -⟩ := hg
  obtain ⟨r1, r2, r3, r4, r5⟩ := Props.Blob.blob_roundtrip hv b1 b2 hn
  obtain ⟨hw, m', hdec⟩ := hcodec m w henc
  obtain ⟨qu, f1, f2, -⟩ := lruKey_form hk
  have hne : k.name ≠ [] := by
    rw [f2]
    have := hname q m ts (by rw [hq]; simp) qu (List.mem_of_mem_head? f1)
    intro h0; apply this
    unfold lower at h0; simpa using h0
  simp [usable, toRecord, r1, r2, r3, r4, r5, toCacheBlob, hne, hw, hd, hdec, hn]

/-- C91: if the cache was saved right before the program ended, and its file is read completely, nothing is lost: every look-up has the result that it would have had without the
restart. (The new hash must tell the stored requests apart; of two responses with the same hash a cache keeps one. `hcodec`: what `Pack` produces is not empty, and `Unpack` accepts it.) -/
theorem nothing_lost (env : Env H) (hcodec : ∀ m w, env.encode m = some w → w ≠ [] ∧ ∃ m', env.decode w = some m') (hash : LruKey → H) (o : Opts) (ho : o.negativeTTL ≤ 4294967295) (cap : Int)
    (hist : List (Ev H)) (hok : ∀ e ∈ hist, OkEv env.ipStr e) (hname : ∀ q m t, Ev.store q m t ∈ hist → ∀ a ∈ q.question, a.name ≠ []) (s : Sys H) (hrun : run env (first hash o cap) hist = some s)
    (hash' : LruKey → H) (hdist : TellsApart env hash' hist) (o' : Opts) :
    ∃ s1, step env s .save = some s1 ∧ ∀ n, s1.file.length ≤ n → ∃ s2, step env s1 (.start hash' o' s.cache.maxItems n) = some s2 ∧
      ∀ (q : Msg) (now : Int), (CacheM.lookup (s2.env env) s2.cache q now).map (·.2) = (CacheM.lookup (s.env env) s.cache q now).map (·.2) := by
  obtain ⟨s0, h, hs⟩ := run_ok hist (first_ok env hash o ho cap) hok
  rw [hrun] at h
  cases h
  simp only [List.nil_append] at hs
  obtain ⟨es, hi⟩ := hs.cache
  obtain ⟨refs, hr⟩ := hi.rep
  -- the same entries under the new hash
  have hkey : ∀ e ∈ es, ∃ k, Good (Prov env o .cache hist) k e.2 ∧ e.1 = s.hash k ∧ Blob.key? e.2 = some k := by
    intro e he
    obtain ⟨k, hg, hh⟩ := hi.good e he
    refine ⟨k, hg, hh, ?_⟩
    obtain ⟨hv, pf, ts, ex, w, b1, b2, hn, -⟩ := hg
    exact (Props.Blob.blob_roundtrip hv b1 b2 hn).1
  obtain ⟨re, hre⟩ : ∃ re : H × Str → H × Str, re = fun e => ((Blob.key? e.2).elim e.1 hash', e.2) := ⟨_, rfl⟩
  have hre2 : ∀ e, (re e).2 = e.2 := by intro e; rw [hre]
  have hre1 : ∀ e k, Blob.key? e.2 = some k → (re e).1 = hash' k := by intro e k hk; rw [hre]; simp [hk]
  have hgood : ∀ e ∈ es.map re, ∃ k, Good (Prov env o .cache hist) k e.2 ∧ e.1 = hash' k := by
    intro e he
    obtain ⟨x, hx, rfl⟩ := List.mem_map.mp he
    obtain ⟨k, hg, -, hk⟩ := hkey x hx
    exact ⟨k, by rw [hre2]; exact hg, hre1 x k hk⟩
  have hnd : ((es.map re).map (·.1)).Nodup := by
    have hp : es.Pairwise (fun a b => a.1 ≠ b.1) := List.pairwise_map.mp hi.nodup
    rw [List.map_map]
    refine List.pairwise_map.mpr (hp.imp_of_mem ?_)
    intro a b ha hb hne heq
    obtain ⟨k, ⟨_, _, ts, _, _, _, _, _, q, m, x1, x2, hq, _, hkq, _⟩, h1, hk⟩ := hkey a ha
    obtain ⟨k', ⟨_, _, ts', _, _, _, _, _, q', m', y1, y2, hq', _, hkq', _⟩, h1', hk'⟩ := hkey b hb
    simp only [Function.comp_apply, hre1 _ _ hk, hre1 _ _ hk'] at heq
    have := hdist q m ts q' m' ts' (by rw [hq]; simp) (by rw [hq']; simp) _ _ hkq hkq' heq
    exact hne (by rw [h1, h1', this])
  obtain ⟨env', henv'⟩ : ∃ env' : Env H, env' = { env with hash := hash' } := ⟨_, rfl⟩
  have hh' : env'.hash = hash' := by rw [henv']
  obtain ⟨recs, c', h1, h2, h3, h4⟩ := loadFile_ok (env := env') (Q := Prov env o .cache hist) (es.map re).reverse (new_inv env' _ s.cache.maxItems)
    (fun e he => by rw [hh']; exact hgood e (by simpa using he))
    (by simpa using (List.reverse_perm _).symm.nodup hnd)
    (by intro h0; have := hi.cap h0; simp only [List.length_reverse, List.length_map, List.length_nil]; simp; exact this)
  have hfil : (List.filter (fun e => usable env' e.2) (es.map re).reverse).reverse ++ [] = es.map re := by
    rw [List.append_nil, List.filter_reverse, List.reverse_reverse, List.filter_eq_self]
    intro e he
    obtain ⟨k, hg, -⟩ := hgood e he
    exact prov_usable (env := env) (by rw [henv']) hcodec hname hg
  rw [hfil] at h4
  have hmap : ((es.map re).reverse.map (·.2)) = es.reverse.map (·.2) := by
    rw [← List.map_reverse, List.map_map]
    exact List.map_congr_left fun e _ => hre2 e
  rw [hmap] at h1
  have hsave : saveFile s.cache = some recs := by simp only [saveFile, hr.serialize_ok, Option.bind_eq_bind, Option.bind_some, h1]
  refine ⟨{ s with file := recs }, by simp [step, hsave], ?_⟩
  intro n hn
  refine ⟨{ hash := hash', opts := o', cache := c', file := recs }, ?_, ?_⟩
  · rw [henv'] at h2
    simp [step, List.take_of_length_le hn, h2]
  · intro q now
    have he2 : (Sys.env env { hash := hash', opts := o', cache := c', file := recs } : Env H) = env' := by rw [henv']; rfl
    rw [he2, lookup_peek h4, lookup_peek hi]
    have hip : env'.ipStr = env.ipStr := by rw [henv']
    have hip2 : (s.env env).ipStr = env.ipStr := rfl
    rw [hip, hip2]
    cases hk : lruKeyFromQuery env.ipStr q with
    | none => rfl
    | some k =>
      have hf : found env' (es.map re) k = found (s.env env) es k := by
        apply Option.ext
        intro b
        rw [found_iff h4.nodup, found_iff hi.nodup, hh']
        constructor
        · rintro ⟨hm, hb⟩
          obtain ⟨e, he, heq⟩ := List.mem_map.mp hm
          obtain ⟨k', hg, g1, g2⟩ := hkey e he
          have hb2 : e.2 = b := by rw [← hre2 e, heq]
          rw [hb2] at hg
          have := (good_matches hg).mp hb
          subst this
          refine ⟨?_, hb⟩
          have : e = (s.hash k, b) := by rw [← g1, ← hb2]
          exact this ▸ he
        · rintro ⟨hm, hb⟩
          refine ⟨?_, hb⟩
          obtain ⟨k', hg, g1, g2⟩ := hkey _ hm
          have := (good_matches hg).mp hb
          subst this
          refine List.mem_map.mpr ⟨_, hm, ?_⟩
          exact Prod.ext (hre1 _ _ g2) (hre2 _)
      have hserve : ∀ b, serve env' b q now = serve (s.env env) b q now := by intro b; rw [henv']; rfl
      simp only [Option.map_some, peek, hip, hip2, hk, Option.bind_some, hf, hserve]

section Examples

/-- An environment that encodes messages by code and first TTL. -/
private def exEnv : Env Nat where
  ipStr a := 49 :: a
  hash _ := 7
  encode m := some [m.rcode.toUInt8, (m.answer.map (fun r => r.ttl.toUInt8)).headD 0]
  decode w := match w with
    | [r, t] => some { rcode := r.toNat, response := true,
                       answer := if t = 0 then [] else [{ name := [97], rtype := 1, cls := 1, ttl := t.toNat, data := .a [1, 2, 3, 4] }] }
    | _ => none

private def exHash (seed : Nat) (k : LruKey) : Nat := seed + k.name.length
private def exQ (name : String) : Msg := { id := 5, question := [{ name := str name, qtype := 1, qclass := 1 }] }
private def exA (ttl : Nat) : Msg := { response := true, answer := [{ name := [97], rtype := 1, cls := 1, ttl := ttl, data := .a [1, 2, 3, 4] }] }
private def t0 : Int := 1700000000000000000
private def secs (n : Int) : Int := n * 1000000000
private def answerTTL (s : Sys Nat) (q : Msg) (now : Int) : Option (List Nat) :=
  ((CacheM.lookup (s.env exEnv) s.cache q now).bind (·.2)).map fun r => r.1.answer.map (·.ttl)

private def hist1 : List (Ev Nat) := [.store (exQ "A.b.") (exA 200) t0, .store (exQ "c.") (exA 100) t0, .save, .start (exHash 9) {} 10 2]

/-- Saved and started again: served with what is left of its TTL. -/
example : ∃ s, run exEnv (first (exHash 3) {} 10) hist1 = some s ∧ answerTTL s (exQ "a.b.") (t0 + secs 50) = some [150] ∧ answerTTL s (exQ "c.") (t0 + secs 50) = some [50] ∧
    answerTTL s (exQ "c.") (t0 + secs 101) = none ∧ answerTTL s (exQ "d.") (t0 + secs 50) = none := by
  refine ⟨_, rfl, ?_, ?_, ?_, ?_⟩ <;> decide

private theorem exOk (q : Msg) (m : Msg) (t : Int) (hq : WellFormed exEnv.ipStr q) (ht : SaneTime t) : OkEv exEnv.ipStr (Ev.store q m t : Ev Nat) :=
  ⟨fun _ _ _ h => by cases h; exact ⟨hq, ht⟩, by simp, by simp, by simp⟩

example : ∀ e ∈ hist1, OkEv exEnv.ipStr e := by
  intro e he
  simp only [hist1, List.mem_cons, List.not_mem_nil, or_false] at he
  have hw : ∀ n, WellFormed exEnv.ipStr (exQ n) := fun n => ⟨by simp [exQ], by simp [exQ], by intro x hx; simp [subnet, exQ, Msg.edns?] at hx⟩
  rcases he with rfl | rfl | rfl | rfl
  · exact exOk _ _ _ (hw _) (by unfold SaneTime t0; omega)
  · exact exOk _ _ _ (hw _) (by unfold SaneTime t0; omega)
  · exact ⟨by simp, by simp, by simp, by simp⟩
  · refine ⟨by simp, by simp, by simp, ?_⟩
    intro h o c n he
    cases he
    decide

/-- Started with room for one response: the one used last is kept. -/
example : ∃ s, run exEnv (first (exHash 3) {} 10) (hist1 ++ [.start (exHash 1) {} 1 2]) = some s ∧ answerTTL s (exQ "a.b.") (t0 + secs 50) = none ∧
    answerTTL s (exQ "c.") (t0 + secs 50) = some [50] := by
  refine ⟨_, rfl, ?_, ?_⟩ <;> decide

/-- The new hash tells these two requests apart. -/
example : TellsApart exEnv (exHash 9) hist1 := by
  intro q m t q' m' t' h h' k k' hk hk' heq
  simp only [hist1, List.mem_cons, List.not_mem_nil, or_false, Ev.store.injEq, reduceCtorEq] at h h'
  rcases h with ⟨rfl, _, _⟩ | ⟨rfl, _, _⟩ <;> rcases h' with ⟨rfl, _, _⟩ | ⟨rfl, _, _⟩
  · exact Option.some.inj (hk.symm.trans hk')
  · exfalso
    have h1 : lruKeyFromQuery exEnv.ipStr (exQ "A.b.") = some { name := str "a.b.", qtype := 1, qclass := 1, net := [], dnssecOk := false, cd := false, ecsMask := 0 } := by decide
    have h2 : lruKeyFromQuery exEnv.ipStr (exQ "c.") = some { name := str "c.", qtype := 1, qclass := 1, net := [], dnssecOk := false, cd := false, ecsMask := 0 } := by decide
    rw [h1] at hk; rw [h2] at hk'
    cases hk; cases hk'
    revert heq; decide
  · exfalso
    have h1 : lruKeyFromQuery exEnv.ipStr (exQ "A.b.") = some { name := str "a.b.", qtype := 1, qclass := 1, net := [], dnssecOk := false, cd := false, ecsMask := 0 } := by decide
    have h2 : lruKeyFromQuery exEnv.ipStr (exQ "c.") = some { name := str "c.", qtype := 1, qclass := 1, net := [], dnssecOk := false, cd := false, ecsMask := 0 } := by decide
    rw [h2] at hk; rw [h1] at hk'
    cases hk; cases hk'
    revert heq; decide
  · exact Option.some.inj (hk.symm.trans hk')

/-- The justification of the theorem is not weaker than this: flushing the cache does not touch the file (cache-memory.go:121-125), so a flushed response is served again if the program
is killed and started again. -/
theorem flushed_comes_back : ∃ s, run exEnv (first (exHash 3) {} 10) [.store (exQ "c.") (exA 100) t0, .save, .flush, .start (exHash 9) {} 10 2] = some s ∧
    answerTTL s (exQ "c.") (t0 + secs 50) = some [50] := ⟨_, rfl, by decide⟩

/-- In the same way an older response can be served again although it had been replaced. -/
theorem replaced_comes_back : ∃ s, run exEnv (first (exHash 3) {} 10) [.store (exQ "c.") (exA 200) t0, .save, .store (exQ "c.") (exA 100) (t0 + secs 5), .start (exHash 9) {} 10 2] = some s ∧
    answerTTL s (exQ "c.") (t0 + secs 50) = some [150] := ⟨_, rfl, by decide⟩

end Examples

end Verif.Props.CacheLives
