/-
C01, C02, C06, C07, C08: the caching resolver over the in-memory backend.
-/
import Verif.Lemmas.Cache
import Verif.Props.Lru
import Verif.Lemmas.Str
set_option linter.unusedSectionVars false
namespace Verif.Props.Cache
open Verif Verif.CacheM Verif.Spec.Cache
variable {H : Type} [DecidableEq H]

/-- Everything that can happen to the store, in any order: each event is one locked region, so a list of events
is one interleaving of any number of concurrent queries, the garbage collector and flushes. A
`Lookup` is a `get` followed, at any later time, by possibly an `evict`. -/
inductive Ev where
  /-- `storeInCache` of an upstream response, from a query or a background refresh, at a time -/
  | store (q m : Msg) (now : Int)
  | get (q : Msg)
  | evict (q : Msg)
  | gc (now : Int)
  | flush
  /-- save to file, process restart, load from file -/
  | restart

def stepEv (env : Env H) (o : Opts) (c : State H) : Ev → Option (State H)
  | .store q m now => storeInCache env o c q m now
  | .get q => (lookupGet env c q).map (·.1)
  | .evict q => evict env c q
  | .gc now => gc c now
  | .flush => some (CacheM.flush c)
  | .restart => do loadFile env (Lru.new c.maxItems) (← saveFile c)

def runEv (env : Env H) (o : Opts) : State H → List Ev → Option (State H)
  | c, [] => some c
  | c, e :: es => do runEv env o (← stepEv env o c e) es

/-- The query has at least one question, and its numbers fit their Go types. -/
structure WellFormed (ipStr : Str → Str) (q : Msg) : Prop where
  question : q.question ≠ []
  types : ∀ a ∈ q.question, a.qtype < 65536 ∧ a.qclass < 65536
  subnet : ∀ x, subnet ipStr q = some x → x.2 < 256

/-- The clock reading is after 1970 and before the year 2126. -/
def SaneTime (t : Int) : Prop := 0 ≤ t ∧ t < 4928404741854775808

structure OkEv (ipStr : Str → Str) (e : Ev) : Prop where
  store : ∀ q m t, e = .store q m t → WellFormed ipStr q ∧ SaneTime t
  get : ∀ q, e = .get q → q.question ≠ []
  evict : ∀ q, e = .evict q → q.question ≠ []

/-- The event supersedes or removes whatever is stored for the request with key `k`. -/
private def Removes (env : Env H) (o : Opts) (k : LruKey) : Ev → Prop
  | .flush => True
  | .evict q => lruKeyFromQuery env.ipStr q = some k
  | .store q m t => lruKeyFromQuery env.ipStr q = some k ∧ lifetime o m t ≠ none ∧ env.encode m ≠ none
  | _ => False

/-- Where a record comes from: the latest store for its key. -/
private def Prov (env : Env H) (o : Opts) (hist : List Ev) (k : LruKey) (pf : Bool) (ts ex : Int) (w : Str) : Prop :=
  ∃ q m h1 h2, hist = h1 ++ Ev.store q m ts :: h2 ∧ (∀ e ∈ h2, ¬ Removes env o k e) ∧
    lruKeyFromQuery env.ipStr q = some k ∧ env.encode m = some w ∧ lifetime o m ts = some (ex, pf)

private theorem Prov.snoc {env : Env H} {o : Opts} {hist : List Ev} {k pf ts ex w} (e : Ev) (hr : ¬ Removes env o k e)
    (h : Prov env o hist k pf ts ex w) : Prov env o (hist ++ [e]) k pf ts ex w := by
  obtain ⟨q, m, h1, h2, rfl, h3, h4⟩ := h
  refine ⟨q, m, h1, h2 ++ [e], by simp, ?_, h4⟩
  intro x hx
  rcases List.mem_append.mp hx with hx | hx
  · exact h3 x hx
  · simp only [List.mem_singleton] at hx; subst hx; exact hr

private theorem minTTL_le (m : Msg) : (minTTL m).1 ≤ 4294967295 := by
  unfold minTTL
  have : ∀ (l : List RR) (acc : Nat × Bool), acc.1 ≤ 4294967295 →
      (l.foldl (fun acc a => if a.isOpt then acc else if a.ttl < acc.1 then (a.ttl, true) else acc) acc).1 ≤ 4294967295 := by
    intro l
    induction l with
    | nil => intro acc h; exact h
    | cons r l ih =>
      intro acc h
      simp only [List.foldl_cons]
      apply ih
      split
      · exact h
      · split
        · simp; omega
        · exact h
  exact this _ _ (by simp [maxUint32])

theorem lifetime_range {o : Opts} {m : Msg} {t ex : Int} {pf : Bool} (ho : o.negativeTTL ≤ 4294967295)
    (h : lifetime o m t = some (ex, pf)) : t ≤ ex ∧ ex ≤ t + 4294967295 * 1000000000 := by
  unfold lifetime at h
  have hm := minTTL_le m
  split at h
  · simp at h
  · rename_i e1 p1 h1
    have he1 : t ≤ e1 ∧ e1 ≤ t + 4294967295 * 1000000000 := by
      unfold baseLifetime at h1
      split at h1
      · split at h1
        · simp at h1; unfold second at h1; omega
        · simp at h1; unfold second at h1; omega
      · split at h1
        · split at h1
          · simp at h1; unfold second at h1; omega
          · simp at h1; unfold second at h1; omega
        · simp at h1
    split at h
    · simp at h; omega
    · rename_i lim _
      split at h
      · simp at h; unfold second at *; omega
      · simp at h; omega

theorem valid_key {env : Env H} {q : Msg} {k : LruKey} (hw : WellFormed env.ipStr q)
    (hk : lruKeyFromQuery env.ipStr q = some k) : k.Valid := by
  obtain ⟨qu, h1, -, h3, h4, -, -, h7⟩ := lruKey_form hk
  have hmem : qu ∈ q.question := List.mem_of_mem_head? h1
  obtain ⟨t1, t2⟩ := hw.types qu hmem
  refine ⟨by omega, by omega, ?_⟩
  cases hs : subnet env.ipStr q with
  | none => rw [hs] at h7; simp at h7; omega
  | some x => rw [hs] at h7; have := hw.subnet x hs; simp at h7; rw [← h7] at this; exact this

private theorem step_inv {env : Env H} {o : Opts} (ho : o.negativeTTL ≤ 4294967295) {hist : List Ev} {c : State H} {es}
    (h : Inv env (Prov env o hist) c es) (e : Ev) (hok : OkEv env.ipStr e) :
    ∃ c' es', stepEv env o c e = some c' ∧ c'.maxItems = c.maxItems ∧ Inv env (Prov env o (hist ++ [e])) c' es' := by
  have keep : (∀ k, ¬ Removes env o k e) → Inv env (Prov env o (hist ++ [e])) c es :=
    fun hr => h.mono (fun k pf ts ex w hp => hp.snoc e (hr k))
  cases e with
  | store q m t =>
    obtain ⟨hw, ht⟩ := hok.store q m t rfl
    obtain ⟨k, hk⟩ := lruKey_isSome (ipStr := env.ipStr) hw.question
    simp only [stepEv, storeInCache]
    cases hl : lifetime o m t with
    | none => exact ⟨c, es, rfl, rfl, keep (by intro k hr; exact hr.2.1 hl)⟩
    | some x =>
      obtain ⟨ex, pf⟩ := x
      obtain ⟨r1, r2⟩ := lifetime_range ho hl
      simp only [store, hk, Option.bind_eq_bind, Option.bind_some]
      cases he : env.encode m with
      | none => exact ⟨c, es, rfl, rfl, keep (by intro k hr; exact hr.2.2 he)⟩
      | some w =>
        simp only
        cases hb : Blob.newFromWire k pf t ex w with
        | none =>
          refine ⟨c, es, rfl, rfl, h.rep, h.cap, ?_⟩
          intro x hx
          obtain ⟨k', ⟨hv, pf', ts, ex', w', g1, g2, g3, g4⟩, hh⟩ := h.good x hx
          refine ⟨k', ⟨hv, pf', ts, ex', w', g1, g2, g3, g4.snoc _ ?_⟩, hh⟩
          intro hr
          have hkk : k = k' := Option.some.inj (hk.symm.trans hr.1)
          subst hkk
          have a1 := (Props.Blob.blob_encode_isSome k pf' ts ex' w').mp (by rw [g3]; rfl)
          have a2 := (Props.Blob.blob_encode_isSome k pf t ex w).mpr a1
          rw [hb] at a2; simp at a2
        | some b =>
          simp only
          unfold SaneTime at ht
          obtain ⟨c', h1, h2, h3⟩ := h.add (k := k) (b := b) (Q' := Prov env o (hist ++ [.store q m t]))
            (fun k' pf ts ex w hne hp => hp.snoc (.store q m t) (fun hr => hne (Option.some.inj (hr.1.symm.trans hk))))
            ⟨valid_key hw hk, pf, t, ex, w, ⟨by omega, by omega⟩,
            ⟨by omega, by omega⟩, hb, q, m, hist, [], rfl, by simp, hk, he, hl⟩
          exact ⟨c', _, h1, h2, h3⟩
  | get q =>
    obtain ⟨k, hk⟩ := lruKey_isSome (ipStr := env.ipStr) (hok.get q rfl)
    obtain ⟨c', es', h1, h2, h3, -⟩ := (keep (fun _ hr => hr)).get k
    exact ⟨c', es', by simp [stepEv, lookupGet, hk, h1], h2, h3⟩
  | evict q =>
    obtain ⟨k, hk⟩ := lruKey_isSome (ipStr := env.ipStr) (hok.evict q rfl)
    obtain ⟨c', h1, h2, h3⟩ := h.delete_strong (k := k) (Q' := Prov env o (hist ++ [.evict q]))
      (fun k' pf ts ex w hne hp => hp.snoc (.evict q) (fun hr => hne (Option.some.inj (Eq.trans (Eq.symm hr) hk))))
    exact ⟨c', _, by simp [stepEv, CacheM.evict, hk, h1], h2, h3⟩
  | gc now =>
    obtain ⟨c', es', h1, h2, h3, -⟩ := (keep (fun _ hr => hr)).gc now
    exact ⟨c', es', by simp [stepEv, h1], h2, h3⟩
  | flush =>
    have hf := h.flush
    exact ⟨_, [], rfl, rfl, hf.rep, hf.cap, by simp⟩
  | restart =>
    obtain ⟨recs, c', h1, h2, h3, h4⟩ := (keep (fun _ hr => hr)).saveLoad
    exact ⟨c', _, by simp [stepEv, h1, h2], h3, h4⟩

private theorem run_inv {env : Env H} {o : Opts} (ho : o.negativeTTL ≤ 4294967295) (evs : List Ev) :
    ∀ {hist : List Ev} {c : State H} {es}, Inv env (Prov env o hist) c es → (∀ e ∈ evs, OkEv env.ipStr e) →
    ∃ c' es', runEv env o c evs = some c' ∧ c'.maxItems = c.maxItems ∧ Inv env (Prov env o (hist ++ evs)) c' es' := by
  induction evs with
  | nil => intro hist c es h _; exact ⟨c, es, rfl, rfl, by simpa using h⟩
  | cons e evs ih =>
    intro hist c es h hok
    obtain ⟨c1, es1, h1, h2, h3⟩ := step_inv ho h e (hok e (by simp))
    obtain ⟨c2, es2, g1, g2, g3⟩ := ih h3 (fun x hx => hok x (by simp [hx]))
    refine ⟨c2, es2, by simp [runEv, h1, g1], by omega, by simpa using g3⟩

/-- No history of events makes the store crash. -/
theorem cache_never_panics (env : Env H) (o : Opts) (ho : o.negativeTTL ≤ 4294967295) (cap : Int) (hist : List Ev)
    (hok : ∀ e ∈ hist, OkEv env.ipStr e) : ∃ c, runEv env o (Lru.new cap) hist = some c := by
  obtain ⟨c, es, h, -⟩ := run_inv ho hist (hist := []) (new_inv env _ cap) hok
  exact ⟨c, h⟩

private theorem found_prov {env : Env H} {o : Opts} {hist : List Ev} {c : State H} {es}
    (h : Inv env (Prov env o hist) c es) {k : LruKey} {b : Str} (hf : found env es k = some b) :
    Good (Prov env o hist) k b := by
  rw [found_iff h.nodup] at hf
  obtain ⟨k', hg, -⟩ := h.good _ hf.1
  have := (good_matches hg).mp hf.2
  subst this; exact hg

/-- The event supersedes or removes whatever was stored before for request `q`. -/
def Supersedes (env : Env H) (o : Opts) (q : Msg) (e : Ev) : Prop :=
  e = .flush ∨ (∃ q', e = .evict q' ∧ SameRequest env.ipStr q' q) ∨
  (∃ q' m t, e = .store q' m t ∧ SameRequest env.ipStr q' q ∧ lifetime o m t ≠ none ∧ env.encode m ≠ none)

/-- What it means for `a` to be an answer for `q` at time `now` justified by the history: an earlier store of a
response for the same request, not superseded since, still within its lifetime, aged exactly. -/
def Justified (env : Env H) (o : Opts) (hist : List Ev) (q : Msg) (now : Int) (a : Msg) : Prop :=
  ∃ q0 m t m' expiry pf before after,
    hist = before ++ Ev.store q0 m t :: after ∧ (∀ e ∈ after, ¬ Supersedes env o q e) ∧
    SameRequest env.ipStr q0 q ∧
    lifetime o m t = some (expiry, pf) ∧ now ≤ expiry ∧
    (∃ w, env.encode m = some w ∧ env.decode w = some m') ∧
    AgedCopy (wholeSeconds t now) q m' a

/-- `m`, received at time `t`, is the response stored last for the request of `q` (and not removed since). -/
def StoredLast (env : Env H) (o : Opts) (hist : List Ev) (q m : Msg) (t : Int) : Prop :=
  ∃ q0 before after, hist = before ++ Ev.store q0 m t :: after ∧ (∀ e ∈ after, ¬ Supersedes env o q e) ∧
    SameRequest env.ipStr q0 q ∧ lifetime o m t ≠ none ∧ env.encode m ≠ none

private theorem SameRequest.symm' {ipStr : Str → Str} {q q' : Msg} (h : SameRequest ipStr q q') : SameRequest ipStr q' q := by
  obtain ⟨⟨a, b, h1, h2, h3, h4, h5⟩, h6, h7, h8⟩ := h
  exact ⟨⟨b, a, h2, h1, h3.symm, h4.symm, h5.symm⟩, h6.symm, h7.symm, h8.symm⟩

private theorem peek_by {env : Env H} (hip : ∀ a, env.ipStr a ≠ []) {o : Opts} (ho : o.negativeTTL ≤ 4294967295)
    {hist : List Ev} {c : State H} {es} (h : Inv env (Prov env o hist) c es) {q : Msg} {now : Int} {a : Msg} {pf : Bool}
    (hp : peek env es q now = some (a, pf)) : ∃ q0 m t m' expiry before after,
      hist = before ++ Ev.store q0 m t :: after ∧ (∀ e ∈ after, ¬ Supersedes env o q e) ∧
      SameRequest env.ipStr q0 q ∧
      lifetime o m t = some (expiry, pf) ∧ now ≤ expiry ∧
      (∃ w, env.encode m = some w ∧ env.decode w = some m') ∧
      AgedCopy (wholeSeconds t now) q m' a := by
  unfold peek at hp
  obtain ⟨k, hk, hp⟩ := Option.bind_eq_some_iff.mp hp
  obtain ⟨b, hb, hp⟩ := Option.bind_eq_some_iff.mp hp
  obtain ⟨hv, pf', ts, ex, w, h1, h2, hn, q0, m, g1, g2, hm, hrem, hk0, he, hl⟩ := found_prov h hb
  rw [serve_good hv h1 h2 hn] at hp
  simp only [Option.join_some] at hp
  unfold yield at hp
  split at hp
  · simp at hp
  · rename_i hnow
    split at hp
    · simp at hp
    · rename_i m' hd
      obtain ⟨a', ha, hx⟩ := Option.map_eq_some_iff.mp hp
      obtain ⟨rfl, rfl⟩ := Prod.mk.inj hx
      obtain ⟨r1, r2⟩ := lifetime_range ho hl
      rw [cacheAge_eq (by omega)] at ha
      refine ⟨q0, m, ts, m', ex, g1, g2, hm, ?_, lruKey_same hip hk0 hk, hl, by omega, ⟨w, he, hd⟩, ageCachedAnswer_some ha⟩
      intro e he' hs
      apply hrem e he'
      rcases hs with rfl | ⟨q', rfl, hs⟩ | ⟨q', m2, t2, rfl, hs, hx⟩
      · trivial
      · exact lruKey_of_same hk (SameRequest.symm' hs)
      · exact ⟨lruKey_of_same hk (SameRequest.symm' hs), hx⟩

private theorem peek_justified {env : Env H} (hip : ∀ a, env.ipStr a ≠ []) {o : Opts} (ho : o.negativeTTL ≤ 4294967295)
    {hist : List Ev} {c : State H} {es} (h : Inv env (Prov env o hist) c es) {q : Msg} {now : Int} {a : Msg} {pf : Bool}
    (hp : peek env es q now = some (a, pf)) : Justified env o hist q now a := by
  obtain ⟨q0, m, t, m', expiry, g1, g2, h1, h2, h3, h4, h5⟩ := peek_by hip ho h hp
  exact ⟨q0, m, t, m', expiry, pf, g1, g2, h1, h2, h3, h4, h5⟩

/-- **C01.** After any history (any interleaving, any clock readings after the store, restarts included), whatever
`Lookup` serves at time `now` is justified: it is the latest response stored under the same request, `now` is not after the
expiry set at that time, and every record has its TTL lowered by exactly the whole seconds elapsed,
with at least one second left. The lookup itself never crashes. -/
theorem cache_never_stale (env : Env H) (hip : ∀ a, env.ipStr a ≠ []) (o : Opts) (ho : o.negativeTTL ≤ 4294967295)
    (cap : Int) (hist : List Ev) (hok : ∀ e ∈ hist, OkEv env.ipStr e) (c : State H)
    (hrun : runEv env o (Lru.new cap) hist = some c) (q : Msg) (hq : q.question ≠ []) (now : Int) :
    ∃ c' r, lookup env c q now = some (c', r) ∧ ∀ a pf, r = some (a, pf) → Justified env o hist q now a := by
  obtain ⟨c1, es, h, -, hi⟩ := run_inv ho hist (hist := []) (new_inv env _ cap) hok
  rw [hrun] at h
  obtain rfl := Option.some.inj h
  obtain ⟨k, hk⟩ := lruKey_isSome (ipStr := env.ipStr) hq
  obtain ⟨c', es', h1, -, -⟩ := hi.lookup hk now
  refine ⟨c', _, h1, ?_⟩
  intro a pf hp
  exact peek_justified hip ho hi hp

/-! ### C02 at the level of stored records -/
open Verif.Spec.Lru (Op Ideal) in
/-- **C02.** With the real record encoding and any hash, a read returns nothing or the record last
added under a key identical in every field. -/
theorem cache_hit_is_last_stored (hash : LruKey → H) (cap : Int) (ops : List (Op H LruKey Str))
    (hops : ∀ k b, Op.add k b ∈ ops → k.Valid ∧ ∃ pf ts ex w, Blob.newFromWire k pf ts ex w = some b)
    (c : State H) (outs : List (Option Str))
    (hrun : Lru.runC hash matchKey (Verif.Lru.new cap) ops = some (c, outs)) (k : LruKey) :
    ∃ c' r, Verif.Lru.get hash matchKey c k = some (c', r) ∧ (r = none ∨ r = Ideal.run hash (fun _ => none) ops k) := by
  have hm : ∀ k b, Op.add k b ∈ ops → Lru.MatchesOnly matchKey b k := by
    intro k b hkb k'
    obtain ⟨hv, pf, ts, ex, w, hn⟩ := hops k b hkb
    unfold matchKey
    rw [Props.Blob.blob_matches_iff hv hn]; simp
  obtain ⟨c', r, h1, h2⟩ := Lru.lru_get_never_crosses_keys hash matchKey cap ops hm c outs hrun k
  exact ⟨c', r, h1, h2.imp id (·.1)⟩

/-! ### C06: save and load -/

/-- A record that cannot be used is skipped and does not affect the others. -/
theorem load_skips_bad (env : Env H) (c : State H) (l1 l2 : List FileRec) (bad : FileRec)
    (hbad : toCacheBlob env.decode bad = none) : loadFile env c (l1 ++ bad :: l2) = loadFile env c (l1 ++ l2) := by
  induction l1 generalizing c with
  | nil => simp [loadFile, hbad]
  | cons r l1 ih =>
    simp only [List.cons_append, loadFile]
    cases toCacheBlob env.decode r with
    | none => exact ih c
    | some b =>
      simp only [Option.bind_eq_bind]
      cases Verif.Lru.addKey env.hash matchKey c r.key b with
      | none => rfl
      | some c1 => exact ih c1

open Verif.Spec.Lru (Op) in
/-- **C06.** Save any reachable cache and load it into an empty cache of the same capacity: nothing crashes, and
the loaded cache cannot be told apart from the original by any further sequence of operations (same entries, same
order of eviction). `hcodec`: what `Pack` produces is not empty and `Unpack` accepts it. -/
theorem cache_file_roundtrip (env : Env H) (o : Opts) (ho : o.negativeTTL ≤ 4294967295)
    (hcodec : ∀ m w, env.encode m = some w → w ≠ [] ∧ ∃ m', env.decode w = some m')
    (cap : Int) (hist : List Ev) (hok : ∀ e ∈ hist, OkEv env.ipStr e)
    (hname : ∀ q m t, Ev.store q m t ∈ hist → ∀ a ∈ q.question, a.name ≠ [])
    (c : State H) (hrun : runEv env o (Verif.Lru.new cap) hist = some c) :
    ∃ recs c', saveFile c = some recs ∧ loadFile env (Verif.Lru.new cap) recs = some c' ∧ saveFile c' = some recs ∧
      ∀ ops : List (Op H LruKey Str), ∃ c1 c1' outs, Lru.runC env.hash matchKey c ops = some (c1, outs) ∧
        Lru.runC env.hash matchKey c' ops = some (c1', outs) := by
  obtain ⟨c0, es, h, hmx, hi⟩ := run_inv ho hist (hist := []) (new_inv env _ cap) hok
  rw [hrun] at h
  obtain rfl := Option.some.inj h
  obtain ⟨recs, c', h1, h2, h3, h4⟩ := hi.saveLoad
  have hus : es.filter (fun e => usable env e.2) = es := by
    rw [List.filter_eq_self]
    intro e he
    obtain ⟨k, ⟨hv, pf, ts, ex, w, b1, b2, hn, q, m, g1, g2, hq, -, hk, henc, -⟩, -⟩ := hi.good e he
    obtain ⟨r1, r2, r3, r4, r5⟩ := Props.Blob.blob_roundtrip hv b1 b2 hn
    obtain ⟨hw, m', hd⟩ := hcodec m w henc
    obtain ⟨qu, f1, f2, -⟩ := lruKey_form hk
    have hne : k.name ≠ [] := by
      rw [f2]
      have := hname q m ts (by rw [List.nil_append] at hq; rw [hq]; simp) qu (List.mem_of_mem_head? f1)
      intro h0; apply this
      unfold lower at h0; simpa using h0
    simp [usable, toRecord, r1, r2, r3, r4, r5, toCacheBlob, hne, hw, hd, hn]
  rw [hus] at h4
  have hmx' : c.maxItems = cap := hmx
  rw [hmx'] at h2 h3
  obtain ⟨refs, hr⟩ := hi.rep
  obtain ⟨refs', hr'⟩ := h4.rep
  refine ⟨recs, c', h1, h2, ?_, ?_⟩
  · rw [← h1]
    simp only [saveFile, hr.serialize_ok, hr'.serialize_ok]
  · intro ops
    obtain ⟨c1, _, e1, -⟩ := Lru.run_ok env.hash matchKey ops hr hi.cap
    obtain ⟨c1', _, e1', -⟩ := Lru.run_ok env.hash matchKey ops hr' h4.cap
    rw [hmx'] at e1
    rw [h3] at e1'
    exact ⟨c1, c1', _, e1, e1'⟩

/-! ### C07: lifetime policy -/
private theorem minTTL_eq (m : Msg) : minTTL m = match lowestTTL m with
    | some x => if x < maxUint32 then (x, true) else (maxUint32, false)
    | none => (maxUint32, false) := by
  unfold minTTL lowestTTL
  generalize m.records = l
  have key : ∀ (l : List RR) (acc : Nat × Bool),
      l.foldl (fun acc a => if a.isOpt then acc else if a.ttl < acc.1 then (a.ttl, true) else acc) acc =
      match ((l.filter (fun r => ! r.isOpt)).map (·.ttl)).min? with
      | some x => if x < acc.1 then (x, true) else acc
      | none => acc := by
    intro l
    induction l with
    | nil => intro acc; rfl
    | cons r l ih =>
      intro acc
      simp only [List.foldl_cons]
      rw [ih]
      cases hr : r.isOpt with
      | true => simp [hr]
      | false =>
        simp only [hr, Bool.false_eq_true, if_false, List.filter_cons, Bool.not_false, if_true, List.map_cons]
        cases hm : ((l.filter (fun r => ! r.isOpt)).map (·.ttl)).min? with
        | none =>
          have : (l.filter (fun r => ! r.isOpt)).map (·.ttl) = [] := by simpa [List.min?_eq_none_iff] using hm
          rw [this]
          simp
        | some x =>
          have hmc : (r.ttl :: (l.filter (fun r => ! r.isOpt)).map (·.ttl)).min? = some (min r.ttl x) := by
            rw [List.min?_cons, hm]; rfl
          rw [hmc]
          simp only
          by_cases h1 : r.ttl < acc.1
          · rw [if_pos h1]
            by_cases h2 : x < r.ttl
            · rw [if_pos h2, Nat.min_eq_right (by omega), if_pos (by omega)]
            · rw [if_neg h2, Nat.min_eq_left (by omega), if_pos h1]
          · rw [if_neg h1]
            by_cases h2 : x < acc.1
            · rw [if_pos h2, Nat.min_eq_right (by omega), if_pos h2]
            · rw [if_neg h2, if_neg (by omega)]
  exact key l _

private theorem lim_split {e l : Int} {pf : Bool} :
    Option.map (fun x : Int × Bool => x.fst) (if e > l then some (l, pf) else some (e, pf)) =
      some (if e > l then l else e) := by split <;> rfl

/-- **C07 (lifetime).** A response is storable iff its code is one of NOERROR, FORMERR, SERVFAIL, NXDOMAIN, NOTIMP, REFUSED,
and then the expiry is exactly `keepFor` seconds ahead. (For a response all of whose TTLs are the maximum of
4294967295 the code uses the negative TTL instead, see `lifetime_max_ttl`.) -/
theorem cache_lifetime (o : Opts) (m : Msg) (now : Int) (hmax : lowestTTL m ≠ some 4294967295)
    (hle : ∀ r ∈ m.records, r.ttl ≤ 4294967295) :
    (lifetime o m now).map (·.1) =
      if cacheable m.rcode = true then some (now + keepFor o.negativeTTL o.rcodeMaxTTL m * 1000000000) else none := by
  have hmin := minTTL_eq m
  have hlow : ∀ x, lowestTTL m = some x → x < 4294967295 := by
    intro x hx
    have hm := List.min?_mem hx
    obtain ⟨r, hr, rfl⟩ := List.mem_map.mp hm
    have := hle r (List.mem_filter.mp hr).1
    have : r.ttl ≠ 4294967295 := by intro h0; rw [h0] at hx; exact hmax hx
    omega
  have hc : cacheable m.rcode = true ↔ (m.rcode = 0 ∨ m.rcode = 1 ∨ m.rcode = 2 ∨ m.rcode = 3 ∨ m.rcode = 4 ∨ m.rcode = 5) := by
    simp [cacheable]
  by_cases hs : m.rcode = 2
  · have : cacheable m.rcode = true := hc.mpr (by omega)
    rw [if_pos this]
    unfold lifetime baseLifetime keepFor
    simp only [hs, rcodeSuccess, rcodeNameError, rcodeRefused, rcodeNotImplemented, rcodeFormatError, rcodeServerFailure]
    simp only [second, if_true, Nat.reduceEqDiff, or_self, if_false]
    by_cases hn : o.negativeTTL < 300
    · simp only [if_pos hn]
      cases o.rcodeMaxTTL 2 with
      | none => simp; omega
      | some l => simp only [lim_split]; congr 1; split <;> omega
    · simp only [if_neg hn]
      cases o.rcodeMaxTTL 2 with
      | none => simp; omega
      | some l => simp only [lim_split]; congr 1; split <;> omega
  · by_cases hok : m.rcode = 0 ∨ m.rcode = 3 ∨ m.rcode = 5 ∨ m.rcode = 4 ∨ m.rcode = 1
    · have : cacheable m.rcode = true := hc.mpr (by omega)
      rw [if_pos this]
      have hb : (baseLifetime o m now).map (·.1) = some (now + ((lowestTTL m).getD o.negativeTTL : Nat) * 1000000000) := by
        unfold baseLifetime
        rw [if_pos (show m.rcode = rcodeSuccess ∨ m.rcode = rcodeNameError ∨ m.rcode = rcodeRefused ∨
          m.rcode = rcodeNotImplemented ∨ m.rcode = rcodeFormatError from hok), hmin]
        cases hl : lowestTTL m with
        | none => simp [second]
        | some x => have := hlow x hl; simp [second, maxUint32, this]
      unfold lifetime keepFor
      cases hbl : baseLifetime o m now with
      | none => rw [hbl] at hb; simp at hb
      | some x =>
        obtain ⟨e, pf⟩ := x
        rw [hbl] at hb
        simp only [Option.map_some, Option.some.injEq] at hb
        simp only [if_neg hs, second]
        cases o.rcodeMaxTTL m.rcode with
        | none => simp [hb]
        | some l => simp only [lim_split]; congr 1; split <;> omega
    · have : ¬ cacheable m.rcode = true := by rw [hc]; omega
      rw [if_neg this]
      unfold lifetime baseLifetime
      rw [if_neg (show ¬ (m.rcode = rcodeSuccess ∨ m.rcode = rcodeNameError ∨ m.rcode = rcodeRefused ∨
          m.rcode = rcodeNotImplemented ∨ m.rcode = rcodeFormatError) from hok),
        if_neg (by simpa [rcodeServerFailure] using hs)]; rfl

/-- **C07 (upper bound, no exception).** The expiry is never later than `keepFor` seconds ahead, or the negative
TTL if all TTLs are the maximum. -/
theorem cache_lifetime_servfail (o : Opts) (m : Msg) (now ex : Int) (pf : Bool) (hs : m.rcode = 2)
    (h : lifetime o m now = some (ex, pf)) : ex ≤ now + 300 * 1000000000 := by
  unfold lifetime baseLifetime at h
  simp only [hs, rcodeSuccess, rcodeNameError, rcodeRefused, rcodeNotImplemented, rcodeFormatError, rcodeServerFailure] at h
  simp only [second, if_true, Nat.reduceEqDiff, or_self, if_false] at h
  by_cases hn : o.negativeTTL < 300
  · simp only [if_pos hn] at h
    cases hr : o.rcodeMaxTTL 2 with
    | none => rw [hr] at h; simp at h; omega
    | some l => rw [hr] at h; simp only at h; split at h <;> simp at h <;> omega
  · simp only [if_neg hn] at h
    cases hr : o.rcodeMaxTTL 2 with
    | none => rw [hr] at h; simp at h; omega
    | some l => rw [hr] at h; simp only at h; split at h <;> simp at h <;> omega

/-- A configured per-code limit is never exceeded. -/
theorem cache_lifetime_limit (o : Opts) (m : Msg) (now ex : Int) (pf : Bool) (l : Nat)
    (hl : o.rcodeMaxTTL m.rcode = some l) (h : lifetime o m now = some (ex, pf)) : ex ≤ now + l * 1000000000 := by
  unfold lifetime at h
  rw [hl] at h
  split at h
  · simp at h
  · simp only [second] at h
    split at h <;> simp at h <;> omega

/-- The default for an unset negative TTL. -/
theorem negative_ttl_default (o : Opts) : (newOpts o).negativeTTL = if o.negativeTTL = 0 then 60 else o.negativeTTL := by
  unfold newOpts; split <;> simp_all

/-- **C07 (admission).** Besides flushing and the effects of looking up, `Resolve` changes the stored data only by
storing a complete (not truncated) error-free upstream response with a cacheable code. -/
theorem cache_admission (env : Env H) (o : Opts) (c : State H) (q : Msg) (up : Res) (clock : Nat → Int) (t : Int)
    (out : Outcome H) (h : resolve env o c q up clock t = some out) :
    out.state = c ∨ out.state = CacheM.flush c ∨ (∃ r, answerFromCache env o c q clock = some (out.state, r)) ∨
    (∃ a c1 ex pf, up = Res.ok a ∧ a.tc = false ∧ cacheable a.rcode = true ∧
      answerFromCache env o c q clock = some (c1, none) ∧ lifetime o a t = some (ex, pf) ∧
      store env c1 q a t ex pf = some out.state ∧ out.res = Res.ok a) := by
  unfold resolve at h
  split at h
  · simp at h; subst h; exact Or.inl rfl
  · simp only [Option.bind_eq_bind, Option.bind_eq_some_iff] at h
    obtain ⟨qu, -, h⟩ := h
    split at h
    · simp at h; subst h; exact Or.inr (Or.inl rfl)
    · obtain ⟨⟨c1, r⟩, h1, h⟩ := Option.bind_eq_some_iff.mp h
      cases r with
      | some r =>
        obtain ⟨a, pf⟩ := r
        simp at h; subst h; exact Or.inr (Or.inr (Or.inl ⟨_, h1⟩))
      | none =>
        simp only at h
        split at h
        · rename_i a _
          split at h
          · simp at h; subst h; exact Or.inr (Or.inr (Or.inl ⟨_, h1⟩))
          · rename_i htc
            obtain ⟨c2, h2, h⟩ := Option.bind_eq_some_iff.mp h
            simp at h; subst h
            unfold storeInCache at h2
            split at h2
            · simp at h2; subst h2; exact Or.inr (Or.inr (Or.inl ⟨_, h1⟩))
            · rename_i ex pf hl
              refine Or.inr (Or.inr (Or.inr ⟨a, c1, ex, pf, rfl, by simpa using htc, ?_, h1, hl, h2, rfl⟩))
              unfold lifetime at hl
              split at hl
              · simp at hl
              · rename_i hb
                unfold baseLifetime at hb
                simp only [cacheable]
                simp only [rcodeSuccess, rcodeNameError, rcodeRefused, rcodeNotImplemented, rcodeFormatError, rcodeServerFailure] at hb
                split at hb
                · rename_i hr; rcases hr with hr | hr | hr | hr | hr <;> simp [hr]
                · split at hb
                  · rename_i hr; simp [hr]
                  · simp at hb
        · simp at h; subst h; exact Or.inr (Or.inr (Or.inl ⟨_, h1⟩))

/-- The exception in `cache_lifetime` is real: a lone record with the maximal TTL is kept for the negative TTL only. -/
theorem lifetime_max_ttl : ∃ (o : Opts) (m : Msg), lowestTTL m = some 4294967295 ∧
    (lifetime o m 0).map (·.1) = some (60 * 1000000000) :=
  ⟨{}, { answer := [{ name := [], rtype := 1, cls := 1, ttl := 4294967295, data := .a [1, 2, 3, 4] }] }, by decide, by decide⟩

/-! ### C08: hardening below NXDOMAIN -/

private theorem joinWith_length (a : Str) (b : Str) (l : List Str) :
    (joinWith dot (b :: l)).length < (joinWith dot (a :: b :: l)).length := by
  simp [joinWith]; omega

private theorem lower_length (s : Str) : (lower s).length = s.length := by simp [lower]

/-- The first live entry for the names, nearest first; the i-th is looked up at time `clock i`. -/
private def firstLive (env : Env H) (es : List (H × Str)) (q : Msg) (clock : Nat → Int) : List Str → Nat → Option (Msg × Bool)
  | [], _ => none
  | n :: ns, i => match peek env es (withName q n) (clock i) with
    | some r => some r
    | none => firstLive env es q clock ns (i + 1)

/-- The names `hardenLoop` goes through. -/
private def tails : List Str → List Str
  | a :: b :: rest => joinWith dot (a :: b :: rest) :: tails (b :: rest)
  | _ => []

private theorem tails_eq (l : List Str) : tails l = (List.range' 0 (l.length - 1)).map fun i => joinWith dot (l.drop i) := by
  induction l with
  | nil => rfl
  | cons a l ih =>
    cases l with
    | nil => rfl
    | cons b rest =>
      simp only [tails, ih, List.length_cons, Nat.add_sub_cancel, List.range'_succ, List.map_cons, List.drop_zero]
      congr 1
      apply List.ext_getElem
      · simp
      · intro i h1 h2
        simp [List.getElem_range', Nat.add_comm]

private theorem higherNames_eq (n : Str) : higherNames n = tails ((splitOn dot n).drop 1) := by
  rw [tails_eq]
  unfold higherNames
  cases splitOn dot n with
  | nil => rfl
  | cons a l =>
    simp only [List.length_cons, List.drop_succ_cons, List.drop_zero, Nat.reduceSubDiff]
    apply List.ext_getElem
    · simp
    · intro i h1 h2
      simp [List.getElem_range', Nat.add_comm]

private theorem hardenLoop_ok {env : Env H} {Q} {es : List (H × Str)} (q : Msg) (hq : q.question ≠ []) (clock : Nat → Int)
    (frags : List Str) : ∀ {c : State H} {es' : List (H × Str)} (i : Nat), Inv env Q c es' →
    (2 ≤ frags.length → ∀ k : LruKey, k.name.length ≤ (joinWith dot frags).length → found env es' k = found env es k) →
    ∃ c' es'', hardenLoop env q clock c frags i = some (c', match firstLive env es q clock (tails frags) i with
      | some (m, _) => decide (m.rcode = rcodeNameError)
      | none => false) ∧ c'.maxItems = c.maxItems ∧ Inv env Q c' es'' := by
  induction frags with
  | nil => intro c es' i h _; exact ⟨c, es', rfl, rfl, h⟩
  | cons a l ih =>
    intro c es' i h hf
    cases l with
    | nil => exact ⟨c, es', rfl, rfl, h⟩
    | cons b rest =>
      obtain ⟨qu, qs, hqq⟩ := List.exists_cons_of_ne_nil hq
      have hw : ({ q with question := { qu with name := joinWith dot (a :: b :: rest) } :: q.question.tail } : Msg) =
          withName q (joinWith dot (a :: b :: rest)) := by simp [withName, hqq]
      obtain ⟨k, hk⟩ := lruKey_isSome (ipStr := env.ipStr) (q := withName q (joinWith dot (a :: b :: rest)))
        (by simp [withName, hqq])
      obtain ⟨c1, es1, h1, hm, hi, hkeep⟩ := h.lookup hk (clock i)
      obtain ⟨qu', e1, e2, -⟩ := lruKey_form hk
      have hkn : k.name.length = (joinWith dot (a :: b :: rest)).length := by
        rw [e2, lower_length]
        simp [withName, hqq] at e1; rw [← e1]
      have hpk : peek env es' (withName q (joinWith dot (a :: b :: rest))) (clock i) =
          peek env es (withName q (joinWith dot (a :: b :: rest))) (clock i) := by
        unfold peek; rw [hk]; simp only [Option.bind_some]; rw [hf (by simp) k (by omega)]
      simp only [hardenLoop, hqq, List.head?_cons, Option.bind_eq_bind, Option.bind_some]
      rw [hqq] at hw
      rw [hw, h1, hpk]
      simp only [Option.bind_some, tails, firstLive]
      cases hp : peek env es (withName q (joinWith dot (a :: b :: rest))) (clock i) with
      | some r => exact ⟨c1, es1, rfl, hm, hi⟩
      | none =>
        have hlen := joinWith_length a b rest
        obtain ⟨c2, es2, g1, g2, g3⟩ := ih (i + 1) hi (fun _ k' hk' => by
          rw [hkeep k' (by rintro rfl; omega)]; exact hf (by simp) k' (by omega))
        exact ⟨c2, es2, g1, by omega, g3⟩

private theorem answerFromCache_ok {env : Env H} {Q} {c : State H} {es} (h : Inv env Q c es) (o : Opts) (q : Msg) {qu : Question}
    (hqu : q.question.head? = some qu) (clock : Nat → Int) :
    ∃ c' es', answerFromCache env o c q clock = some (c',
      match peek env es q (clock 0) with
      | some (a, pf) => some ((match o.shuffle with | some f => f a | none => a), pf)
      | none =>
        if o.harden = true then
          match firstLive env es q clock (higherNames qu.name) 1 with
          | some (m, _) => if m.rcode = rcodeNameError then some (nxdomain q, false) else none
          | none => none
        else none) ∧ c'.maxItems = c.maxItems ∧ Inv env Q c' es' := by
  have hq : q.question ≠ [] := by intro h0; rw [h0] at hqu; simp at hqu
  obtain ⟨k, hk⟩ := lruKey_isSome (ipStr := env.ipStr) hq
  obtain ⟨c1, es1, h1, hm, hi, hkeep⟩ := h.lookup hk (clock 0)
  unfold answerFromCache
  simp only [h1, Option.bind_eq_bind, Option.bind_some]
  cases hp : peek env es q (clock 0) with
  | some r => exact ⟨c1, es1, rfl, hm, hi⟩
  | none =>
    simp only
    cases ho : o.harden with
    | false => exact ⟨c1, es1, rfl, hm, hi⟩
    | true =>
      obtain ⟨qu', e1, e2, -⟩ := lruKey_form hk
      rw [hqu] at e1; obtain rfl := Option.some.inj e1
      obtain ⟨c2, es2, g1, g2, g3⟩ := hardenLoop_ok (es := es) q hq clock ((splitOn dot qu.name).drop 1) 1 hi (by
        intro hlen k' hk'
        cases hs : splitOn dot qu.name with
        | nil => exact absurd hs (splitOn_ne_nil _)
        | cons a l =>
          rw [hs] at hk' hlen
          simp only [List.drop_succ_cons, List.drop_zero] at hk' hlen
          have hjoin : joinWith dot (splitOn dot qu.name) = qu.name := joinWith_splitOn _
          cases l with
          | nil => simp at hlen
          | cons b rest =>
            have := joinWith_length a b rest
            rw [hs] at hjoin
            apply hkeep
            rintro rfl
            rw [e2, lower_length, ← hjoin] at hk'
            omega)
      rw [higherNames_eq]
      refine ⟨c2, es2, ?_, by omega, g3⟩
      simp only [if_true, hqu, Option.bind_some, g1]
      cases firstLive env es q clock (tails (List.drop 1 (splitOn dot qu.name))) 1 with
      | none => rfl
      | some r =>
        simp only
        by_cases hr : r.1.rcode = rcodeNameError
        · simp [hr]
        · simp [hr]

/-- What a lookup for `q` on its own would return. -/
def hit (env : Env H) (c : State H) (q : Msg) (now : Int) : Option Msg :=
  ((CacheM.lookup env c q now).bind (·.2)).map (·.1)

/-- The answer held for the nearest of the names above that has one; the i-th name is looked up at `clock i`. -/
def nearestHit (env : Env H) (c : State H) (q : Msg) (clock : Nat → Int) (name : Str) : Option Msg :=
  ((higherNames name).zipIdx 1).findSome? fun (n, i) => hit env c (withName q n) (clock i)

/-- Every higher name is what is left after some dot of the name, and still has a dot (so it is not the root). -/
theorem higherNames_spec (name n : Str) (h : n ∈ higherNames name) : (∃ p, name = p ++ dot :: n) ∧ dot ∈ n := by
  rw [higherNames_eq] at h
  have key : ∀ l, n ∈ tails l → (∃ l1, joinWith dot l = n ∨ joinWith dot l = l1 ++ dot :: n) ∧ dot ∈ n := by
    intro l
    induction l with
    | nil => intro h; simp [tails] at h
    | cons a l ih =>
      cases l with
      | nil => intro h; simp [tails] at h
      | cons b rest =>
        intro h
        simp only [tails, List.mem_cons] at h
        rcases h with rfl | h
        · exact ⟨⟨[], Or.inl rfl⟩, by simp [joinWith]⟩
        · obtain ⟨⟨l1, h1 | h1⟩, h2⟩ := ih h
          · exact ⟨⟨a, Or.inr (by rw [joinWith_cons _ (by simp), h1])⟩, h2⟩
          · exact ⟨⟨a ++ dot :: l1, Or.inr (by rw [joinWith_cons _ (by simp), h1]; simp)⟩, h2⟩
  obtain ⟨⟨l1, h1⟩, h2⟩ := key _ h
  refine ⟨?_, h2⟩
  have hj := joinWith_splitOn (sep := dot) name
  cases hs : splitOn dot name with
  | nil => exact absurd hs (splitOn_ne_nil _)
  | cons a l =>
    rw [hs] at hj h1
    simp only [List.drop_succ_cons, List.drop_zero] at h1
    cases l with
    | nil => rw [hs] at h; simp [tails] at h
    | cons b rest =>
      rw [joinWith_cons _ (by simp)] at hj
      rcases h1 with h1 | h1
      · exact ⟨a, by rw [← hj, h1]⟩
      · exact ⟨a ++ dot :: l1, by rw [← hj, h1]; simp⟩

private theorem hit_eq {env : Env H} {Q} {c : State H} {es} (h : CacheM.Inv env Q c es) {q : Msg} (hq : q.question ≠ []) (now : Int) :
    hit env c q now = (peek env es q now).map (·.1) := by
  obtain ⟨k, hk⟩ := lruKey_isSome (ipStr := env.ipStr) hq
  obtain ⟨c', es', h1, -⟩ := h.lookup hk now
  simp [hit, h1]

private theorem nearest_eq {env : Env H} {Q} {c : State H} {es} (h : CacheM.Inv env Q c es) {q : Msg} (hq : q.question ≠ [])
    (clock : Nat → Int) (l : List Str) (i : Nat) :
    (l.zipIdx i).findSome? (fun (n, i) => hit env c (withName q n) (clock i)) = (firstLive env es q clock l i).map (·.1) := by
  induction l generalizing i with
  | nil => rfl
  | cons n l ih =>
    have hq' : (withName q n).question ≠ [] := by
      obtain ⟨qu, qs, hqq⟩ := List.exists_cons_of_ne_nil hq
      simp [withName, hqq]
    rw [List.zipIdx_cons, List.findSome?_cons]
    simp only [firstLive, hit_eq h hq']
    cases peek env es (withName q n) (clock i) with
    | some r => rfl
    | none => simp only [Option.map_none]; exact ih (i + 1)

/-- **C08.** In every reachable cache, the cache answers a query from its store exactly as follows: with the
(shuffled) answer held for the query itself; failing that, if hardening is on and the nearest higher name with a
live answer for the same type, class and flags has an NXDOMAIN, with NXDOMAIN; otherwise not at all. -/
theorem cache_hardening_exact (env : Env H) (o : Opts) (ho : o.negativeTTL ≤ 4294967295)
    (cap : Int) (hist : List Ev) (hok : ∀ e ∈ hist, OkEv env.ipStr e) (c : State H)
    (hrun : runEv env o (Verif.Lru.new cap) hist = some c) (q : Msg) (qu : Question) (hq : q.question.head? = some qu)
    (clock : Nat → Int) :
    ∃ c' r, answerFromCache env o c q clock = some (c', r) ∧ r.map (·.1) =
      match hit env c q (clock 0) with
      | some a => some (match o.shuffle with | some f => f a | none => a)
      | none =>
        if o.harden = true ∧ (nearestHit env c q clock qu.name).map (·.rcode) = some 3 then some (nxdomain q)
        else none := by
  obtain ⟨c1, es, h, -, hi⟩ := run_inv ho hist (hist := []) (new_inv env _ cap) hok
  rw [hrun] at h
  obtain rfl := Option.some.inj h
  have hq' : q.question ≠ [] := by intro h0; rw [h0] at hq; simp at hq
  obtain ⟨c', es', h1, -, -⟩ := answerFromCache_ok hi o q hq clock
  refine ⟨c', _, h1, ?_⟩
  rw [hit_eq hi hq']
  unfold nearestHit
  rw [nearest_eq hi hq']
  cases peek env es q (clock 0) with
  | some r => rfl
  | none =>
    simp only [Option.map_none]
    cases ho : o.harden with
    | false => simp
    | true =>
      simp only [if_true, true_and]
      cases firstLive env es q clock (higherNames qu.name) 1 with
      | none => rfl
      | some r =>
        obtain ⟨m, pf⟩ := r
        simp only [Option.map_some, Option.some.injEq]
        split <;> simp

/-- `hit` is justified by the history (C01 for the entries used by hardening). -/
theorem hit_justified (env : Env H) (hip : ∀ a, env.ipStr a ≠ []) (o : Opts) (ho : o.negativeTTL ≤ 4294967295)
    (cap : Int) (hist : List Ev) (hok : ∀ e ∈ hist, OkEv env.ipStr e) (c : State H)
    (hrun : runEv env o (Verif.Lru.new cap) hist = some c) (q : Msg) (hq : q.question ≠ []) (now : Int) (a : Msg)
    (h : hit env c q now = some a) : Justified env o hist q now a := by
  obtain ⟨c', r, h1, h2⟩ := cache_never_stale env hip o ho cap hist hok c hrun q hq now
  unfold hit at h
  rw [h1] at h
  simp only [Option.bind_some] at h
  obtain ⟨⟨a', pf⟩, h3, rfl⟩ := Option.map_eq_some_iff.mp h
  exact h2 _ _ h3

/-- **C08 (soundness).** NXDOMAIN is synthesised only below a live NXDOMAIN stored earlier for a name above. -/
theorem cache_hardening_sound (env : Env H) (hip : ∀ a, env.ipStr a ≠ []) (o : Opts) (ho : o.negativeTTL ≤ 4294967295)
    (cap : Int) (hist : List Ev) (hok : ∀ e ∈ hist, OkEv env.ipStr e) (c : State H)
    (hrun : runEv env o (Verif.Lru.new cap) hist = some c) (q : Msg) (qu : Question) (hq : q.question.head? = some qu)
    (clock : Nat → Int) (c' : State H) (a : Msg) (pf : Bool)
    (h : answerFromCache env o c q clock = some (c', some (a, pf))) :
    (∃ a0, Justified env o hist q (clock 0) a0 ∧ a = match o.shuffle with | some f => f a0 | none => a0) ∨
    (o.harden = true ∧ a = nxdomain q ∧ hit env c q (clock 0) = none ∧
      ∃ p n m i, qu.name = p ++ dot :: n ∧ dot ∈ n ∧ Justified env o hist (withName q n) (clock i) m ∧ m.rcode = 3) := by
  have hq' : q.question ≠ [] := by intro h0; rw [h0] at hq; simp at hq
  obtain ⟨c1, r, h1, h2⟩ := cache_hardening_exact env o ho cap hist hok c hrun q qu hq clock
  rw [h] at h1
  simp only [Option.some.injEq, Prod.mk.injEq] at h1
  obtain ⟨rfl, rfl⟩ := h1
  simp only [Option.map_some] at h2
  cases hh : hit env c q (clock 0) with
  | some a0 =>
    rw [hh] at h2
    exact Or.inl ⟨a0, hit_justified env hip o ho cap hist hok c hrun q hq' _ _ hh, Option.some.inj h2⟩
  | none =>
    rw [hh] at h2
    simp only at h2
    split at h2
    · rename_i hc
      refine Or.inr ⟨hc.1, Option.some.inj h2, rfl, ?_⟩
      obtain ⟨m, hm, hr⟩ := Option.map_eq_some_iff.mp hc.2
      unfold nearestHit at hm
      obtain ⟨⟨n, i⟩, hmem, hm⟩ := List.exists_of_findSome?_eq_some hm
      have hn : n ∈ higherNames qu.name := by
        have := List.fst_mem_of_mem_zipIdx hmem
        exact this
      obtain ⟨⟨p, hp⟩, hd⟩ := higherNames_spec _ _ hn
      have hq2 : (withName q n).question ≠ [] := by
        obtain ⟨qu, qs, hqq⟩ := List.exists_cons_of_ne_nil hq'
        simp [withName, hqq]
      exact ⟨p, n, m, i, hp, hd, hit_justified env hip o ho cap hist hok c hrun _ hq2 _ _ hm, hr⟩
    · simp at h2

/-- **C01/C08 at the resolver.** What `Resolve` answers without asking upstream is the reply to a flush query, a
justified answer, or NXDOMAIN below a justified NXDOMAIN, and only for a query with a single question. Everything else is the
upstream's reply, unchanged. -/
theorem cache_resolve_sound (env : Env H) (hip : ∀ a, env.ipStr a ≠ []) (o : Opts) (ho : o.negativeTTL ≤ 4294967295)
    (cap : Int) (hist : List Ev) (hok : ∀ e ∈ hist, OkEv env.ipStr e) (c : State H)
    (hrun : runEv env o (Verif.Lru.new cap) hist = some c) (q : Msg) (qu : Question) (hq : q.question.head? = some qu)
    (up : Res) (clock : Nat → Int) (t : Int) (out : Outcome H) (h : resolve env o c q up clock t = some out) :
    (out.asked = true ∧ (out.res = up ∨ (up.err ≠ none ∧ out.res = ⟨none, up.err⟩))) ∨
    (out.asked = false ∧ q.question = [qu] ∧ ∃ a, out.res = Res.ok a ∧
      ((o.flushQuery ≠ [] ∧ o.flushQuery = qu.name ∧ a = setReply q) ∨
       (∃ a0, Justified env o hist q (clock 0) a0 ∧ a = match o.shuffle with | some f => f a0 | none => a0) ∨
       (o.harden = true ∧ a = nxdomain q ∧ hit env c q (clock 0) = none ∧
         ∃ p n m i, qu.name = p ++ dot :: n ∧ dot ∈ n ∧ Justified env o hist (withName q n) (clock i) m ∧ m.rcode = 3))) := by
  unfold resolve at h
  split at h
  · simp at h; subst h; exact Or.inl ⟨rfl, Or.inl rfl⟩
  · rename_i hlen
    have hone : q.question = [qu] := by
      cases hqq : q.question with
      | nil => rw [hqq] at hq; simp at hq
      | cons x l =>
        rw [hqq] at hq hlen
        simp only [List.head?_cons, Option.some.injEq] at hq
        subst hq
        cases l with
        | nil => rfl
        | cons y l => simp at hlen
    simp only [Option.bind_eq_bind, hq, Option.bind_some] at h
    split at h
    · rename_i hf
      simp at h; subst h; exact Or.inr ⟨rfl, hone, _, rfl, Or.inl ⟨hf.1, hf.2, rfl⟩⟩
    · obtain ⟨⟨c1, r⟩, h1, h⟩ := Option.bind_eq_some_iff.mp h
      cases r with
      | some r =>
        obtain ⟨a, pf⟩ := r
        simp at h; subst h
        exact Or.inr ⟨rfl, hone, a, rfl, Or.inr (cache_hardening_sound env hip o ho cap hist hok c hrun q qu hq clock _ _ _ h1)⟩
      | none =>
        obtain ⟨um, ue⟩ := up
        simp only at h
        cases ue with
        | none =>
          cases um with
          | none => simp at h; subst h; exact Or.inl ⟨rfl, Or.inl rfl⟩
          | some a =>
            simp only at h
            split at h
            · simp at h; subst h; exact Or.inl ⟨rfl, Or.inl rfl⟩
            · obtain ⟨c2, h2, h⟩ := Option.bind_eq_some_iff.mp h
              simp at h; subst h; exact Or.inl ⟨rfl, Or.inl rfl⟩
        | some e =>
          cases um <;> (simp at h; subst h; exact Or.inl ⟨rfl, Or.inr ⟨by simp, rfl⟩⟩)

/-- **C01.** A query with several questions goes round the cache: the client gets the upstream's reply, and the store stays as it is. -/
theorem cache_several_questions (env : Env H) (o : Opts) (c : State H) (q : Msg) (hq : 2 ≤ q.question.length) (up : Res)
    (clock : Nat → Int) (t : Int) : resolve env o c q up clock t = some ⟨c, up, true, none⟩ := by
  unfold resolve; rw [if_pos (by omega)]

example : 2 ≤ ({ question := [⟨str "a.", 1, 1⟩, ⟨str "b.", 1, 1⟩] } : Msg).question.length := by decide

/-! ### C68: background refresh -/

/-- There is at most one response stored last. -/
theorem storedLast_unique (env : Env H) (o : Opts) (hist : List Ev) (q m m' : Msg) (t t' : Int)
    (h : StoredLast env o hist q m t) (h' : StoredLast env o hist q m' t') : m = m' ∧ t = t' := by
  obtain ⟨q0, b, a, rfl, h2, h3, h4, h5⟩ := h
  obtain ⟨q0', b', a', g1, g2, g3, g4, g5⟩ := h'
  have hs : Supersedes env o q (Ev.store q0 m t) := Or.inr (Or.inr ⟨_, _, _, rfl, h3, h4, h5⟩)
  have hs' : Supersedes env o q (Ev.store q0' m' t') := Or.inr (Or.inr ⟨_, _, _, rfl, g3, g4, g5⟩)
  rcases List.append_eq_append_iff.mp g1 with ⟨l, e1, e2⟩ | ⟨l, e1, e2⟩
  · cases l with
    | nil => simp at e2; exact ⟨e2.1.2.1, e2.1.2.2⟩
    | cons x l =>
      simp only [List.cons_append, List.cons.injEq] at e2
      exact absurd hs' (h2 _ (by rw [e2.2]; simp))
  · cases l with
    | nil => simp at e2; exact ⟨e2.1.2.1.symm, e2.1.2.2.symm⟩
    | cons x l =>
      simp only [List.cons_append, List.cons.injEq] at e2
      exact absurd hs (g2 _ (by rw [e2.2]; simp))

/-- A stored response is worth refreshing: it is no SERVFAIL, and its lowest TTL when it was received is above the
configured one. (TTL 4294967295 is treated as no TTL.) -/
def Refreshable (o : Opts) (m : Msg) : Prop :=
  m.rcode ≠ 2 ∧ ∃ x, lowestTTL m = some x ∧ o.prefetchEligible < x ∧ x < 4294967295

private theorem lifetime_flag {o : Opts} {m : Msg} {t ex : Int} {pf : Bool} (h : lifetime o m t = some (ex, pf)) :
    pf = true ↔ Refreshable o m := by
  have hb : ∃ e, baseLifetime o m t = some (e, pf) := by
    unfold lifetime at h
    split at h
    · simp at h
    · rename_i e1 p1 h1
      split at h
      · simp at h; exact ⟨e1, by rw [h1, h.2]⟩
      · split at h <;> (simp at h; exact ⟨e1, by rw [h1, h.2]⟩)
  obtain ⟨e, hb⟩ := hb
  unfold baseLifetime at hb
  rw [minTTL_eq] at hb
  unfold Refreshable
  simp only [rcodeSuccess, rcodeNameError, rcodeRefused, rcodeNotImplemented, rcodeFormatError, rcodeServerFailure, maxUint32] at hb
  split at hb
  · rename_i hr
    cases hl : lowestTTL m with
    | none => rw [hl] at hb; simp at hb; simp [← hb.2]
    | some x =>
      rw [hl] at hb
      simp only at hb
      by_cases hx : x < 4294967295
      · simp only [if_pos hx, if_true, Option.some.injEq, Prod.mk.injEq] at hb
        rw [← hb.2]; simp only [decide_eq_true_eq, gt_iff_lt, Option.some.injEq, exists_eq_left']
        omega
      · simp only [if_neg hx, Bool.false_eq_true, if_false, Option.some.injEq, Prod.mk.injEq] at hb
        rw [← hb.2]; simp only [Bool.false_eq_true, Option.some.injEq, exists_eq_left', false_iff]
        omega
  · split at hb
    · rename_i hr; split at hb <;> (simp at hb; simp [← hb.2, hr])
    · simp at hb

private theorem wants_iff (o : Opts) (ht : o.prefetchTrigger ≤ 4294967295) (a : Msg) (pf : Bool) (n : Nat) :
    wantsPrefetch o a pf = some n ↔ pf = true ∧ lowestTTL a = some n ∧ n < o.prefetchTrigger := by
  unfold wantsPrefetch
  rw [minTTL_eq]
  cases pf with
  | false => simp
  | true =>
    simp only [true_and]
    by_cases h0 : o.prefetchTrigger > 0
    · rw [if_pos h0]
      cases hl : lowestTTL a with
      | none => simp
      | some x =>
        simp only [maxUint32, Option.some.injEq]
        by_cases hx : x < 4294967295
        · simp only [if_pos hx, true_and]
          by_cases hy : x < o.prefetchTrigger
          · rw [if_pos hy]; simp only [Option.some.injEq]
            constructor
            · rintro rfl; exact ⟨rfl, hy⟩
            · exact fun h => h.1
          · rw [if_neg hy]; simp only [reduceCtorEq, false_iff]; omega
        · simp only [if_neg hx, Bool.false_eq_true, false_and, if_false, reduceCtorEq, false_iff]; omega
    · rw [if_neg h0]; simp only [reduceCtorEq, false_iff]; omega

/-- **C68 (start).** In every reachable cache: a query starts a background refresh only if it is answered from the
answer held for that query itself, and then exactly if the response stored last was worth refreshing and the lowest TTL
in the answer given is below the trigger (so never with a trigger of 0). The client gets the held answer in any
case, without the upstream being waited for. -/
theorem cache_refresh_start (env : Env H) (hip : ∀ a, env.ipStr a ≠ []) (o : Opts) (ho : o.negativeTTL ≤ 4294967295)
    (ht : o.prefetchTrigger ≤ 4294967295) (cap : Int) (hist : List Ev) (hok : ∀ e ∈ hist, OkEv env.ipStr e) (c : State H)
    (hrun : runEv env o (Verif.Lru.new cap) hist = some c) (q : Msg) (qu : Question) (hq : q.question = [qu])
    (hf : ¬ (o.flushQuery ≠ [] ∧ o.flushQuery = qu.name)) (up : Res) (clock : Nat → Int) (ts : Int)
    (out : Outcome H) (hout : resolve env o c q up clock ts = some out) :
      match hit env c q (clock 0) with
      | none => out.prefetch = none
      | some a0 => ∃ a m t, out.asked = false ∧ out.res = Res.ok a ∧
          a = (match o.shuffle with | some f => f a0 | none => a0) ∧ StoredLast env o hist q m t ∧
          ∀ n, out.prefetch = some n ↔ Refreshable o m ∧ lowestTTL a = some n ∧ n < o.prefetchTrigger := by
  obtain ⟨c1, es, h, -, hi⟩ := run_inv ho hist (hist := []) (new_inv env _ cap) hok
  rw [hrun] at h
  obtain rfl := Option.some.inj h
  have hq' : q.question ≠ [] := by rw [hq]; simp
  have hqh : q.question.head? = some qu := by rw [hq]; rfl
  obtain ⟨c', es', h1, hmx, hi'⟩ := answerFromCache_ok hi o q hqh clock
  rw [hit_eq hi hq']
  have hlen : ¬ q.question.length > 1 := by rw [hq]; simp
  unfold resolve at hout
  rw [if_neg hlen, hqh] at hout
  simp only [Option.bind_eq_bind, Option.bind_some] at hout
  rw [if_neg hf] at hout
  simp only [h1, Option.bind_some] at hout
  cases hp : peek env es q (clock 0) with
  | some r =>
    obtain ⟨a0, pf⟩ := r
    rw [hp] at hout
    simp only [Option.map_some]
    simp only [pure, Option.some.injEq] at hout
    subst hout
    obtain ⟨q0, m, t, m', ex, g1, g2, e1, e2, e3, e4, e5, ⟨w, e6, e7⟩, e8⟩ := peek_by hip ho hi hp
    refine ⟨_, m, t, rfl, rfl, rfl, ⟨q0, g1, g2, e1, e2, e3, by rw [e4]; simp, by rw [e6]; simp⟩, ?_⟩
    intro n
    rw [wants_iff o ht, lifetime_flag e4]
  | none =>
    rw [hp] at hout
    simp only [Option.map_none]
    have hmiss : ∀ out', (match up with
      | ⟨some a, none⟩ =>
        if a.tc = true then some (⟨c', Res.ok a, true, none⟩ : Outcome H)
        else (storeInCache env o c' q a ts).bind fun x => some ⟨x, Res.ok a, true, none⟩
      | ⟨_, e⟩ => some ⟨c', ⟨none, e⟩, true, none⟩) = some out' → out'.prefetch = none := by
      intro out' h
      split at h
      · split at h
        · simp at h; rw [← h]
        · obtain ⟨x, -, h⟩ := Option.bind_eq_some_iff.mp h
          simp at h; rw [← h]
      · simp at h; rw [← h]
    simp only at hout
    split at hout
    · rename_i a pf hr
      simp only [pure, Option.some.injEq] at hout
      subst hout
      have : pf = false := by
        split at hr
        · split at hr
          · split at hr <;> simp at hr
            exact hr.2
          · simp at hr
        · simp at hr
      subst this
      simp [wantsPrefetch]
    · exact hmiss _ hout

/-- A query that goes round the store (several questions) or flushes it starts no refresh. -/
theorem cache_refresh_none (env : Env H) (o : Opts) (c : State H) (q : Msg) (up : Res) (clock : Nat → Int) (ts : Int)
    (out : Outcome H) (hout : resolve env o c q up clock ts = some out)
    (h : q.question.length > 1 ∨ (o.flushQuery ≠ [] ∧ q.question.head?.map (·.name) = some o.flushQuery)) :
    out.prefetch = none := by
  unfold resolve at hout
  by_cases hl : q.question.length > 1
  · rw [if_pos hl] at hout; simp at hout; rw [← hout]
  · rw [if_neg hl] at hout
    rcases h with h | ⟨h1, h2⟩
    · exact absurd h hl
    · obtain ⟨qu, hq, hn⟩ := Option.map_eq_some_iff.mp h2
      simp only [hq, Option.bind_eq_bind, Option.bind_some] at hout
      rw [if_pos ⟨h1, hn.symm⟩] at hout
      simp [pure] at hout; rw [← hout]

/-- A well-formed query never crashes the caching resolver, whatever was done before. -/
theorem cache_resolve_total (env : Env H) (o : Opts) (ho : o.negativeTTL ≤ 4294967295)
    (cap : Int) (hist : List Ev) (hok : ∀ e ∈ hist, OkEv env.ipStr e) (c : State H)
    (hrun : runEv env o (Verif.Lru.new cap) hist = some c) (q : Msg) (hw : WellFormed env.ipStr q)
    (up : Res) (clock : Nat → Int) (ts : Int) (hts : SaneTime ts) : ∃ out, resolve env o c q up clock ts = some out := by
  obtain ⟨c1, es, h, -, hi⟩ := run_inv ho hist (hist := []) (new_inv env _ cap) hok
  rw [hrun] at h
  obtain rfl := Option.some.inj h
  obtain ⟨qu, qs, hqq⟩ := List.exists_cons_of_ne_nil hw.question
  have hqh : q.question.head? = some qu := by rw [hqq]; rfl
  obtain ⟨c', es', h1, hmx, hi'⟩ := answerFromCache_ok hi o q hqh clock
  unfold resolve
  split
  · exact ⟨_, rfl⟩
  · simp only [Option.bind_eq_bind, hqh, Option.bind_some]
    split
    · exact ⟨_, rfl⟩
    · simp only [h1, Option.bind_some]
      split
      · exact ⟨_, rfl⟩
      · split
        · rename_i a
          split
          · exact ⟨_, rfl⟩
          · obtain ⟨c2, es2, g1, -⟩ := step_inv ho hi' (.store q a ts) ⟨by
              intro q' m' t' he; simp only [Ev.store.injEq] at he; obtain ⟨rfl, rfl, rfl⟩ := he; exact ⟨hw, hts⟩,
              by simp, by simp⟩
            simp only [stepEv] at g1
            rw [g1]; exact ⟨_, rfl⟩
        · exact ⟨_, rfl⟩

/-- The reply to a background refresh is worth keeping: no error, not truncated, and its lowest TTL is at least the
one that was left when the refresh started. -/
def Improves (reply : Res) (left : Nat) (a : Msg) : Prop :=
  reply.err = none ∧ reply.msg = some a ∧ a.tc = false ∧ ∃ x, lowestTTL a = some x ∧ left ≤ x ∧ x < 4294967295

/-- **C68 (end).** When the reply to a background refresh arrives, however the cache has changed meanwhile: if it is worth
keeping, it is stored like the reply to a client's query, otherwise the cache stays as it is. -/
theorem cache_refresh_end (env : Env H) (o : Opts) (c : State H) (q : Msg) (reply : Res) (left : Nat) (now : Int) :
    (∀ a, Improves reply left a → prefetchDone env o c q reply left now = stepEv env o c (.store q a now)) ∧
    ((¬ ∃ a, Improves reply left a) → prefetchDone env o c q reply left now = some c) := by
  obtain ⟨m, e⟩ := reply
  constructor
  · rintro a ⟨h1, h2, h3, x, h4, h5, h6⟩
    simp only at h1 h2
    subst h1 h2
    have h6' : x < maxUint32 := h6
    simp only [prefetchDone, h3, Bool.false_eq_true, if_false, minTTL_eq, h4, if_pos h6', stepEv]
    rw [if_neg (by simp; omega)]
  · intro h
    unfold prefetchDone
    split
    · rename_i a hm
      simp only [Res.mk.injEq] at hm
      obtain ⟨rfl, rfl⟩ := hm
      split
      · rfl
      · rename_i htc
        simp only [minTTL_eq]
        cases hl : lowestTTL a with
        | none => simp
        | some x =>
          simp only
          by_cases hx : x < maxUint32
          · simp only [if_pos hx]
            by_cases hy : x < left
            · rw [if_pos (by simp [hy])]
            · exact absurd ⟨a, rfl, rfl, by simpa using htc, x, hl, by omega, hx⟩ h
          · simp [if_neg hx]
    · rfl

/-- **C68.** A background refresh never leaves the client with a worse answer, for the same code: the answer it stores is
kept at least as long as the old one would have been, unless a limit for its code says otherwise. -/
theorem cache_refresh_not_shorter (o : Opts) (a : Msg) (reply : Res) (left : Nat) (now ex : Int) (pf : Bool)
    (h : Improves reply left a) (hl : lifetime o a now = some (ex, pf)) (hc : a.rcode ≠ 2) (hr : o.rcodeMaxTTL a.rcode = none) :
    now + left * 1000000000 ≤ ex := by
  obtain ⟨-, -, -, x, h4, h5, h6⟩ := h
  have h6' : x < maxUint32 := h6
  unfold lifetime baseLifetime at hl
  simp only [minTTL_eq, h4, if_pos h6', hr, second, rcodeServerFailure] at hl
  simp only [rcodeSuccess, rcodeNameError, rcodeRefused, rcodeNotImplemented, rcodeFormatError] at hl
  split at hl
  · simp at hl
  · rename_i e1 p1 h1
    split at h1
    · simp at h1; simp at hl; omega
    · simp at h1

/-! ### Concrete cases -/
section Examples

private def exStr (s : String) : Str := s.toList.map (fun c => c.toNat.toUInt8)

/-- An environment in which all keys collide and messages are encoded by code and first TTL. -/
private def exEnv : Env Nat where
  ipStr a := 49 :: a
  hash _ := 7
  encode m := some [m.rcode.toUInt8, (m.answer.map (fun r => r.ttl.toUInt8)).headD 0]
  decode w := match w with
    | [r, t] => some { rcode := r.toNat, response := true,
                       answer := if t = 0 then [] else [{ name := [97], rtype := 1, cls := 1, ttl := t.toNat, data := .a [1, 2, 3, 4] }] }
    | _ => none

private def exQ (name : String) : Msg := { id := 5, question := [{ name := exStr name, qtype := 1, qclass := 1 }] }
private def exA : Msg := { response := true, answer := [{ name := [97], rtype := 1, cls := 1, ttl := 200, data := .a [1, 2, 3, 4] }] }
private def exNx : Msg := { response := true, rcode := 3 }
private def t0 : Int := 1700000000000000000
private def secs (n : Int) : Int := n * 1000000000

/-- Stored with TTL 200, served five seconds later with TTL 195, not served after 200 seconds; meanwhile the file was
saved and loaded. -/
example : ∃ c, runEv exEnv {} (Verif.Lru.new 10) [.store (exQ "A.b.") exA t0, .get (exQ "x."), .restart] = some c ∧
    (hit exEnv c (exQ "a.b.") (t0 + secs 5)).map (fun m => m.answer.map (·.ttl)) = some [195] ∧
    hit exEnv c (exQ "a.b.") (t0 + secs 200) = none ∧ hit exEnv c (exQ "b.") (t0 + secs 5) = none := by
  refine ⟨_, rfl, ?_, ?_, ?_⟩ <;> decide

example : ∀ e ∈ [Ev.store (exQ "A.b.") exA t0, .get (exQ "x."), .restart], OkEv exEnv.ipStr e := by
  intro e he
  simp only [List.mem_cons, List.not_mem_nil, or_false] at he
  rcases he with rfl | rfl | rfl
  · refine ⟨?_, by simp, by simp⟩
    intro q m t h
    simp only [Ev.store.injEq] at h
    obtain ⟨rfl, rfl, rfl⟩ := h
    refine ⟨⟨by simp [exQ], by simp [exQ], ?_⟩, by unfold SaneTime t0; omega⟩
    intro x hx; simp [subnet, exQ, Msg.edns?] at hx
  · exact ⟨by simp, by simp [exQ], by simp⟩
  · exact ⟨by simp, by simp, by simp⟩

private def pfO : Opts := { prefetchTrigger := 10, prefetchEligible := 100 }
private def pfHist : List Ev := [.store (exQ "a.b.") exA t0]

/-- TTL 200, refreshed by a query with 5 seconds left, and not by one with 10 seconds left. -/
example : ∃ c, runEv exEnv pfO (Verif.Lru.new 10) pfHist = some c ∧
    ((resolve exEnv pfO c (exQ "a.b.") ⟨none, none⟩ (fun _ => t0 + secs 195) t0).map (·.prefetch)) = some (some 5) ∧
    ((resolve exEnv pfO c (exQ "a.b.") ⟨none, none⟩ (fun _ => t0 + secs 190) t0).map (·.prefetch)) = some none ∧
    (hit exEnv c (exQ "a.b.") (t0 + secs 195)).isSome = true := by
  refine ⟨_, rfl, ?_, ?_, ?_⟩ <;> decide

/-- A reply worth keeping, and what is done with one that is not. -/
example : Improves (Res.ok exA) 5 exA ∧ ¬ (∃ a, Improves (Res.ok { exA with tc := true }) 5 a) ∧
    lifetime pfO exA t0 = some (t0 + secs 200, true) := by
  refine ⟨⟨rfl, rfl, rfl, 200, rfl, by omega, by omega⟩, ?_, by decide⟩
  rintro ⟨a, -, h, h2, -⟩
  simp only [Res.ok, Option.some.injEq] at h
  subst h
  simp at h2

/-- The documentation (cache.go:73) promises refreshes for records "with at least PrefetchEligible seconds TTL"; a TTL of
exactly that many seconds is not refreshed. -/
theorem refresh_eligible_boundary : ∃ (o : Opts) (c : State Nat), o.prefetchEligible = 200 ∧ lowestTTL exA = some 200 ∧
    runEv exEnv o (Verif.Lru.new 10) pfHist = some c ∧
    ((resolve exEnv o c (exQ "a.b.") ⟨none, none⟩ (fun _ => t0 + secs 195) t0).map (·.prefetch)) = some none ∧
    (hit exEnv c (exQ "a.b.") (t0 + secs 195)).isSome = true := by
  refine ⟨{ prefetchTrigger := 10, prefetchEligible := 200 }, _, rfl, by decide, rfl, ?_, ?_⟩ <;> decide

/-- A refresh that fails with SERVFAIL and some record replaces the good answer still held. -/
theorem refresh_servfail_replaces : ∃ (c c' : State Nat), runEv exEnv pfO (Verif.Lru.new 10) pfHist = some c ∧
    ((hit exEnv c (exQ "a.b.") (t0 + secs 195)).map (·.rcode)) = some 0 ∧
    prefetchDone exEnv pfO c (exQ "a.b.") (Res.ok { exA with rcode := 2 }) 5 (t0 + secs 195) = some c' ∧
    ((hit exEnv c' (exQ "a.b.") (t0 + secs 196)).map (·.rcode)) = some 2 := by
  refine ⟨_, _, rfl, ?_, rfl, ?_⟩ <;> decide

private def hist2 : List Ev := [.store (exQ "b.c.") exNx t0]

/-- Hardening: an NXDOMAIN for `b.c.` answers `x.a.b.c.`, but not `b.d.`, and not after its lifetime of 60s. -/
example : ∃ c, runEv exEnv { harden := true } (Verif.Lru.new 10) hist2 = some c ∧
    (answerFromCache exEnv { harden := true } c (exQ "x.a.b.c.") (fun _ => t0 + secs 60)).map (fun r => r.2.map (·.1.rcode)) = some (some 3) ∧
    (answerFromCache exEnv { harden := true } c (exQ "x.a.b.c.") (fun _ => t0 + secs 61)).map (fun r => r.2.map (·.1.rcode)) = some none ∧
    (answerFromCache exEnv { harden := true } c (exQ "a.b.d.") (fun _ => t0)).map (fun r => r.2.map (·.1.rcode)) = some none := by
  refine ⟨_, rfl, ?_, ?_, ?_⟩ <;> decide

/-- **Finding.** Names are split at every dot, also an escaped one. `a\.b.c.` is a single label below `c.`, not a name
below `b.c.`, and yet an NXDOMAIN for `b.c.` answers it. -/
theorem hardening_escaped_dot : ∃ c, runEv exEnv { harden := true } (Verif.Lru.new 10) hist2 = some c ∧
    (answerFromCache exEnv { harden := true } c (exQ "a\\.b.c.") (fun _ => t0)).map (fun r => r.2.map (·.1.rcode)) = some (some 3) := by
  refine ⟨_, rfl, ?_⟩; decide

example : cacheable exA.rcode = true ∧ lowestTTL exA = some 200 ∧
    keepFor 60 (fun r => if r = 0 then some 30 else none) exA = 30 := by decide

/-- `cache_admission`: a complete response is stored, a truncated one is not. -/
example : (resolve exEnv {} (Verif.Lru.new 10) (exQ "a.") (Res.ok exA) (fun _ => t0) t0).map
      (fun o => (hit exEnv o.state (exQ "a.") t0).isSome) = some true ∧
    (resolve exEnv {} (Verif.Lru.new 10) (exQ "a.") (Res.ok { exA with tc := true }) (fun _ => t0) t0).map
      (fun o => (hit exEnv o.state (exQ "a.") t0).isSome) = some false := by decide

end Examples

end Verif.Props.Cache
