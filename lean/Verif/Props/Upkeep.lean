import Verif.Spec.Upkeep
import Verif.Props.CacheLives
import Verif.Props.Settings
/-
C99: what happens in the background, and how often.
-/
set_option linter.unusedSectionVars false
namespace Verif.Props.Upkeep
open Verif Verif.Upkeep Verif.Spec.Upkeep Verif.CacheM
open Verif.Props.CacheLives (OkEv)

/-! ### Lists -/

variable {γ : Type}

private theorem lrun_cons {period : Int} {s s' : Reloaded γ} {e : LEv γ} {es : List (LEv γ)} (h : lrun period s (e :: es) = some s') :
    ∃ s1, lstep period s e = some s1 ∧ lrun period s1 es = some s' := by
  simp only [lrun, Option.bind_eq_some_iff] at h
  exact h

/-- how long ago reloads began -/
private structure LInv (period t0 : Int) (s : Reloaded γ) : Prop where
  gaps : s.begun.Pairwise (fun later earlier => earlier + period ≤ later)
  first : ∀ x ∈ s.begun, t0 + period ≤ x ∧ x ≤ s.now
  asleep : ∀ u, s.loop = some (.asleep u) → t0 + period ≤ u ∧ ∀ x ∈ s.begun, x + period ≤ u
  start : t0 ≤ s.now

private theorem lstep_inv {period t0 : Int} {s s' : Reloaded γ} {e : LEv γ} (h : LInv period t0 s) (hs : lstep period s e = some s') : LInv period t0 s' := by
  cases e with
  | tick t =>
    simp only [lstep] at hs
    split at hs <;> cases hs
    exact ⟨h.gaps, fun x hx => ⟨(h.first x hx).1, by have := (h.first x hx).2; show x ≤ t; omega⟩, h.asleep, by have := h.start; show t0 ≤ t; omega⟩
  | begin =>
    simp only [lstep] at hs
    split at hs
    · next u hu =>
      split at hs <;> cases hs
      obtain ⟨h1, h2⟩ := h.asleep u hu
      refine ⟨List.pairwise_cons.mpr ⟨fun x hx => by have := h2 x hx; omega, h.gaps⟩, ?_, by simp, h.start⟩
      intro x hx
      rcases List.mem_cons.mp hx with rfl | hx
      · exact ⟨by omega, by simp⟩
      · exact h.first x hx
    · cases hs
  | swap l =>
    simp only [lstep] at hs
    split at hs <;> cases hs
    refine ⟨h.gaps, h.first, ?_, h.start⟩
    intro u hu
    cases hu
    exact ⟨by have := h.start; omega, fun x hx => by have := (h.first x hx).2; omega⟩
  | fail =>
    simp only [lstep] at hs
    split at hs <;> cases hs
    refine ⟨h.gaps, h.first, ?_, h.start⟩
    intro u hu
    cases hu
    exact ⟨by have := h.start; omega, fun x hx => by have := (h.first x hx).2; omega⟩

private theorem lrun_inv {period t0 : Int} {es : List (LEv γ)} : ∀ {s s' : Reloaded γ}, LInv period t0 s → lrun period s es = some s' → LInv period t0 s' := by
  induction es with
  | nil => intro s s' h hr; cases hr; exact h
  | cons e es ih =>
    intro s s' h hr
    obtain ⟨s1, h1, h2⟩ := lrun_cons hr
    exact ih (lstep_inv h h1) h2

/-- **C99.** Lists are reloaded no more often than configured: the first reload begins at least one period after the start, and any two begin at least one period apart. -/
theorem list_not_too_often (period t0 : Int) (list : γ) (es : List (LEv γ)) (s : Reloaded γ) (h : lrun period (startList period t0 list) es = some s) :
    (∀ x ∈ s.begun, t0 + period ≤ x) ∧ s.begun.Pairwise (fun later earlier => earlier + period ≤ later) := by
  have h0 : LInv period t0 (startList period t0 list) := by
    refine ⟨List.Pairwise.nil, by simp [startList], ?_, Int.le_refl _⟩
    intro u hu
    simp only [startList] at hu
    split at hu <;> cases hu
    exact ⟨Int.le_refl _, by simp [startList]⟩
  have := lrun_inv h0 h
  exact ⟨fun x hx => (this.first x hx).1, this.gaps⟩

/-- **C99.** Without a period (or with a negative one) a list is never reloaded: it stays as it was loaded at the start. -/
theorem list_loaded_once (period t0 : Int) (hp : period ≤ 0) (list : γ) (es : List (LEv γ)) (s : Reloaded γ) (h : lrun period (startList period t0 list) es = some s) :
    s.list = list ∧ s.begun = [] := by
  have key : ∀ (es : List (LEv γ)) (s0 : Reloaded γ), s0.loop = none → lrun period s0 es = some s → s.list = s0.list ∧ s.begun = s0.begun := by
    intro es
    induction es with
    | nil => intro s0 _ hr; cases hr; exact ⟨rfl, rfl⟩
    | cons e es ih =>
      intro s0 h0 hr
      obtain ⟨s1, h1, h2⟩ := lrun_cons hr
      cases e with
      | tick t =>
        simp only [lstep] at h1
        split at h1 <;> cases h1
        exact ih { s0 with now := t } h0 h2
      | begin => simp [lstep, h0] at h1
      | swap l => simp [lstep, h0] at h1
      | fail => simp [lstep, h0] at h1
  exact key es _ (by simp [startList]; omega) h

private structure LFresh (d period t0 : Int) (source : Int → γ) (s : Reloaded γ) : Prop where
  fresh : ∃ x, x ≤ s.now ∧ t0 ≤ x ∧ s.list = source x ∧
    ((∃ u, s.loop = some (.asleep u) ∧ u ≤ x + d + period ∧ s.now ≤ u + d) ∨ ∃ t, s.loop = some (.working t) ∧ x ≤ t ∧ t ≤ x + 2 * d + period ∧ s.now ≤ t + d ∧ t ≤ s.now)

private theorem lfresh_run {d period t0 : Int} (hd : 0 ≤ d) (hp : 0 < period) {source : Int → γ} {es : List (LEv γ)} :
    ∀ {s s' : Reloaded γ}, LFresh d period t0 source s → OnTime d period s es → Faithful source period s es → lrun period s es = some s' → LFresh d period t0 source s' := by
  induction es with
  | nil => intro s s' h _ _ hr; cases hr; exact h
  | cons e es ih =>
    intro s s' h ho hf hr
    obtain ⟨s1, h1, h2⟩ := lrun_cons hr
    refine ih ?_ (ho.2 s1 h1) (hf.2.2 s1 h1) h2
    obtain ⟨x, hx, hx0, hl, hc⟩ := h.fresh
    cases e with
    | tick t =>
      have hon := ho.1 t rfl
      simp only [lstep] at h1
      split at h1 <;> cases h1
      refine ⟨x, by show x ≤ t; omega, hx0, hl, ?_⟩
      rcases hc with ⟨u, hu, h3, h4⟩ | ⟨w, hw, h3, h4, h5, h6⟩
      · exact Or.inl ⟨u, hu, h3, hon _ hu⟩
      · exact Or.inr ⟨w, hw, h3, h4, hon _ hw, by show w ≤ t; omega⟩
    | begin =>
      simp only [lstep] at h1
      split at h1
      · next u hu =>
        split at h1 <;> cases h1
        rcases hc with ⟨u', hu', h3, h4⟩ | ⟨w, hw, _⟩
        · rw [hu] at hu'; cases hu'
          exact ⟨x, hx, hx0, hl, Or.inr ⟨s.now, rfl, hx, by omega, by show s.now ≤ s.now + d; omega, Int.le_refl _⟩⟩
        · rw [hu] at hw; cases hw
      · cases h1
    | swap l =>
      simp only [lstep] at h1
      split at h1
      · next t ht =>
        cases h1
        obtain ⟨y, hy1, hy2, hy3⟩ := hf.2.1 l t rfl ht
        rcases hc with ⟨u, hu, _⟩ | ⟨w, hw, h3, h4, h5, h6⟩
        · rw [ht] at hu; cases hu
        · rw [ht] at hw; cases hw
          refine ⟨y, hy2, by omega, hy3, Or.inl ⟨_, rfl, ?_, ?_⟩⟩
          · omega
          · show s.now ≤ s.now + period + d; omega
      · cases h1
    | fail => exact absurd rfl hf.1

/-- **C99.** A list in use is what its source had at some moment not longer ago than the period configured, if reloads do not fail; plus three times the longest delay `d` in the program's
work (going on after sleeping, loading the list). -/
theorem list_fresh (d period t0 : Int) (hd : 0 ≤ d) (hp : 0 < period) (source : Int → γ) (es : List (LEv γ)) (s : Reloaded γ)
    (h : lrun period (startList period t0 (source t0)) es = some s) (ho : OnTime d period (startList period t0 (source t0)) es)
    (hf : Faithful source period (startList period t0 (source t0)) es) : ∃ x, x ≤ s.now ∧ s.now ≤ x + period + 3 * d ∧ s.list = source x := by
  have h0 : LFresh d period t0 source (startList period t0 (source t0)) :=
    ⟨t0, Int.le_refl _, Int.le_refl _, rfl, Or.inl ⟨t0 + period, by simp [startList, hp], by omega, by show t0 ≤ t0 + period + d; omega⟩⟩
  obtain ⟨x, hx, _, hl, hc⟩ := (lfresh_run hd hp h0 ho hf h).fresh
  refine ⟨x, hx, ?_, hl⟩
  rcases hc with ⟨u, _, h3, h4⟩ | ⟨w, _, h3, h4, h5, h6⟩ <;> omega

/-- **C99.** A failed reload changes nothing but when the next one is due. -/
theorem list_failed_reload (period : Int) (s s' : Reloaded γ) (h : lstep period s .fail = some s') : s'.list = s.list ∧ s'.loop = some (.asleep (s.now + period)) := by
  simp only [lstep] at h
  split at h <;> cases h
  exact ⟨rfl, rfl⟩

/-! ### The cache in memory -/

variable {H : Type} [DecidableEq H]

/-- All entries have expiries with the property. -/
private def Has (env : Env H) (P : Int → Prop) (s : CacheLives.Sys H) : Prop :=
  s.opts.negativeTTL ≤ 4294967295 ∧ ∃ es, Inv (s.env env) (fun _ _ _ ex _ => P ex) s.cache es

private theorem Has.mono {env : Env H} {P Q : Int → Prop} {s : CacheLives.Sys H} (h : Has env P s) (hPQ : ∀ x, P x → Q x) : Has env Q s := by
  obtain ⟨h1, es, h2⟩ := h
  exact ⟨h1, es, h2.mono fun _ _ _ ex _ => hPQ ex⟩

private theorem gc_has {env : Env H} {P : Int → Prop} {s s' : CacheLives.Sys H} {g : Int} (h : Has env P s) (hs : CacheLives.step env s (.gc g) = some s') :
    Has env (fun ex => g ≤ ex) s' := by
  obtain ⟨h1, es, h2⟩ := h
  obtain ⟨refs, hr⟩ := h2.rep
  obtain ⟨c', refs', g1, g2, g3⟩ := hr.deleteFunc_ok (fun e => match Blob.expiry? e.2 with
    | some x => decide (g > x)
    | none => false)
  have g1 : gc s.cache g = some c' := g1
  simp only [CacheLives.step, g1, Option.bind_eq_bind, Option.bind_some, Option.pure_def, Option.some.injEq] at hs
  subst hs
  have hsub := h2.sub ⟨refs', g2⟩ g3 List.filter_sublist
  refine ⟨h1, _, hsub.rep, hsub.cap, ?_⟩
  intro e he
  obtain ⟨k, ⟨hv, pf, ts, ex, w, b1, b2, hn, _⟩, hh⟩ := hsub.good e he
  refine ⟨k, ⟨hv, pf, ts, ex, w, b1, b2, hn, ?_⟩, hh⟩
  have hex : Blob.expiry? e.2 = some ex := (Props.Blob.blob_roundtrip hv b1 b2 hn).2.2.1
  have := (List.mem_filter.mp he).2
  simp [hex] at this
  show g ≤ ex
  omega

private theorem save_has {env : Env H} {P : Int → Prop} {s s' : CacheLives.Sys H} (h : Has env P s) (hs : CacheLives.step env s .save = some s') :
    Has env P s' ∧ s'.cache = s.cache ∧ saveFile s.cache = some s'.file := by
  simp only [CacheLives.step, Option.bind_eq_bind, Option.bind_eq_some_iff, Option.pure_def, Option.some.injEq] at hs
  obtain ⟨recs, h1, rfl⟩ := hs
  exact ⟨h, rfl, h1⟩

private theorem use_has {env : Env H} {P : Int → Prop} {s s' : CacheLives.Sys H} {now : Int} {e : CacheLives.Ev H} (hu : usable now e = true) (hok : OkEv env.ipStr e)
    (h : Has env P s) (hst : ∀ q m t, e = .store q m t → ∀ ex, t ≤ ex → P ex) (hs : CacheLives.step env s e = some s') : Has env P s' := by
  obtain ⟨hn, es, hi⟩ := h
  cases e with
  | store q m t =>
    obtain ⟨hw, ht⟩ := hok.store q m t rfl
    obtain ⟨k, hk⟩ := lruKey_isSome (ipStr := env.ipStr) hw.question
    have hk' : lruKeyFromQuery (s.env env).ipStr q = some k := hk
    have he' : (s.env env).encode = env.encode := rfl
    cases hl : lifetime s.opts m t with
    | none =>
      have : CacheLives.step env s (.store q m t) = some s := by simp [CacheLives.step, storeInCache, hl]
      rw [this] at hs; cases hs; exact ⟨hn, es, hi⟩
    | some x =>
      obtain ⟨ex, pf⟩ := x
      obtain ⟨r1, r2⟩ := Props.Cache.lifetime_range hn hl
      cases he : env.encode m with
      | none =>
        have : CacheLives.step env s (.store q m t) = some s := by simp [CacheLives.step, storeInCache, hl, store, hk', he', he]
        rw [this] at hs; cases hs; exact ⟨hn, es, hi⟩
      | some w =>
        cases hb : Blob.newFromWire k pf t ex w with
        | none =>
          have : CacheLives.step env s (.store q m t) = some s := by simp [CacheLives.step, storeInCache, hl, store, hk', he', he, hb]
          rw [this] at hs; cases hs; exact ⟨hn, es, hi⟩
        | some b =>
          unfold Props.Cache.SaneTime at ht
          obtain ⟨c', h1, h2, h3⟩ := hi.add (k := k) (b := b) (Q' := fun _ _ _ ex _ => P ex) (fun _ _ _ _ _ _ hp => hp)
            ⟨Props.Cache.valid_key hw hk, pf, t, ex, w, ⟨by omega, by omega⟩, ⟨by omega, by omega⟩, hb, hst q m t rfl ex r1⟩
          simp only [CacheLives.step, storeInCache, hl, store, hk', he', he, hb, Option.bind_eq_bind, Option.bind_some] at hs
          rw [h1] at hs
          simp only [Option.bind_some, Option.pure_def, Option.some.injEq] at hs
          subst hs
          exact ⟨hn, _, h3⟩
  | get q =>
    obtain ⟨k, hk⟩ := lruKey_isSome (ipStr := env.ipStr) (hok.get q rfl)
    obtain ⟨c', es', h1, h2, h3, -⟩ := hi.get k
    have hk' : lruKeyFromQuery (s.env env).ipStr q = some k := hk
    simp [CacheLives.step, lookupGet, hk', h1] at hs
    subst hs
    exact ⟨hn, _, h3⟩
  | evict q =>
    obtain ⟨k, hk⟩ := lruKey_isSome (ipStr := env.ipStr) (hok.evict q rfl)
    have hk' : lruKeyFromQuery (s.env env).ipStr q = some k := hk
    obtain ⟨c', h1, h2, h3⟩ := hi.delete k
    simp [CacheLives.step, CacheM.evict, hk', h1] at hs
    subst hs
    exact ⟨hn, _, h3⟩
  | flush =>
    have hf := hi.flush
    simp only [CacheLives.step, Option.some.injEq] at hs
    subst hs
    exact ⟨hn, [], hf.rep, hf.cap, by simp⟩
  | gc t => cases hu
  | save => cases hu
  | start a b c d => cases hu

private theorem krun_cons {env : Env H} {m : Settings.Memory} {s s' : Kept H} {e : KEv H} {es : List (KEv H)} (h : krun env m s (e :: es) = some s') :
    ∃ s1, kstep env m s e = some s1 ∧ krun env m s1 es = some s' := by
  simp only [krun, Option.bind_eq_some_iff] at h
  exact h

/-- Queries are well-formed, and the clock is sane. -/
def OkUse (ipStr : Str → Str) (e : KEv H) : Prop := ∀ x, e = .use x → OkEv ipStr x

private structure KInv (env : Env H) (m : Settings.Memory) (d t0 : Int) (s : Kept H) : Prop where
  gc : (Has env (fun _ => True) s.sys ∧ s.now ≤ t0 + m.gcPeriod + 2 * d ∧ latest d s.gc ≤ t0 + m.gcPeriod + 2 * d ∧ s.now ≤ latest d s.gc ∧
        (∀ u, s.gc = .asleep u → u ≤ t0 + m.gcPeriod)) ∨
    ∃ g, Has env (fun ex => g - d ≤ ex) s.sys ∧ g ≤ s.now ∧ s.now ≤ latest d s.gc ∧
      (∀ u, s.gc = .asleep u → u ≤ g + d + m.gcPeriod) ∧ (∀ w, s.gc = .working w → w ≤ g + 2 * d + m.gcPeriod)
  work : ∀ w, s.gc = .working w → w ≤ s.now

private theorem kinv_run {env : Env H} {m : Settings.Memory} {d t0 : Int} (hd : 0 ≤ d) (hp : 0 ≤ m.gcPeriod) {es : List (KEv H)} : ∀ {s s' : Kept H},
    KInv env m d t0 s → (∀ e ∈ es, OkUse env.ipStr e) → KOnTime env d m s es → krun env m s es = some s' → KInv env m d t0 s' := by
  induction es with
  | nil => intro s s' h _ _ hr; cases hr; exact h
  | cons e es ih =>
    intro s s' h hok ho hr
    obtain ⟨s1, h1, h2⟩ := krun_cons hr
    refine ih ?_ (fun x hx => hok x (by simp [hx])) (ho.2.2 s1 h1) h2
    cases e with
    | tick t =>
      have hon := (ho.1 t rfl).1
      simp only [kstep] at h1
      split at h1 <;> cases h1
      refine ⟨?_, fun w hw => by have := h.work w hw; show w ≤ t; omega⟩
      rcases h.gc with ⟨a, b, c, e, f⟩ | ⟨g, a, b, c, e, f⟩
      · exact Or.inl ⟨a, by show t ≤ _; omega, c, hon, f⟩
      · exact Or.inr ⟨g, a, by show g ≤ t; omega, hon, e, f⟩
    | use e =>
      simp only [kstep] at h1
      split at h1
      · next hu =>
        simp only [Option.map_eq_some_iff] at h1
        obtain ⟨x, h3, rfl⟩ := h1
        refine ⟨?_, h.work⟩
        have hoke := hok _ (by simp) e rfl
        rcases h.gc with ⟨a, b, c, f⟩ | ⟨g, a, b, c, f⟩
        · exact Or.inl ⟨use_has hu hoke a (fun _ _ _ _ _ _ => trivial) h3, b, c, f⟩
        · refine Or.inr ⟨g, use_has hu hoke a ?_ h3, b, c, f⟩
          intro q r t he ex hex
          have := ho.2.1 q r t (by rw [he])
          show g - d ≤ ex
          omega
      · cases h1
    | gcWakes =>
      simp only [kstep] at h1
      split at h1
      · next u hu =>
        split at h1 <;> cases h1
        refine ⟨?_, fun w hw => by cases hw; exact Int.le_refl _⟩
        rcases h.gc with ⟨a, b, c, e, f⟩ | ⟨g, a, b, c, e, f⟩
        · have h4 := f u hu
          rw [hu] at e c
          simp only [latest] at e c
          exact Or.inl ⟨a, b, by show s.now + d ≤ _; omega, by show s.now ≤ s.now + d; omega, by simp⟩
        · have h4 := e u hu
          rw [hu] at c
          simp only [latest] at c
          refine Or.inr ⟨g, a, b, by show s.now ≤ s.now + d; omega, by simp, ?_⟩
          intro w hw; cases hw; omega
      · cases h1
    | gcSweeps =>
      simp only [kstep] at h1
      split at h1
      · next g hg =>
        simp only [Option.map_eq_some_iff] at h1
        obtain ⟨x, h3, rfl⟩ := h1
        refine ⟨Or.inr ⟨g, ?_, h.work g hg, ?_, ?_, by simp⟩, by simp⟩
        · have : Has env (fun _ => True) s.sys := by
            rcases h.gc with ⟨a, _⟩ | ⟨_, a, _⟩
            · exact a
            · exact a.mono fun _ _ => trivial
          exact (gc_has this h3).mono fun x hx => by omega
        · show s.now ≤ s.now + m.gcPeriod + d; omega
        · intro u hu
          cases hu
          have : s.now ≤ g + d := by
            have : s.now ≤ latest d s.gc := by
              rcases h.gc with ⟨_, _, _, a, _⟩ | ⟨_, _, _, a, _⟩ <;> exact a
            rw [hg] at this
            exact this
          omega
      · cases h1
    | saveBegins =>
      simp only [kstep] at h1
      split at h1
      · split at h1 <;> cases h1
        exact ⟨h.gc, h.work⟩
      · cases h1
    | saved =>
      simp only [kstep] at h1
      split at h1
      · simp only [Option.map_eq_some_iff] at h1
        obtain ⟨x, h3, rfl⟩ := h1
        refine ⟨?_, h.work⟩
        rcases h.gc with ⟨a, b⟩ | ⟨g, a, b⟩
        · exact Or.inl ⟨(save_has a h3).1, b⟩
        · exact Or.inr ⟨g, (save_has a h3).1, b⟩
      · cases h1
    | saveFails =>
      simp only [kstep] at h1
      split at h1 <;> cases h1
      exact ⟨h.gc, h.work⟩

/-- **C99.** Entries leave the cache after they have expired, also if nobody asks for them: from one `gc-period` after the start on, no entry is kept for longer than that after its end.
To that come delays: `d` is the longest the program takes for something that is due. The cache may be in any state when the program starts, with a file of an earlier run, too. -/
theorem expired_entries_go (env : Env H) (hash : LruKey → H) (o : Opts) (ho : o.negativeTTL ≤ 4294967295) (cap : Int) (hist : List (CacheLives.Ev H)) (s0 : CacheLives.Sys H)
    (hhist : ∀ e ∈ hist, OkEv env.ipStr e) (h0 : CacheLives.run env (CacheLives.first hash o cap) hist = some s0)
    (m : Settings.Memory) (d t0 : Int) (hd : 0 ≤ d) (hp : 0 ≤ m.gcPeriod) (es : List (KEv H)) (hok : ∀ e ∈ es, OkUse env.ipStr e) (s : Kept H)
    (h : krun env m (startCache m t0 s0) es = some s) (hon : KOnTime env d m (startCache m t0 s0) es) (hlate : t0 + m.gcPeriod + 2 * d < s.now)
    (r : FileRec) (hr : Holds s r) : s.now ≤ r.expiry + m.gcPeriod + 4 * d := by
  have hi : KInv env m d t0 (startCache m t0 s0) := by
    refine ⟨Or.inl ⟨Props.CacheLives.reached_inv ho hhist h0, by show t0 ≤ _; omega, by show t0 + m.gcPeriod + d ≤ _; omega, by show t0 ≤ t0 + m.gcPeriod + d; omega, ?_⟩, by simp [startCache]⟩
    intro u hu; cases hu; exact Int.le_refl _
  rcases (kinv_run hd hp hi hok hon h).gc with ⟨_, a, _⟩ | ⟨g, ⟨_, es', a⟩, b, c, e, f⟩
  · omega
  · obtain ⟨recs, h1, h2⟩ := hr
    obtain ⟨recs', h3, h4⟩ := Props.CacheLives.save_good a
    rw [h1] at h3; cases h3
    obtain ⟨_, _, _, h5⟩ := h4 r h2
    have h5 : g - d ≤ r.expiry := h5
    cases hg : s.gc with
    | asleep u => have := e u hg; rw [hg] at c; simp only [latest] at c; omega
    | working w => have := f w hg; rw [hg] at c; simp only [latest] at c; omega

private theorem file_same {env : Env H} {s s' : CacheLives.Sys H} {e : CacheLives.Ev H} (he : e ≠ .save) (hs : CacheLives.step env s e = some s') : s'.file = s.file := by
  cases e with
  | save => exact absurd rfl he
  | flush => simp only [CacheLives.step, Option.some.injEq] at hs; subst hs; rfl
  | _ =>
    simp only [CacheLives.step, Option.bind_eq_bind, Option.bind_eq_some_iff, Option.pure_def, Option.some.injEq] at hs
    obtain ⟨_, _, rfl⟩ := hs
    rfl

private theorem krun_append {env : Env H} {m : Settings.Memory} {a b : List (KEv H)} : ∀ {s s1 : Kept H}, krun env m s a = some s1 → krun env m s (a ++ b) = krun env m s1 b := by
  induction a with
  | nil => intro s s1 h; cases h; rfl
  | cons e a ih =>
    intro s s1 h
    obtain ⟨s2, h1, h2⟩ := krun_cons h
    simp only [List.cons_append, krun, h1, Option.bind_some]
    exact ih h2

private structure SInv (env : Env H) (m : Settings.Memory) (d t0 : Int) (k0 : Kept H) (pre : List (KEv H)) (s : Kept H) : Prop where
  run : krun env m k0 pre = some s
  saver : ∃ p, s.saver = some p ∧ s.now ≤ latest d p ∧ (∀ w, p = .working w → w ≤ s.now) ∧
    (((∀ u, p = .asleep u → u ≤ t0 + m.saveInterval) ∧ (∀ w, p = .working w → w ≤ t0 + m.saveInterval + d)) ∨
      ∃ es1 es2 s1, pre = es1 ++ es2 ∧ krun env m k0 es1 = some s1 ∧ saveFile s1.sys.cache = some s.sys.file ∧ s1.now ≤ s.now ∧
        (∀ u, p = .asleep u → u ≤ s1.now + m.saveInterval) ∧ (∀ w, p = .working w → w ≤ s1.now + m.saveInterval + d))

private theorem sinv_run {env : Env H} {m : Settings.Memory} {d t0 : Int} (hd : 0 ≤ d) (hq : 0 ≤ m.saveInterval) {k0 : Kept H} {es : List (KEv H)} :
    ∀ {pre : List (KEv H)} {s s' : Kept H}, SInv env m d t0 k0 pre s → (∀ e ∈ es, e ≠ .saveFails) → KOnTime env d m s es → krun env m s es = some s' →
      SInv env m d t0 k0 (pre ++ es) s' := by
  induction es with
  | nil => intro pre s s' h _ _ hr; cases hr; simpa using h
  | cons e es ih =>
    intro pre s s' h hok ho hr
    obtain ⟨s1, h1, h2⟩ := krun_cons hr
    have happ : pre ++ e :: es = (pre ++ [e]) ++ es := by simp
    rw [happ]
    refine ih ?_ (fun x hx => hok x (by simp [hx])) (ho.2.2 s1 h1) h2
    have hrun : krun env m k0 (pre ++ [e]) = some s1 := by rw [krun_append h.run]; simp [krun, h1]
    refine ⟨hrun, ?_⟩
    obtain ⟨p, hp, hl, hw, hc⟩ := h.saver
    -- a step that leaves the saver and the file alone
    have keep : s1.saver = s.saver → s1.now = s.now → s1.sys.file = s.sys.file → ∃ p, s1.saver = some p ∧ s1.now ≤ latest d p ∧ (∀ w, p = .working w → w ≤ s1.now) ∧
        (((∀ u, p = .asleep u → u ≤ t0 + m.saveInterval) ∧ (∀ w, p = .working w → w ≤ t0 + m.saveInterval + d)) ∨
          ∃ es1 es2 s2, pre ++ [e] = es1 ++ es2 ∧ krun env m k0 es1 = some s2 ∧ saveFile s2.sys.cache = some s1.sys.file ∧ s2.now ≤ s1.now ∧
            (∀ u, p = .asleep u → u ≤ s2.now + m.saveInterval) ∧ (∀ w, p = .working w → w ≤ s2.now + m.saveInterval + d)) := by
      intro e1 e2 e3
      refine ⟨p, e1.trans hp, by omega, by rw [e2]; exact hw, ?_⟩
      rcases hc with hc | ⟨es1, es2, s2, g1, g2, g3, g4, g5⟩
      · exact Or.inl hc
      · exact Or.inr ⟨es1, es2 ++ [e], s2, by rw [g1]; simp, g2, by rw [e3]; exact g3, by omega, g5⟩
    cases e with
    | tick t =>
      have hon := (ho.1 t rfl).2 p hp
      simp only [kstep] at h1
      split at h1 <;> cases h1
      refine ⟨p, hp, hon, fun w hw' => by have := hw w hw'; show w ≤ t; omega, ?_⟩
      rcases hc with hc | ⟨es1, es2, s2, g1, g2, g3, g4, g5⟩
      · exact Or.inl hc
      · exact Or.inr ⟨es1, es2 ++ [.tick t], s2, by rw [g1]; simp, g2, g3, by show s2.now ≤ t; omega, g5⟩
    | use e =>
      simp only [kstep] at h1
      split at h1
      · next hu =>
        simp only [Option.map_eq_some_iff] at h1
        obtain ⟨x, h3, rfl⟩ := h1
        exact keep rfl rfl (file_same (by rintro rfl; cases hu) h3)
      · cases h1
    | gcWakes =>
      simp only [kstep] at h1
      split at h1
      · split at h1 <;> cases h1
        exact keep rfl rfl rfl
      · cases h1
    | gcSweeps =>
      simp only [kstep] at h1
      split at h1
      · simp only [Option.map_eq_some_iff] at h1
        obtain ⟨x, h3, rfl⟩ := h1
        exact keep rfl rfl (file_same (by simp) h3)
      · cases h1
    | saveBegins =>
      simp only [kstep] at h1
      split at h1
      · next u hu =>
        split at h1 <;> cases h1
        rw [hp] at hu; cases hu
        simp only [latest] at hl
        refine ⟨.working s.now, rfl, by show s.now ≤ s.now + d; omega, fun w hw => by cases hw; exact Int.le_refl _, ?_⟩
        rcases hc with ⟨a, _⟩ | ⟨es1, es2, s2, g1, g2, g3, g4, g5, _⟩
        · have := a u rfl
          exact Or.inl ⟨by simp, fun w hw => by cases hw; omega⟩
        · have := g5 u rfl
          exact Or.inr ⟨es1, es2 ++ [.saveBegins], s2, by rw [g1]; simp, g2, g3, g4, by simp, fun w hw => by cases hw; omega⟩
      · cases h1
    | saved =>
      simp only [kstep] at h1
      split at h1
      · simp only [Option.map_eq_some_iff] at h1
        obtain ⟨x, h3, rfl⟩ := h1
        simp only [CacheLives.step, Option.bind_eq_bind, Option.bind_eq_some_iff, Option.pure_def, Option.some.injEq] at h3
        obtain ⟨recs, h4, rfl⟩ := h3
        exact ⟨.asleep (s.now + m.saveInterval), rfl, by show s.now ≤ s.now + m.saveInterval + d; omega, by simp,
          Or.inr ⟨pre, [.saved], s, rfl, h.run, h4, Int.le_refl _, fun u hu => by cases hu; exact Int.le_refl _, by simp⟩⟩
      · cases h1
    | saveFails => exact absurd rfl (hok _ (by simp))

/-- **C99.** If the section has a file and a `save-interval`, the file is never older than that: from one interval after the start on, it has what the cache had at some moment not longer
ago, if saving does not fail; plus twice the longest delay `d`. -/
theorem file_fresh (env : Env H) (m : Settings.Memory) (hf : m.filename ≠ []) (hq : 0 < m.saveInterval) (d t0 : Int) (hd : 0 ≤ d) (s0 : CacheLives.Sys H) (es : List (KEv H))
    (hok : ∀ e ∈ es, e ≠ .saveFails) (s : Kept H) (h : krun env m (startCache m t0 s0) es = some s) (hon : KOnTime env d m (startCache m t0 s0) es)
    (hlate : t0 + m.saveInterval + 2 * d < s.now) :
    ∃ es1 es2 s1, es = es1 ++ es2 ∧ krun env m (startCache m t0 s0) es1 = some s1 ∧ s.now ≤ s1.now + m.saveInterval + 2 * d ∧ saveFile s1.sys.cache = some s.sys.file := by
  have hs : (startCache m t0 s0).saver = some (.asleep (t0 + m.saveInterval)) := by
    simp only [startCache]; rw [if_neg (by rintro (h | h) <;> first | exact hf h | omega)]
  have h0 : SInv env m d t0 (startCache m t0 s0) [] (startCache m t0 s0) := by
    refine ⟨rfl, _, hs, by show t0 ≤ t0 + m.saveInterval + d; omega, by simp, Or.inl ⟨?_, by simp⟩⟩
    intro u hu; cases hu; exact Int.le_refl _
  obtain ⟨_, p, hp, hl, _, hc⟩ := sinv_run hd (by omega) h0 hok hon h
  rcases hc with ⟨a, b⟩ | ⟨es1, es2, s1, g1, g2, g3, g4, g5, g6⟩
  · exfalso
    cases p with
    | asleep u => have := a u rfl; simp only [latest] at hl; omega
    | working w => have := b w rfl; simp only [latest] at hl; omega
  · refine ⟨es1, es2, s1, by simpa using g1, g2, ?_, g3⟩
    cases p with
    | asleep u => have := g5 u rfl; simp only [latest] at hl; omega
    | working w => have := g6 w rfl; simp only [latest] at hl; omega

private structure WInv (m : Settings.Memory) (t0 : Int) (s : Kept H) : Prop where
  gaps : s.saves.Pairwise (fun later earlier => earlier + m.saveInterval ≤ later)
  first : ∀ x ∈ s.saves, t0 + m.saveInterval ≤ x ∧ x ≤ s.now
  asleep : ∀ u, s.saver = some (.asleep u) → t0 + m.saveInterval ≤ u ∧ ∀ x ∈ s.saves, x + m.saveInterval ≤ u
  working : ∀ w, s.saver = some (.working w) → t0 + m.saveInterval ≤ w ∧ w ≤ s.now ∧ ∀ x ∈ s.saves, x + m.saveInterval ≤ w
  start : t0 ≤ s.now

private theorem winv_step {env : Env H} {m : Settings.Memory} {t0 : Int} {s s' : Kept H} {e : KEv H} (h : WInv m t0 s) (hs : kstep env m s e = some s') : WInv m t0 s' := by
  have keep : s'.saves = s.saves → s'.saver = s.saver → s'.now = s.now → WInv m t0 s' := by
    intro e1 e2 e3
    exact ⟨by rw [e1]; exact h.gaps, by rw [e1, e3]; exact h.first, by rw [e1, e2]; exact h.asleep, by rw [e1, e2, e3]; exact h.working, by rw [e3]; exact h.start⟩
  cases e with
  | tick t =>
    simp only [kstep] at hs
    split at hs <;> cases hs
    exact ⟨h.gaps, fun x hx => ⟨(h.first x hx).1, by have := (h.first x hx).2; show x ≤ t; omega⟩, h.asleep,
      fun w hw => ⟨(h.working w hw).1, by have := (h.working w hw).2.1; show w ≤ t; omega, (h.working w hw).2.2⟩, by have := h.start; show t0 ≤ t; omega⟩
  | use e =>
    simp only [kstep] at hs
    split at hs
    · simp only [Option.map_eq_some_iff] at hs
      obtain ⟨x, h3, rfl⟩ := hs
      exact keep rfl rfl rfl
    · cases hs
  | gcWakes =>
    simp only [kstep] at hs
    split at hs
    · split at hs <;> cases hs
      exact keep rfl rfl rfl
    · cases hs
  | gcSweeps =>
    simp only [kstep] at hs
    split at hs
    · simp only [Option.map_eq_some_iff] at hs
      obtain ⟨x, h3, rfl⟩ := hs
      exact keep rfl rfl rfl
    · cases hs
  | saveBegins =>
    simp only [kstep] at hs
    split at hs
    · next u hu =>
      split at hs <;> cases hs
      obtain ⟨a, b⟩ := h.asleep u hu
      refine ⟨h.gaps, h.first, by simp, ?_, h.start⟩
      intro w hw
      cases hw
      exact ⟨by omega, Int.le_refl _, fun x hx => by have := b x hx; omega⟩
    · cases hs
  | saved =>
    simp only [kstep] at hs
    split at hs
    · next w hw =>
      simp only [Option.map_eq_some_iff] at hs
      obtain ⟨x, h3, rfl⟩ := hs
      obtain ⟨a, b, c⟩ := h.working w hw
      have hst := h.start
      refine ⟨List.pairwise_cons.mpr ⟨fun x hx => by have := c x hx; omega, h.gaps⟩, ?_, ?_, by simp, h.start⟩
      · intro x hx
        rcases List.mem_cons.mp hx with rfl | hx
        · exact ⟨by omega, Int.le_refl _⟩
        · exact h.first x hx
      · intro u hu
        cases hu
        refine ⟨by omega, fun x hx => ?_⟩
        rcases List.mem_cons.mp hx with rfl | hx
        · exact Int.le_refl _
        · have := (h.first x hx).2; omega
    · cases hs
  | saveFails =>
    simp only [kstep] at hs
    split at hs <;> cases hs
    have hst := h.start
    refine ⟨h.gaps, h.first, ?_, by simp, h.start⟩
    intro u hu
    cases hu
    exact ⟨by omega, fun x hx => by have := (h.first x hx).2; omega⟩

/-- **C99.** The file is not written more often than configured: first one `save-interval` after the start, then at least that far apart. -/
theorem file_not_too_often (env : Env H) (m : Settings.Memory) (t0 : Int) (s0 : CacheLives.Sys H) (es : List (KEv H)) (s : Kept H)
    (h : krun env m (startCache m t0 s0) es = some s) :
    (∀ x ∈ s.saves, t0 + m.saveInterval ≤ x) ∧ s.saves.Pairwise (fun later earlier => earlier + m.saveInterval ≤ later) := by
  have h0 : WInv m t0 (startCache m t0 s0) := by
    refine ⟨List.Pairwise.nil, by simp [startCache], ?_, ?_, Int.le_refl _⟩
    · intro u hu
      simp only [startCache] at hu
      split at hu <;> cases hu
      exact ⟨Int.le_refl _, by simp [startCache]⟩
    · intro w hw
      simp only [startCache] at hw
      split at hw <;> cases hw
  have key : ∀ (es : List (KEv H)) (a : Kept H), WInv m t0 a → krun env m a es = some s → WInv m t0 s := by
    intro es
    induction es with
    | nil => intro a ha hr; cases hr; exact ha
    | cons e es ih =>
      intro a ha hr
      obtain ⟨s1, h1, h2⟩ := krun_cons hr
      exact ih s1 (winv_step ha h1) h2
  have := key es _ h0 h
  exact ⟨fun x hx => (this.first x hx).1, this.gaps⟩

/-- **C99.** Without a file or without a `save-interval`, the cache is not saved while the program runs. -/
theorem file_only_at_end (env : Env H) (m : Settings.Memory) (hm : m.filename = [] ∨ m.saveInterval = 0) (t0 : Int) (s0 : CacheLives.Sys H) (es : List (KEv H)) (s : Kept H)
    (h : krun env m (startCache m t0 s0) es = some s) : s.sys.file = s0.file := by
  have key : ∀ (es : List (KEv H)) (a : Kept H), a.saver = none → krun env m a es = some s → s.sys.file = a.sys.file := by
    intro es
    induction es with
    | nil => intro a ha hr; cases hr; rfl
    | cons e es ih =>
      intro a ha hr
      obtain ⟨s1, h1, h2⟩ := krun_cons hr
      have hk : s1.saver = none ∧ s1.sys.file = a.sys.file := by
        cases e with
        | tick t => simp only [kstep] at h1; split at h1 <;> cases h1; exact ⟨ha, rfl⟩
        | use e =>
          simp only [kstep] at h1
          split at h1
          · next hu =>
            simp only [Option.map_eq_some_iff] at h1
            obtain ⟨x, h3, rfl⟩ := h1
            exact ⟨ha, file_same (by rintro rfl; cases hu) h3⟩
          · cases h1
        | gcWakes =>
          simp only [kstep] at h1
          split at h1
          · split at h1 <;> cases h1
            exact ⟨ha, rfl⟩
          · cases h1
        | gcSweeps =>
          simp only [kstep] at h1
          split at h1
          · simp only [Option.map_eq_some_iff] at h1
            obtain ⟨x, h3, rfl⟩ := h1
            exact ⟨ha, file_same (by simp) h3⟩
          · cases h1
        | saveBegins => simp [kstep, ha] at h1
        | saved => simp [kstep, ha] at h1
        | saveFails => simp [kstep, ha] at h1
      exact (ih s1 hk.1 h2).trans hk.2
  exact key es _ (by simp [startCache, hm]) h

/-- Finding: a negative `save-interval` is accepted, and the file is then written again and again without a pause: any number of saves can follow each other at the same time. -/
theorem negative_interval_never_rests (env : Env H) (m : Settings.Memory) (hf : m.filename ≠ []) (hq : m.saveInterval < 0) (t0 : Int) (s0 : CacheLives.Sys H)
    (hs0 : (saveFile s0.cache).isSome = true) (n : Nat) :
    ∃ es s, krun env m (startCache m t0 s0) es = some s ∧ s.now = t0 ∧ n ≤ s.saves.length := by
  have key : ∃ es s, krun env m (startCache m t0 s0) es = some s ∧ s.now = t0 ∧ n = s.saves.length ∧ s.sys.cache = s0.cache ∧ ∃ u, s.saver = some (.asleep u) ∧ u ≤ t0 := by
    induction n with
    | zero =>
      refine ⟨[], startCache m t0 s0, rfl, rfl, rfl, rfl, t0 + m.saveInterval, ?_, by omega⟩
      simp only [startCache]; rw [if_neg (by rintro (h | h) <;> first | exact hf h | omega)]
    | succ n ih =>
      obtain ⟨es, s, h1, h2, h3, h4, u, h5, h6⟩ := ih
      obtain ⟨recs, hr⟩ := Option.isSome_iff_exists.mp hs0
      refine ⟨es ++ [.saveBegins, .saved], { s with sys := { s.sys with file := recs }, saver := some (.asleep (s.now + m.saveInterval)), saves := s.now :: s.saves }, ?_, h2, ?_, h4,
        s.now + m.saveInterval, rfl, by omega⟩
      · rw [krun_append h1]
        simp [krun, kstep, h5, show u ≤ s.now by omega, CacheLives.step, h4, hr]
      · show n + 1 = (s.now :: s.saves).length
        simp [h3]
  obtain ⟨es, s, h1, h2, h3, _⟩ := key
  exact ⟨es, s, h1, h2, by omega⟩

section Examples

/-- A list that is reloaded every ten seconds. The second reload begins a second late and takes two. -/
private def exList : List (LEv Int) := [.tick 10, .begin, .tick 12, .swap 11, .tick 23, .begin, .tick 25, .swap 24, .tick 30]

example : (lrun 10 (startList 10 0 (0 : Int)) exList).map (fun s => (s.now, s.list, s.begun)) = some (30, 24, [23, 10]) := by decide
example : OnTime 2 10 (startList 10 0 (0 : Int)) exList := by simp [OnTime, exList, startList, lstep, latest]
example : Faithful (fun x => x) 10 (startList 10 0 (0 : Int)) exList := by simp [Faithful, exList, startList, lstep]
example : (lstep 10 (⟨7, some (.working 5), 3, []⟩ : Reloaded Int) .fail).isSome = true := by decide
example : (lrun 0 (startList 0 0 (0 : Int)) [.tick 1000]).map (·.list) = some 0 := by decide

private def exEnv : Env Nat where
  ipStr a := 49 :: a
  hash _ := 7
  encode m := some [m.rcode.toUInt8, (m.answer.map (fun r => r.ttl.toUInt8)).headD 0]
  decode w := match w with
    | [r, t] => some { rcode := r.toNat, response := true,
                       answer := if t = 0 then [] else [{ name := [97], rtype := 1, cls := 1, ttl := t.toNat, data := .a [1, 2, 3, 4] }] }
    | _ => none

private def exHash (k : LruKey) : Nat := k.name.length
private def exQ (name : String) : Msg := { id := 5, question := [{ name := str name, qtype := 1, qclass := 1 }] }
private def exA (ttl : Nat) : Msg := { response := true, answer := [{ name := [97], rtype := 1, cls := 1, ttl := ttl, data := .a [1, 2, 3, 4] }] }
private def exT : Int := 1700000000000000000
private def secs (n : Int) : Int := n * 1000000000
private def exM : Settings.Memory := ⟨10, secs 60, str "cache.json", secs 30⟩

/-- Two responses are stored, of 20 and 200 seconds; the cache is saved every 30 seconds and looked through every 60. -/
private def exRun : List (KEv Nat) :=
  [.use (.store (exQ "a.b.") (exA 20) exT), .use (.store (exQ "c.") (exA 200) exT), .tick (exT + secs 30), .saveBegins, .saved, .tick (exT + secs 60), .saveBegins, .saved, .gcWakes, .gcSweeps,
    .tick (exT + secs 61)]

example : (krun exEnv exM (startCache exM exT (CacheLives.first exHash {} 10)) exRun).map (fun s => ((saveFile s.sys.cache).map List.length, s.sys.file.length, s.saves)) =
    some (some 1, 2, [exT + secs 60, exT + secs 30]) := by decide
example : exM.filename ≠ [] ∧ 0 < exM.saveInterval ∧ 0 ≤ exM.gcPeriod ∧ exT + exM.gcPeriod < exT + secs 61 ∧ ∀ e ∈ exRun, e ≠ .saveFails := by
  refine ⟨by decide, by decide, by decide, by decide, ?_⟩
  simp [exRun]

private def onTime (d : Int) : Kept Nat → List (KEv Nat) → Bool
  | _, [] => true
  | s, e :: es => (match e with
      | .tick t => t ≤ latest d s.gc && (match s.saver with | some p => decide (t ≤ latest d p) | none => true)
      | .use (.store _ _ t) => decide (s.now ≤ t + d)
      | _ => true) && (match kstep exEnv exM s e with | some s' => onTime d s' es | none => true)

private theorem onTime_sound {d : Int} {es : List (KEv Nat)} : ∀ {s : Kept Nat}, onTime d s es = true → KOnTime exEnv d exM s es := by
  induction es with
  | nil => intro _ _; trivial
  | cons e es ih =>
    intro s h
    simp only [onTime, Bool.and_eq_true] at h
    obtain ⟨h1, h2⟩ := h
    refine ⟨?_, ?_, ?_⟩
    · rintro t rfl
      simp only [Bool.and_eq_true, decide_eq_true_eq] at h1
      exact ⟨h1.1, fun p hp => by have := h1.2; rw [hp] at this; simpa using this⟩
    · rintro q r t rfl
      simpa using h1
    · intro s' hs
      rw [hs] at h2
      exact ih h2

example : KOnTime exEnv 0 exM (startCache exM exT (CacheLives.first exHash {} 10)) exRun := onTime_sound (by decide)

example : ∀ e ∈ exRun, OkUse exEnv.ipStr e := by
  intro e he x hx
  subst hx
  have hw : ∀ n, Props.Cache.WellFormed exEnv.ipStr (exQ n) := fun n => ⟨by simp [exQ], by simp [exQ], by intro x hx; simp [Spec.Cache.subnet, exQ, Msg.edns?] at hx⟩
  simp only [exRun, List.mem_cons, List.not_mem_nil, or_false, KEv.use.injEq, reduceCtorEq] at he
  have ht : Props.Cache.SaneTime exT := by unfold Props.Cache.SaneTime exT; omega
  rcases he with rfl | rfl <;> exact ⟨fun _ _ _ h => by cases h; exact ⟨hw _, ht⟩, by simp, by simp, by simp⟩

end Examples

end Verif.Props.Upkeep
