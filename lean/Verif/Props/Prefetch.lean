/-
C61: prefetch.
-/
import Verif.Model.Prefetch
import Verif.Spec.Prefetch
set_option linter.unusedSimpArgs false
namespace Verif.Props.Prefetch
open Verif Verif.CacheM Verif.Prefetch Verif.Spec.Prefetch

private theorem minTTL_acc : ∀ (l : List RR) (acc : Nat × Bool),
    let v := l.foldl (fun acc (a : RR) => if a.isOpt then acc else if a.ttl < acc.1 then (a.ttl, true) else acc) acc
    v.1 ≤ acc.1 ∧ (∀ r, r ∈ l → r.isOpt = false → v.1 ≤ r.ttl) ∧ (v = acc ∨ (v.2 = true ∧ ∃ r, r ∈ l ∧ r.isOpt = false ∧ v.1 = r.ttl))
  | [], acc => by simp
  | a :: l, acc => by
    simp only [List.foldl_cons]
    have := minTTL_acc l (if a.isOpt then acc else if a.ttl < acc.1 then (a.ttl, true) else acc)
    simp only at this
    generalize hv : List.foldl _ _ l = v at *
    obtain ⟨h1, h2, h3⟩ := this
    cases ho : a.isOpt with
    | true =>
      rw [ho] at h1 h3
      simp only [if_true] at h1 h3
      refine ⟨h1, ?_, ?_⟩
      · intro r hr hf
        rcases List.mem_cons.mp hr with rfl | hr
        · rw [ho] at hf; cases hf
        · exact h2 r hr hf
      · rcases h3 with h3 | ⟨h3, r, h4, h5⟩
        · exact .inl h3
        · exact .inr ⟨h3, r, List.mem_cons_of_mem _ h4, h5⟩
    | false =>
      rw [ho] at h1 h3
      simp only [Bool.false_eq_true, if_false] at h1 h3
      by_cases hlt : a.ttl < acc.1
      · rw [if_pos hlt] at h1 h3
        simp only at h1
        refine ⟨by omega, ?_, ?_⟩
        · intro r hr hf
          rcases List.mem_cons.mp hr with rfl | hr
          · exact h1
          · exact h2 r hr hf
        · rcases h3 with h3 | ⟨h3, r, h4, h5⟩
          · exact .inr ⟨by rw [h3], a, by simp, ho, by rw [h3]⟩
          · exact .inr ⟨h3, r, List.mem_cons_of_mem _ h4, h5⟩
      · rw [if_neg hlt] at h1 h3
        refine ⟨h1, ?_, ?_⟩
        · intro r hr hf
          rcases List.mem_cons.mp hr with rfl | hr
          · omega
          · exact h2 r hr hf
        · rcases h3 with h3 | ⟨h3, r, h4, h5⟩
          · exact .inl h3
          · exact .inr ⟨h3, r, List.mem_cons_of_mem _ h4, h5⟩

/-- a usable response is a good one -/
private theorem usable_good (up : Res) (h : usable up = true) : Good up := by
  obtain ⟨m, e⟩ := up
  cases e with
  | some e => simp [usable] at h
  | none =>
    cases m with
    | none => simp [usable] at h
    | some a =>
      simp only [usable, Bool.and_eq_true, decide_eq_true_eq, Bool.not_eq_true', decide_eq_false_iff_not] at h
      obtain ⟨⟨⟨h1, h2⟩, h3⟩, h4⟩ := h
      have hm := minTTL_acc a.records (maxUint32, false)
      simp only at hm
      obtain ⟨_, h5, h6⟩ := hm
      have hdef : minTTL a = List.foldl (fun acc (a : RR) => if a.isOpt then acc else if a.ttl < acc.1 then (a.ttl, true) else acc)
        (maxUint32, false) a.records := rfl
      rw [← hdef] at h5 h6
      refine ⟨rfl, a, rfl, h1, h2, ?_, ?_⟩
      · rcases h6 with h6 | ⟨_, r, h7, h8, _⟩
        · rw [h6] at h3; cases h3
        · exact ⟨r, h7, h8⟩
      · intro r hr ho
        have := h5 r hr ho
        omega

private theorem lookup_put {α} (m : List (Str × α)) (k k' : Str) (v : α) :
    (put m k v).lookup k' = if k' = k then some v else m.lookup k' := by
  unfold put
  rw [List.lookup_cons]
  by_cases h : k' = k
  · subst h; simp
  · have : (k' == k) = false := by simpa using h
    rw [this, if_neg h]
    simp only
    induction m with
    | nil => rfl
    | cons e m ih =>
      obtain ⟨a, b⟩ := e
      by_cases ha : a = k
      · subst ha
        rw [List.filter_cons]
        simp only [ne_eq, not_true_eq_false, decide_false, Bool.false_eq_true, if_false, List.lookup_cons, this]
        exact ih
      · rw [List.filter_cons]
        simp only [ne_eq, ha, not_false_eq_true, decide_true, if_true, List.lookup_cons]
        cases k' == a with
        | true => rfl
        | false => exact ih

private theorem lookup_del {α} (m : List (Str × α)) (k k' : Str) (v : α) (h : (del m k).lookup k' = some v) : m.lookup k' = some v := by
  unfold del at h
  induction m with
  | nil => exact h
  | cons e m ih =>
    obtain ⟨a, b⟩ := e
    rw [List.filter_cons] at h
    by_cases ha : a = k
    · subst ha
      simp only [ne_eq, not_true_eq_false, decide_false, Bool.false_eq_true, if_false] at h
      have h1 := ih h
      rw [List.lookup_cons]
      by_cases hk : k' = a
      · subst hk
        exfalso
        clear ih h1
        induction m with
        | nil => simp at h
        | cons e m ih =>
          obtain ⟨c, d⟩ := e
          rw [List.filter_cons] at h
          by_cases hc : c = k'
          · simp only [hc, ne_eq, not_true_eq_false, decide_false, Bool.false_eq_true, if_false] at h
            exact ih h
          · simp only [hc, ne_eq, not_false_eq_true, decide_true, if_true, List.lookup_cons] at h
            have : (k' == c) = false := by simpa using fun e => hc e.symm
            rw [this] at h
            exact ih h
      · have : (k' == a) = false := by simpa using hk
        rw [this]; exact h1
    · simp only [ne_eq, ha, not_false_eq_true, decide_true, if_true, List.lookup_cons] at h
      rw [List.lookup_cons]
      cases hk : k' == a with
      | true => rw [hk] at h; exact h
      | false => rw [hk] at h; exact ih h

/-- successive times are less than a window apart -/
def Dense (w : Int) (ts : List (Msg × Int)) : Prop := ∀ (i : Nat) (a b : Msg × Int), ts[i]? = some a → ts[i + 1]? = some b → b.2 < a.2 + w

private structure Inv (keyOf : Msg → Str) (o : Options) (evs : List Ev) (s : State) : Prop where
  cnt : ∀ k c, s.names.lookup k = some c → ∃ ts last, List.Sublist ts (asked keyOf k evs) ∧ ts.length = c.count ∧ Dense o.window ts ∧
    ts.getLast? = some last ∧ c.expiry = last.2 + o.window
  qry : ∀ k q, s.queries.lookup k = some q → ∃ now, (q, now) ∈ asked keyOf k evs

private theorem asked_append (keyOf : Msg → Str) (k : Str) (a b : List Ev) : asked keyOf k (a ++ b) = asked keyOf k a ++ asked keyOf k b := by
  unfold asked; rw [List.filterMap_append]

private theorem dense_snoc (w : Int) (ts : List (Msg × Int)) (last x : Msg × Int) (h : Dense w ts) (hl : ts.getLast? = some last) (hx : x.2 < last.2 + w) :
    Dense w (ts ++ [x]) := by
  intro i a b ha hb
  have hi : i + 1 < ts.length + 1 := by
    rcases Nat.lt_or_ge (i + 1) (ts.length + 1) with h | h
    · exact h
    · rw [List.getElem?_eq_none (by simpa using h)] at hb; cases hb
  rw [List.getElem?_append_left (by omega)] at ha
  by_cases hlt : i + 1 < ts.length
  · rw [List.getElem?_append_left hlt] at hb
    exact h i a b ha hb
  · have hi2 : i + 1 = ts.length := by omega
    rw [List.getElem?_append_right (by omega), hi2] at hb
    simp only [Nat.sub_self, List.getElem?_cons_zero, Option.some.injEq] at hb
    rw [List.getLast?_eq_getElem?] at hl
    have : ts.length - 1 = i := by omega
    rw [this, ha] at hl
    cases hl; subst hb; exact hx

private theorem inv_step (keyOf : Msg → Str) (o : Options) (evs : List Ev) (s : State) (e : Ev) (h : Inv keyOf o evs s) :
    Inv keyOf o (evs ++ [e]) (step keyOf o s e).1 := by
  have same : ∀ e k, (∀ q up now, e ≠ .query q up now) → asked keyOf k (evs ++ [e]) = asked keyOf k evs := by
    intro e k he
    rw [asked_append]
    cases e with
    | query q up now => exact absurd rfl (he q up now)
    | _ => simp [asked]
  have keep : ∀ e s', (∀ q up now, e ≠ .query q up now) → (∀ k c, s'.names.lookup k = some c → s.names.lookup k = some c) →
      (∀ k q, s'.queries.lookup k = some q → s.queries.lookup k = some q) → Inv keyOf o (evs ++ [e]) s' := by
    intro e s' he h1 h2
    refine ⟨?_, ?_⟩
    · intro k c hc; rw [same e k he]; exact h.cnt k c (h1 k c hc)
    · intro k q hq; rw [same e k he]; exact h.qry k q (h2 k q hq)
  cases e with
  | loseName k => exact keep _ _ (by simp) (fun k' c => lookup_del _ _ _ _) (fun _ _ h => h)
  | loseQuery k => exact keep _ _ (by simp) (fun _ _ h => h) (fun k' c => lookup_del _ _ _ _)
  | expired k up now =>
    have hd := keep (.expired k up now) { s with queries := del s.queries k } (by simp) (fun _ _ h => h) (fun k' c => lookup_del _ _ _ _)
    simp only [step]
    split
    · split
      · exact hd
      · split
        · exact keep _ _ (by simp) (fun _ _ h => h) (fun _ _ h => h)
        · exact hd
    · exact hd
  | query q up now =>
    have mono : ∀ k, List.Sublist (asked keyOf k evs) (asked keyOf k (evs ++ [.query q up now])) := fun k => by
      rw [asked_append]; exact List.sublist_append_left _ _
    have old : ∀ k c, s.names.lookup k = some c → ∃ ts last, List.Sublist ts (asked keyOf k (evs ++ [.query q up now])) ∧ ts.length = c.count ∧
        Dense o.window ts ∧ ts.getLast? = some last ∧ c.expiry = last.2 + o.window := by
      intro k c hc
      obtain ⟨ts, last, h1, h2⟩ := h.cnt k c hc
      exact ⟨ts, last, h1.trans (mono k), h2⟩
    have oldq : ∀ k q', s.queries.lookup k = some q' → ∃ t, (q', t) ∈ asked keyOf k (evs ++ [.query q up now]) := by
      intro k q' hq
      obtain ⟨t, ht⟩ := h.qry k q' hq
      exact ⟨t, (mono k).subset ht⟩
    simp only [step]
    cases hu : usable up with
    | false => exact ⟨old, oldq⟩
    | true =>
      have hnew : asked keyOf (keyOf q) (evs ++ [.query q up now]) = asked keyOf (keyOf q) evs ++ [(q, now)] := by
        rw [asked_append]
        congr 1
        simp [asked, usable_good up hu]
      have cnt : ∀ k c, (put s.names (keyOf q) ⟨nextCount s (keyOf q) now, now + o.window⟩).lookup k = some c →
          ∃ ts last, List.Sublist ts (asked keyOf k (evs ++ [.query q up now])) ∧ ts.length = c.count ∧
            Dense o.window ts ∧ ts.getLast? = some last ∧ c.expiry = last.2 + o.window := by
        intro k c hc
        rw [lookup_put] at hc
        split at hc
        · next hk =>
          subst hk
          simp only [Option.some.injEq] at hc
          subst hc
          rw [hnew]
          unfold nextCount
          cases hg : getCounter s (keyOf q) now with
          | none => exact ⟨[(q, now)], (q, now), List.sublist_append_right _ _, rfl, by intro i a b _ hb; simp at hb, rfl, rfl⟩
          | some c =>
            unfold getCounter at hg
            cases hl : s.names.lookup (keyOf q) with
            | none => rw [hl] at hg; cases hg
            | some c' =>
              rw [hl] at hg
              simp only at hg
              split at hg
              · next hlt =>
                cases hg
                obtain ⟨ts, last, h1, h2, h3, h4, h5⟩ := h.cnt _ _ hl
                exact ⟨ts ++ [(q, now)], (q, now), h1.append (List.Sublist.refl _), by simp [h2], dense_snoc _ _ _ _ h3 h4 (by simpa [h5] using hlt),
                  by simp, rfl⟩
              · cases hg
        · exact old k c hc
      simp only [Bool.not_true, Bool.false_eq_true, if_false]
      split
      · refine ⟨cnt, ?_⟩
        intro k q' hq
        simp only at hq
        rw [lookup_put] at hq
        split at hq
        · next hk =>
          subst hk
          simp only [Option.some.injEq] at hq
          subst hq
          exact ⟨now, by rw [hnew]; simp⟩
        · exact oldq k q' hq
      · exact ⟨cnt, oldq⟩

private theorem inv_run (keyOf : Msg → Str) (o : Options) (evs : List Ev) : Inv keyOf o evs (run keyOf o evs) := by
  have gen : ∀ (b a : List Ev) (s : State), Inv keyOf o a s → Inv keyOf o (a ++ b) (b.foldl (fun s e => (step keyOf o s e).1) s) := by
    intro b
    induction b with
    | nil => intro a s h; simpa using h
    | cons e b ih =>
      intro a s h
      have := ih (a ++ [e]) _ (inv_step keyOf o a s e h)
      simpa using this
  exact gen evs [] {} ⟨by simp, by simp⟩

/-- C61: whatever happened before, a query repeated by prefetch is one that a client asked, and clients asked under its key at least `threshold` times with good
responses, each less than a window after the one before, the last less than a window ago. -/
theorem prefetch_only_frequent (keyOf : Msg → Str) (o : Options) (evs : List Ev) (k : Str) (up : Res) (now : Int) (q : Msg)
    (h : (step keyOf o (run keyOf o evs) (.expired k up now)).2 = some q) :
    (∃ t, (q, t) ∈ asked keyOf k evs) ∧
    ∃ ts last, List.Sublist ts (asked keyOf k evs) ∧ o.threshold ≤ ts.length ∧ Dense o.window ts ∧
      ts.getLast? = some last ∧ now < last.2 + o.window := by
  have hi := inv_run keyOf o evs
  generalize run keyOf o evs = s at *
  simp only [step] at h
  cases hg : getCounter s k now with
  | none => rw [hg] at h; simp at h
  | some c =>
    cases hq : s.queries.lookup k with
    | none => rw [hg, hq] at h; simp at h
    | some q' =>
      rw [hg, hq] at h
      simp only at h
      by_cases hlt : c.count < o.threshold
      · rw [if_pos hlt] at h; cases h
      · rw [if_neg hlt] at h
        have hqq : q' = q := by
          split at h <;> simpa using h
        subst hqq
        refine ⟨hi.qry k q' hq, ?_⟩
        unfold getCounter at hg
        cases hl : s.names.lookup k with
        | none => rw [hl] at hg; cases hg
        | some c' =>
          rw [hl] at hg
          simp only at hg
          split at hg
          · next hn =>
            cases hg
            obtain ⟨ts, last, h1, h2, h3, h4, h5⟩ := hi.cnt _ _ hl
            exact ⟨ts, last, h1, by omega, h3, h4, by omega⟩
          · cases hg

/-- C61: unless configured otherwise, that is five queries and an hour. -/
theorem prefetch_defaults (keyOf : Msg → Str) (o : Options) (evs : List Ev) (k : Str) (up : Res) (now : Int) (q : Msg)
    (h : (step keyOf o.withDefaults (run keyOf o.withDefaults evs) (.expired k up now)).2 = some q) :
    ∃ ts last, List.Sublist ts (asked keyOf k evs) ∧ (o.threshold = 0 → 5 ≤ ts.length) ∧ o.threshold ≤ ts.length ∧
      ts.getLast? = some last ∧ (o.window = 0 → Dense 3600 ts ∧ now < last.2 + 3600) ∧
      (o.window ≠ 0 → Dense o.window ts ∧ now < last.2 + o.window) := by
  obtain ⟨_, ts, last, h1, h2, h3, h4, h5⟩ := prefetch_only_frequent keyOf o.withDefaults evs k up now q h
  refine ⟨ts, last, h1, fun h0 => ?_, ?_, h4, fun h0 => ?_, fun h0 => ?_⟩
  · simpa [Options.withDefaults, h0] using h2
  · by_cases h0 : o.threshold = 0
    · rw [h0]; exact Nat.zero_le _
    · simpa [Options.withDefaults, h0] using h2
  · simp only [Options.withDefaults, h0, if_true] at h3 h5
    exact ⟨h3, h5⟩
  · simp only [Options.withDefaults, h0, if_false] at h3 h5
    exact ⟨h3, h5⟩

/-- C61: client queries, evictions never send anything. -/
theorem prefetch_only_on_expiry (keyOf : Msg → Str) (o : Options) (s : State) (e : Ev) (q : Msg) (h : (step keyOf o s e).2 = some q) :
    ∃ k up now, e = .expired k up now := by
  cases e with
  | expired k up now => exact ⟨k, up, now, rfl⟩
  | loseName k => cases h
  | loseQuery k => cases h
  | query q' up now =>
    simp only [step] at h
    repeat' split at h
    all_goals cases h

/-- C61: a response that cannot be used ends the repetition: the query is forgotten until clients ask again. -/
theorem prefetch_stops (keyOf : Msg → Str) (o : Options) (s : State) (k : Str) (up : Res) (now : Int) (h : usable up = false) :
    (step keyOf o s (.expired k up now)).1.queries.lookup k = none := by
  have hd : ∀ m : List (Str × Msg), (del m k).lookup k = none := by
    intro m
    induction m with
    | nil => rfl
    | cons e m ih =>
      obtain ⟨a, b⟩ := e
      unfold del at *
      rw [List.filter_cons]
      by_cases ha : a = k
      · simp only [ha, ne_eq, not_true_eq_false, decide_false, Bool.false_eq_true, if_false]; simpa using ih
      · simp only [ha, ne_eq, not_false_eq_true, decide_true, if_true, List.lookup_cons]
        have : (k == a) = false := by simpa using fun e => ha e.symm
        rw [this]; simpa using ih
  simp only [step]
  split
  · split
    · exact hd _
    · rw [if_neg (by rw [h]; decide)]; exact hd _
  · exact hd _

private def okRes : Res := .ok { answer := [{ name := str "a.", rtype := 1, cls := 1, ttl := 60, data := .a [1, 2, 3, 4] }] }
private def qm : Msg := { question := [⟨str "a.", 1, 1⟩] }
private def key1 : Msg → Str := fun _ => str "k"

/-- two good queries and a threshold of two: repeated at expiry; with one it is not; and not when the last is too long ago -/
example : (step key1 ⟨3600, 2⟩ (run key1 ⟨3600, 2⟩ [.query qm okRes 0, .query qm okRes 100]) (.expired (str "k") okRes 160)).2 = some qm ∧
    (step key1 ⟨3600, 2⟩ (run key1 ⟨3600, 2⟩ [.query qm okRes 0]) (.expired (str "k") okRes 160)).2 = none ∧
    (step key1 ⟨3600, 2⟩ (run key1 ⟨3600, 2⟩ [.query qm okRes 0, .query qm okRes 100]) (.expired (str "k") okRes 3700)).2 = none := by decide

/-- Finding: the window slides with every query, so the threshold is reached by queries spread over any length of time: here 5 queries, one almost every hour. -/
theorem prefetch_window_slides : ∃ evs, evs = [Ev.query qm okRes 0, .query qm okRes 3599, .query qm okRes 7198, .query qm okRes 10797, .query qm okRes 14396] ∧
    (step key1 (Options.withDefaults ⟨0, 0⟩) (run key1 (Options.withDefaults ⟨0, 0⟩) evs) (.expired (str "k") okRes 14456)).2 = some qm :=
  ⟨_, rfl, by decide⟩

end Verif.Props.Prefetch
