import Verif.Spec.RedisFlush
/-
C83: emptying the Redis cache.
-/
namespace Verif.Props.RedisFlush
open Verif Verif.RedisFlush Verif.Spec.RedisFlush
set_option linter.unusedSimpArgs false
set_option linter.unusedVariables false

/-- A prefix without special bytes followed by `*` matches the keys with that prefix. -/
theorem pattern_matches_prefix (m : Str → Str → Prop) (hm : Glob m) (pre k : Str) (hp : ∀ c ∈ pre, ¬ Special c) :
    m (pre ++ [star]) k ↔ HasPrefix pre k := by
  induction pre generalizing k with
  | nil => exact ⟨fun _ => ⟨k, rfl⟩, fun _ => hm.star k⟩
  | cons c pre ih =>
    rw [List.cons_append, hm.literal c _ k (hp c (by simp))]
    constructor
    · rintro ⟨r, rfl, h⟩
      obtain ⟨x, rfl⟩ := (ih r (fun d hd => hp d (by simp [hd]))).mp h
      exact ⟨x, rfl⟩
    · rintro ⟨x, rfl⟩
      exact ⟨pre ++ x, rfl, (ih _ (fun d hd => hp d (by simp [hd]))).mpr ⟨x, rfl⟩⟩

private theorem run_append (pre : Str) (es es' : List Ev) : ∀ (s : Sys), run pre s (es ++ es') = (run pre s es).bind (run pre · es') := by
  induction es with
  | nil => intro s; rfl
  | cons e es ih =>
    intro s
    simp only [List.cons_append, run]
    cases step pre s e with
    | none => rfl
    | some s1 => simp [ih]

/-- Where the next command of the flush comes from. -/
private def Flow (pat : Str) (s : Sys) (es : List Ev) : Prop :=
  match s.ph with
  | .scanning c => Iteration pat c es
  | .deleting _ next => Iteration pat next es
  | _ => True

/-- A flush that is over sends nothing any more. -/
private theorem over_iteration (pre : Str) (es : List Ev) : ∀ (s s' : Sys), (s.ph = .done ∨ s.ph = .failed) → run pre s es = some s' →
    ∀ (pat : Str) (c : Nat), Iteration pat c es := by
  induction es with
  | nil => intros; trivial
  | cons e es ih =>
    intro s s' hd hr pat c
    obtain ⟨s1, h1, h2⟩ := Option.bind_eq_some_iff.mp hr
    rcases hd with hd | hd <;> cases e <;> simp only [step, hd, Option.some.injEq, reduceCtorEq] at h1
    all_goals (subst h1; exact ih _ _ (by simp [hd]) h2 pat c)

private theorem batch_flow (pre : Str) (next : Nat) (s s' : Sys) (es : List Ev) (hp : s.ph = afterBatch next)
    (hr : run pre s es = some s') (hf : Flow (pre ++ [star]) s es) : Iteration (pre ++ [star]) next es := by
  unfold afterBatch at hp
  by_cases hn : next = 0
  · rw [if_pos hn] at hp
    exact over_iteration pre es s s' (.inl hp) hr _ _
  · rw [if_neg hn] at hp
    unfold Flow at hf
    rw [hp] at hf
    exact hf

private theorem flow (pre : Str) (es : List Ev) : ∀ (s s' : Sys), run pre s es = some s' → Flow (pre ++ [star]) s es := by
  induction es with
  | nil => intro s s' h; unfold Flow; split <;> simp [Iteration]
  | cons e es ih =>
    intro s s' h
    obtain ⟨s1, h1, h2⟩ := Option.bind_eq_some_iff.mp h
    have hf := ih s1 s' h2
    cases e with
    | add k => simp only [step, Option.some.injEq] at h1; subst h1; unfold Flow at hf ⊢; simp only at hf; split <;> simp_all [Iteration]
    | remove k => simp only [step, Option.some.injEq] at h1; subst h1; unfold Flow at hf ⊢; simp only at hf; split <;> simp_all [Iteration]
    | scan pat c keys next =>
      simp only [step] at h1
      cases hp : s.ph <;> simp only [hp] at h1 <;> try (cases h1; done)
      split at h1
      · rename_i hc
        obtain ⟨rfl, rfl⟩ := hc
        simp only [Option.some.injEq] at h1
        by_cases hk : keys.length > 0
        · rw [if_pos hk] at h1
          subst h1
          unfold Flow at hf ⊢
          simp only [hp, Iteration, true_and]
          exact hf
        · rw [if_neg hk] at h1
          unfold Flow
          simp only [hp, Iteration, true_and]
          exact batch_flow pre next s1 s' es (by rw [← h1]) h2 hf
      · cases h1
    | scanFailed =>
      simp only [step] at h1
      cases hp : s.ph <;> simp only [hp] at h1 <;> try (cases h1; done)
      simp only [Option.some.injEq] at h1
      unfold Flow
      simp only [hp, Iteration]
      exact over_iteration pre es s1 s' (by rw [← h1]; exact .inr rfl) h2 _ _
    | del ks =>
      simp only [step] at h1
      cases hp : s.ph <;> simp only [hp] at h1 <;> try (cases h1; done)
      split at h1
      · rename_i keys next hk
        simp only [Option.some.injEq] at h1
        unfold Flow
        simp only [hp, Iteration]
        exact batch_flow pre next s1 s' es (by rw [← h1]) h2 hf
      · cases h1
    | delFailed b =>
      simp only [step] at h1
      cases hp : s.ph <;> simp only [hp] at h1 <;> try (cases h1; done)
      simp only [Option.some.injEq] at h1
      unfold Flow
      simp only [hp, Iteration]
      exact over_iteration pre es s1 s' (by rw [← h1]; exact .inr rfl) h2 _ _

private theorem iteration_prefix (pat : Str) (es es' : List Ev) : ∀ c, Iteration pat c (es ++ es') → Iteration pat c es := by
  induction es with
  | nil => intros; trivial
  | cons e es ih =>
    intro c h
    cases e <;> simp only [List.cons_append, Iteration] at h ⊢
    case scan => exact ⟨h.1, h.2.1, ih _ h.2.2⟩
    all_goals exact ih _ h

/-- A flush that gets done has sent a last `SCAN`. -/
private theorem last_scan (pre : Str) (es : List Ev) : ∀ (s s' : Sys), run pre s es = some s' → s'.ph = .done →
    (∃ ks, s.ph = .deleting ks 0) ∨ s.ph = .done ∨
    ∃ before pat c keys after, es = before ++ Ev.scan pat c keys 0 :: after := by
  induction es with
  | nil => intro s s' h hd; obtain rfl := Option.some.inj h; exact .inr (.inl hd)
  | cons e es ih =>
    intro s s' h hd
    obtain ⟨s1, h1, h2⟩ := Option.bind_eq_some_iff.mp h
    have key := ih s1 s' h2 hd
    have lift : (∃ before pat c keys after, es = before ++ Ev.scan pat c keys 0 :: after) →
        ∃ before pat c keys after, e :: es = before ++ Ev.scan pat c keys 0 :: after := by
      rintro ⟨b, pat, c, keys, a, rfl⟩
      exact ⟨e :: b, pat, c, keys, a, rfl⟩
    cases e with
    | add k =>
      simp only [step, Option.some.injEq] at h1; subst h1
      rcases key with h | h | h
      · exact .inl h
      · exact .inr (.inl h)
      · exact .inr (.inr (lift h))
    | remove k =>
      simp only [step, Option.some.injEq] at h1; subst h1
      rcases key with h | h | h
      · exact .inl h
      · exact .inr (.inl h)
      · exact .inr (.inr (lift h))
    | scan pat c keys next =>
      right; right
      by_cases hn : next = 0
      · subst hn; exact ⟨[], pat, c, keys, es, rfl⟩
      · simp only [step] at h1
        cases hp : s.ph <;> simp only [hp] at h1 <;> try (cases h1; done)
        split at h1
        · simp only [Option.some.injEq] at h1
          subst h1
          rcases key with ⟨ks, h⟩ | h | h
          · simp only at h; split at h
            · simp only [Phase.deleting.injEq] at h; exact absurd h.2 hn
            · simp [afterBatch, hn] at h
          · simp only at h; split at h
            · cases h
            · simp [afterBatch, hn] at h
          · exact lift h
        · cases h1
    | scanFailed =>
      simp only [step] at h1
      cases hp : s.ph <;> simp only [hp] at h1 <;> try (cases h1; done)
      simp only [Option.some.injEq] at h1
      subst h1
      rcases key with ⟨ks, h⟩ | h | h
      · cases h
      · cases h
      · exact .inr (.inr (lift h))
    | del ks =>
      simp only [step] at h1
      cases hp : s.ph <;> simp only [hp] at h1 <;> try (cases h1; done)
      split at h1
      · rename_i keys next hk
        simp only [Option.some.injEq] at h1
        subst h1
        by_cases hn : next = 0
        · subst hn; exact .inl ⟨keys, rfl⟩
        · rcases key with ⟨ks, h⟩ | h | h
          · simp [afterBatch, hn] at h
          · simp [afterBatch, hn] at h
          · exact .inr (.inr (lift h))
      · cases h1
    | delFailed b =>
      simp only [step] at h1
      cases hp : s.ph <;> simp only [hp] at h1 <;> try (cases h1; done)
      simp only [Option.some.injEq] at h1
      subst h1
      rcases key with ⟨ks, h⟩ | h | h
      · cases h
      · cases h
      · exact .inr (.inr (lift h))

private theorem failed_stays (pre : Str) (es : List Ev) : ∀ (s s' : Sys), s.ph = .failed → run pre s es = some s' → s'.ph = .failed := by
  induction es with
  | nil => intro s s' h hr; obtain rfl := Option.some.inj hr; exact h
  | cons e es ih =>
    intro s s' h hr
    obtain ⟨s1, h1, h2⟩ := Option.bind_eq_some_iff.mp hr
    cases e <;> simp only [step, h, Option.some.injEq, reduceCtorEq] at h1
    all_goals (subst h1; exact ih _ _ (by simp [h]) h2)

/-- What was found is deleted before the flush is done. -/
private theorem deleted (pre : Str) (k : Str) (es : List Ev) : ∀ (s s' : Sys) (ks : List Str) (next : Nat), s.ph = .deleting ks next → k ∈ ks →
    run pre s es = some s' → s'.ph = .done → ∃ before after s1, es = before ++ after ∧ run pre s before = some s1 ∧ k ∉ s1.db := by
  induction es with
  | nil => intro s s' ks next h _ hr hd; obtain rfl := Option.some.inj hr; rw [h] at hd; cases hd
  | cons e es ih =>
    intro s s' ks next h hk hr hd
    obtain ⟨s1, h1, h2⟩ := Option.bind_eq_some_iff.mp hr
    cases e <;> simp only [step, h, Option.some.injEq, reduceCtorEq] at h1
    case add x =>
      subst h1
      obtain ⟨b, a, s2, rfl, h4, h5⟩ := ih _ s' ks next rfl hk h2 hd
      exact ⟨.add x :: b, a, s2, rfl, by simp only [run, step, Option.bind_some, h]; exact h4, h5⟩
    case remove x =>
      subst h1
      obtain ⟨b, a, s2, rfl, h4, h5⟩ := ih _ s' ks next rfl hk h2 hd
      exact ⟨.remove x :: b, a, s2, rfl, by simp only [run, step, Option.bind_some, h]; exact h4, h5⟩
    case del x =>
      split at h1
      · rename_i hx
        simp only [Option.some.injEq] at h1
        refine ⟨[.del x], es, s1, rfl, ?_, ?_⟩
        · simp only [run, step, h, if_pos hx, h1, Option.bind_some]
        · rw [← h1]; simp [hx, hk]
      · cases h1
    case delFailed b =>
      have := failed_stays pre es s1 s' (by rw [← h1]) h2
      rw [this] at hd; cases hd

/-- **C83.** When emptying the cache succeeds, every key with the prefix that was there when it began was gone at some moment, whatever others
did meanwhile. -/
theorem flush_removes_entries (m : Str → Str → Prop) (hm : Glob m) (pre : Str) (hpre : ∀ c ∈ pre, ¬ Special c) (db : List Str) (es : List Ev)
    (s : Sys) (hrun : run pre (start db) es = some s) (hd : s.ph = .done) (hscan : ScanOk m pre db es) (k : Str) (hk : HasPrefix pre k) :
    ∃ before after keys, es = before ++ after ∧ keysAfter pre db before = some keys ∧ k ∉ keys := by
  refine Classical.byContradiction fun hno => ?_
  have hthere : ∀ (before after : List Ev), es = before ++ after → ∃ keys, keysAfter pre db before = some keys ∧ k ∈ keys := by
    intro before after he
    rw [he, run_append] at hrun
    obtain ⟨s1, h1, h2⟩ := Option.bind_eq_some_iff.mp hrun
    refine ⟨s1.db, by simp [keysAfter, h1], ?_⟩
    refine Classical.byContradiction fun h => hno ⟨before, after, s1.db, he, by simp [keysAfter, h1], h⟩
  obtain ⟨before, pat, c, keys, after, he⟩ : ∃ before pat c keys after, es = before ++ Ev.scan pat c keys 0 :: after := by
    rcases last_scan pre es _ s hrun hd with ⟨_, h⟩ | h | h
    · cases h
    · cases h
    · exact h
  have hit : Iteration (pre ++ [star]) 0 es := flow pre es _ s hrun
  have hit1 : Iteration (pre ++ [star]) 0 (before ++ [.scan pat c keys 0]) := by
    rw [he, show before ++ Ev.scan pat c keys 0 :: after = (before ++ [.scan pat c keys 0]) ++ after by simp] at hit
    exact iteration_prefix _ _ _ _ hit
  have hpat : pat = pre ++ [star] := by
    have : ∀ (b : List Ev) (c0 : Nat), Iteration (pre ++ [star]) c0 (b ++ [.scan pat c keys 0]) → pat = pre ++ [star] := by
      intro b
      induction b with
      | nil => intro c0 h; exact h.1
      | cons e b ih =>
        intro c0 h
        cases e <;> simp only [List.cons_append, Iteration] at h
        case scan => exact ih _ h.2.2
        all_goals exact ih _ h
    exact this before 0 hit1
  subst hpat
  obtain ⟨p, c', ks, next, hmem, hks⟩ := hscan.complete before after _ c keys k he hit1
    ((pattern_matches_prefix m hm pre k hpre).mpr hk)
    (fun b a hb => hthere b (a ++ Ev.scan (pre ++ [star]) c keys 0 :: after) (by rw [he, hb]; simp))
  have hmem' : Ev.scan p c' ks next ∈ es := by
    rw [he]; rcases List.mem_append.mp hmem with h | h
    · exact List.mem_append_left _ h
    · simp only [List.mem_singleton] at h; rw [h]; simp
  obtain ⟨b1, a1, he1⟩ := List.append_of_mem hmem'
  rw [he1, run_append] at hrun
  obtain ⟨s1, h1, h2⟩ := Option.bind_eq_some_iff.mp hrun
  obtain ⟨s2, h3, h4⟩ := Option.bind_eq_some_iff.mp h2
  have hstep := h3
  simp only [step] at h3
  cases hp : s1.ph <;> simp only [hp] at h3 <;> try (cases h3; done)
  split at h3
  · simp only [Option.some.injEq] at h3
    have hpos : ks.length > 0 := List.length_pos_of_mem hks
    obtain ⟨b2, a2, s3, he2, h5, h6⟩ := deleted pre k a1 s2 s ks next (by rw [← h3]; simp [hpos]) hks h4 hd
    refine hno ⟨b1 ++ Ev.scan p c' ks next :: b2, a2, s3.db, by rw [he1, he2]; simp, ?_, h6⟩
    unfold keysAfter
    rw [run_append, h1]
    simp only [Option.bind_some, run, hstep, h5, Option.map_some]
  · cases h3

/-- What is not there, and not added, is not there later. -/
private theorem stays_away (pre : Str) (k : Str) (es : List Ev) : ∀ (s s' : Sys), run pre s es = some s' → Ev.add k ∉ es → k ∉ s.db → k ∉ s'.db := by
  induction es with
  | nil => intro s s' hr _ h; obtain rfl := Option.some.inj hr; exact h
  | cons e es ih =>
    intro s s' hr ha h
    obtain ⟨s1, h1, h2⟩ := Option.bind_eq_some_iff.mp hr
    refine ih s1 s' h2 (fun hm => ha (List.mem_cons_of_mem _ hm)) ?_
    cases e with
    | add x =>
      simp only [step, Option.some.injEq] at h1; subst h1
      have hx : k ≠ x := by rintro rfl; exact ha (by simp)
      simp [hx, h]
    | remove x => simp only [step, Option.some.injEq] at h1; subst h1; simp [h]
    | scan pat c keys next =>
      simp only [step] at h1
      split at h1 <;> try (cases h1; done)
      split at h1 <;> try (cases h1; done)
      simp only [Option.some.injEq] at h1; subst h1; exact h
    | scanFailed =>
      simp only [step] at h1
      split at h1 <;> try (cases h1; done)
      simp only [Option.some.injEq] at h1; subst h1; exact h
    | del ks =>
      simp only [step] at h1
      split at h1 <;> try (cases h1; done)
      split at h1 <;> try (cases h1; done)
      simp only [Option.some.injEq] at h1; subst h1; simp [h]
    | delFailed b =>
      simp only [step] at h1
      split at h1 <;> try (cases h1; done)
      simp only [Option.some.injEq] at h1; subst h1
      cases b <;> simp [h]

/-- **C83.** Afterwards no key with the prefix is left, except those written while it went on. -/
theorem flush_empties (m : Str → Str → Prop) (hm : Glob m) (pre : Str) (hpre : ∀ c ∈ pre, ¬ Special c) (db : List Str) (es : List Ev)
    (s : Sys) (hrun : run pre (start db) es = some s) (hd : s.ph = .done) (hscan : ScanOk m pre db es) (k : Str) (hk : HasPrefix pre k)
    (hnew : Ev.add k ∉ es) : k ∉ s.db := by
  obtain ⟨b, a, keys, rfl, h1, h2⟩ := flush_removes_entries m hm pre hpre db es s hrun hd hscan k hk
  rw [run_append] at hrun
  obtain ⟨s1, h3, h4⟩ := Option.bind_eq_some_iff.mp hrun
  simp only [keysAfter, h3, Option.map_some, Option.some.injEq] at h1
  exact stays_away pre k a s1 s h4 (fun h => hnew (List.mem_append_right _ h)) (by rw [h1]; exact h2)

/-- **C83.** Emptying the cache, finished or not, does not touch keys without the prefix. -/
theorem flush_spares_others (m : Str → Str → Prop) (hm : Glob m) (pre : Str) (hpre : ∀ c ∈ pre, ¬ Special c) (db : List Str) (es : List Ev)
    (s : Sys) (hrun : run pre (start db) es = some s) (hscan : ScanOk m pre db es) (k : Str) (hk : ¬ HasPrefix pre k) (hin : k ∈ db)
    (hkeep : Ev.remove k ∉ es) : k ∈ s.db := by
  have hm2 := hscan.matching
  clear hscan
  suffices H : ∀ (es : List Ev) (s s' : Sys), run pre s es = some s' → Ev.remove k ∉ es →
      (∀ (pat : Str) (c : Nat) (keys : List Str) (next : Nat) (k : Str), Ev.scan pat c keys next ∈ es → k ∈ keys → m pat k) →
      (∀ ks next, s.ph = .deleting ks next → k ∉ ks) → k ∈ s.db → k ∈ s'.db from
    H es _ s hrun hkeep hm2 (by intro ks next h; cases h) hin
  intro es
  induction es with
  | nil => intro s s' hr _ _ _ h; obtain rfl := Option.some.inj hr; exact h
  | cons e es ih =>
    intro s s' hr hrem hsc hdel h
    obtain ⟨s1, h1, h2⟩ := Option.bind_eq_some_iff.mp hr
    refine ih s1 s' h2 (fun hm => hrem (List.mem_cons_of_mem _ hm)) (fun pat c keys next k hm => hsc pat c keys next k (List.mem_cons_of_mem _ hm)) ?_ ?_
    · intro ks next hp
      cases e with
      | add x => simp only [step, Option.some.injEq] at h1; subst h1; exact hdel ks next hp
      | remove x => simp only [step, Option.some.injEq] at h1; subst h1; exact hdel ks next hp
      | scan pat c keys nx =>
        simp only [step] at h1
        split at h1 <;> try (cases h1; done)
        split at h1 <;> try (cases h1; done)
        rename_i hc
        simp only [Option.some.injEq] at h1; subst h1
        simp only at hp
        split at hp
        · simp only [Phase.deleting.injEq] at hp
          intro hmem
          have := hsc pat c keys nx k (by simp) (by rw [hp.1]; exact hmem)
          rw [hc.2] at this
          exact hk ((pattern_matches_prefix m hm pre k hpre).mp this)
        · unfold afterBatch at hp; split at hp <;> cases hp
      | scanFailed =>
        simp only [step] at h1
        split at h1 <;> try (cases h1; done)
        simp only [Option.some.injEq] at h1; subst h1; cases hp
      | del x =>
        simp only [step] at h1
        split at h1 <;> try (cases h1; done)
        split at h1 <;> try (cases h1; done)
        simp only [Option.some.injEq] at h1; subst h1
        simp only at hp
        unfold afterBatch at hp; split at hp <;> cases hp
      | delFailed b =>
        simp only [step] at h1
        split at h1 <;> try (cases h1; done)
        simp only [Option.some.injEq] at h1; subst h1; cases hp
    · cases e with
      | add x => simp only [step, Option.some.injEq] at h1; subst h1; simp [h]
      | remove x =>
        simp only [step, Option.some.injEq] at h1; subst h1
        have hx : k ≠ x := by rintro rfl; exact hrem (by simp)
        simp [h, hx]
      | scan pat c keys nx =>
        simp only [step] at h1
        split at h1 <;> try (cases h1; done)
        split at h1 <;> try (cases h1; done)
        simp only [Option.some.injEq] at h1; subst h1; exact h
      | scanFailed =>
        simp only [step] at h1
        split at h1 <;> try (cases h1; done)
        simp only [Option.some.injEq] at h1; subst h1; exact h
      | del x =>
        simp only [step] at h1
        split at h1 <;> try (cases h1; done)
        rename_i keys next hp
        split at h1 <;> try (cases h1; done)
        rename_i hx
        simp only [Option.some.injEq] at h1; subst h1
        simp [h, hx, hdel keys next hp]
      | delFailed b =>
        simp only [step] at h1
        split at h1 <;> try (cases h1; done)
        rename_i keys next hp
        simp only [Option.some.injEq] at h1; subst h1
        cases b <;> simp [h, hdel keys next hp]

/-- **Finding.** With an empty prefix (the default), every key of the database is taken to be the cache's. -/
theorem flush_empty_prefix_matches_all (m : Str → Str → Prop) (hm : Glob m) (k : Str) : m ([] ++ [star]) k := hm.star k

/-- **Finding.** With a `?` in the prefix, keys without the prefix match as well. -/
theorem flush_question_matches_others (m : Str → Str → Prop) (hm : Glob m) (pre post r : Str) (hpre : ∀ c ∈ pre, ¬ Special c)
    (hpost : ∀ c ∈ post, ¬ Special c) (c : UInt8) (hc : c ≠ 63) :
    m ((pre ++ 63 :: post) ++ [star]) (pre ++ c :: (post ++ r)) ∧ ¬ HasPrefix (pre ++ 63 :: post) (pre ++ c :: (post ++ r)) := by
  constructor
  · induction pre with
    | nil =>
      simp only [List.nil_append, List.cons_append]
      exact (hm.question _ _).mpr ⟨c, post ++ r, rfl, (pattern_matches_prefix m hm post _ hpost).mpr ⟨r, rfl⟩⟩
    | cons d pre ih =>
      simp only [List.cons_append]
      refine (hm.literal d _ _ (hpre d (by simp))).mpr ⟨_, rfl, ?_⟩
      simpa using ih (fun x hx => hpre x (by simp [hx]))
  · rintro ⟨x, hx⟩
    simp only [List.append_assoc, List.cons_append, List.append_cancel_left_eq, List.cons.injEq] at hx
    exact hc hx.1

/-- **Finding.** With a class such as `[x]` in the prefix, none of the entries of the cache itself match: emptying it leaves them all. -/
theorem flush_class_misses_own (m : Str → Str → Prop) (hm : Glob m) (pre post r : Str) (hpre : ∀ c ∈ pre, ¬ Special c) (c : UInt8)
    (h1 : c ≠ 93) (h2 : c ≠ 94) (h3 : c ≠ 92) (h4 : c ≠ 91) :
    ¬ m ((pre ++ 91 :: c :: 93 :: post) ++ [star]) ((pre ++ 91 :: c :: 93 :: post) ++ r) := by
  induction pre with
  | nil =>
    simp only [List.nil_append, List.cons_append]
    intro h
    obtain ⟨x, hx, -⟩ := (hm.single c _ _ h1 h2 h3).mp h
    simp only [List.cons.injEq] at hx
    exact h4 hx.1.symm
  | cons d pre ih =>
    simp only [List.cons_append]
    intro h
    obtain ⟨x, hx, hx2⟩ := (hm.literal d _ _ (hpre d (by simp))).mp h
    simp only [List.cons.injEq, true_and] at hx
    subst hx
    exact ih (fun x hx => hpre x (by simp [hx])) (by simpa using hx2)

/-! ### Concrete cases -/
section Examples

/-- A matcher that keeps what is promised. -/
private def glob : Str → Str → Prop
  | [], k => k = []
  | [42], _ => True
  | 63 :: p, k => ∃ c r, k = c :: r ∧ glob p r
  | 91 :: c :: 93 :: p, k => if c = 93 ∨ c = 94 ∨ c = 92 then False else ∃ r, k = c :: r ∧ glob p r
  | c :: p, k => ¬ Special c ∧ ∃ r, k = c :: r ∧ glob p r

example : Glob glob where
  literal c p k h := by
    have h1 : c ≠ 42 := fun e => h (.inl e)
    have h2 : c ≠ 63 := fun e => h (.inr (.inl e))
    have h3 : c ≠ 91 := fun e => h (.inr (.inr (.inl e)))
    rw [glob]
    · exact ⟨fun x => x.2, fun x => ⟨h, x⟩⟩
    · intro e; exact absurd e h1
    · exact h2
    · intro _ _ e; exact absurd e h3
  star k := by unfold glob; trivial
  question p k := by rw [glob]
  single c p k h1 h2 h3 := by rw [glob, if_neg (by simp [h1, h2, h3])]

private def own1 : Str := str "rdns:a"
private def own2 : Str := str "rdns:b"
private def own3 : Str := str "rdns:c"
private def other : Str := str "sessions"
private def pat : Str := str "rdns:*"

/-- Two batches; while it goes on, `rdns:c` is written and stays, `rdns:b` expires. -/
private def evs : List Ev := [.scan pat 0 [own1] 7, .del [own1], .add own3, .remove own2, .scan pat 7 [] 0]

example : run (str "rdns:") (start [own1, other, own2]) evs = some ⟨[own3, other], .done⟩ := by decide

/-- What Redis promises is met by this run. -/
example (m : Str → Str → Prop) (hm : Glob m) : ScanOk m (str "rdns:") [own1, other, own2] evs where
  matching p c keys next k h hk := by
    simp only [evs, List.mem_cons, Ev.scan.injEq, reduceCtorEq, List.not_mem_nil, or_false, false_or] at h
    rcases h with ⟨rfl, -, rfl, -⟩ | ⟨-, -, rfl, -⟩
    · obtain rfl := List.mem_singleton.mp hk
      exact (pattern_matches_prefix m hm (str "rdns:") own1 (by unfold Special; decide)).mpr ⟨str "a", by decide⟩
    · cases hk
  complete before after p c keys k he hit hmatch hthere := by
    -- at the end of the iteration only `rdns:c` and `sessions` are there; both were not there all the time, or do not match
    have hb : before = [.scan pat 0 [own1] 7, .del [own1], .add own3, .remove own2] ∧ p = pat := by
      rcases before with _ | ⟨b0, _ | ⟨b1, _ | ⟨b2, _ | ⟨b3, _ | ⟨b4, _ | ⟨b5, b⟩⟩⟩⟩⟩⟩ <;> simp [evs] at he
      · obtain ⟨rfl, rfl, rfl, rfl, ⟨rfl, -⟩, -⟩ := he
        exact ⟨rfl, rfl⟩
    obtain ⟨rfl, rfl⟩ := hb
    obtain ⟨keys0, h0, hk0⟩ := hthere [] _ rfl
    obtain ⟨keys1, h1, hk1⟩ := hthere [.scan pat 0 [own1] 7, .del [own1], .add own3, .remove own2] [] (by simp)
    have e0 : keysAfter (str "rdns:") [own1, other, own2] [] = some [own1, other, own2] := by decide
    have e1 : keysAfter (str "rdns:") [own1, other, own2] [.scan pat 0 [own1] 7, .del [own1], .add own3, .remove own2] = some [own3, other] := by
      decide
    rw [e0] at h0; obtain rfl := Option.some.inj h0
    rw [e1] at h1; obtain rfl := Option.some.inj h1
    simp only [List.mem_cons, List.not_mem_nil, or_false] at hk0 hk1
    have ho : k = other := by
      rcases hk1 with rfl | h
      · rcases hk0 with h | h | h <;> (revert h; decide)
      · exact h
    subst ho
    obtain ⟨r, hr⟩ := (pattern_matches_prefix m hm (str "rdns:") other (by unfold Special; decide)).mp hmatch
    have h5 : List.take 5 (str "rdns:" ++ r) = str "rdns:" := List.take_left' (by decide)
    rw [← hr] at h5
    exact absurd h5 (by decide)

end Examples

end Verif.Props.RedisFlush
