import Verif.Model.Stopping
/-
C128: caches are saved when the program is stopped.
-/
set_option linter.unusedSectionVars false
namespace Verif.Props.Stopping
open Verif Verif.Stopping Verif.CacheM

variable {H : Type} [DecidableEq H]

private theorem run_cons {names : List Str} {s s' : Prog H} {e : Ev H} {es : List (Ev H)} (h : run names s (e :: es) = some s') :
    ∃ s1, step names s e = some s1 ∧ run names s1 es = some s' := by
  simp only [run, Option.bind_eq_some_iff] at h
  exact h

private theorem run_append {names : List Str} {a b : List (Ev H)} : ∀ {s s1 : Prog H}, run names s a = some s1 → run names s (a ++ b) = run names s1 b := by
  induction a with
  | nil => intro s s1 h; cases h; rfl
  | cons e a ih =>
    intro s s1 h
    obtain ⟨s2, h1, h2⟩ := run_cons h
    simp only [List.cons_append, run, h1, Option.bind_some]
    exact ih h2

/-- At some moment in the run, after the signal, cache `i` had exactly these entries. -/
def HadAfterSignal (names : List Str) (start : Prog H) (es : List (Ev H)) (i : Nat) (recs : List FileRec) : Prop :=
  ∃ es1 es2 s, es = es1 ++ es2 ∧ run names start es1 = some s ∧ Ev.signal ∈ es1 ∧ saveFile (s.mem i) = some recs

private theorem HadAfterSignal.more {names : List Str} {start : Prog H} {es : List (Ev H)} {i : Nat} {recs : List FileRec} (h : HadAfterSignal names start es i recs) (e : Ev H) :
    HadAfterSignal names start (es ++ [e]) i recs := by
  obtain ⟨es1, es2, s, h1, h2⟩ := h
  exact ⟨es1, es2 ++ [e], s, by rw [h1]; simp, h2⟩

/-- The stop has come past cache `i`. -/
private def Past (i : Nat) : Phase → Prop
  | .running => False
  | .stopping k => i < k
  | .ended => True

private structure Inv (names : List Str) (start : Prog H) (name : Str) (pre : List (Ev H)) (s : Prog H) : Prop where
  run : run names start pre = some s
  named : ∀ j x, s.saving j = some x → names.getD j [] ≠ []
  sig : s.phase ≠ .running → Ev.signal ∈ pre
  stop : ∀ j r, s.saving j = some ⟨.stop, r⟩ → s.phase = .stopping j ∨ s.phase = .ended
  snap : ∀ i recs, s.saving i = some ⟨.stop, some recs⟩ → HadAfterSignal names start pre i recs
  past : ∀ i, Past i s.phase → ∀ w recs, s.saving i = some ⟨w, some recs⟩ → HadAfterSignal names start pre i recs
  file : (∀ i, names.getD i [] = name → Past i s.phase) → ∃ i recs, names.getD i [] = name ∧ s.files name = some recs ∧ HadAfterSignal names start pre i recs

private theorem inv_run {names : List Str} {start : Prog H} {name : Str} (hn : name ≠ []) (hx : ∃ i, names.getD i [] = name)
    {es : List (Ev H)} : ∀ {pre : List (Ev H)} {s s' : Prog H}, Inv names start name pre s → (∀ i, names.getD i [] = name → Ev.fails i ∉ es) → run names s es = some s' →
      Inv names start name (pre ++ es) s' := by
  induction es with
  | nil => intro pre s s' h _ hr; cases hr; simpa using h
  | cons e es ih =>
    intro pre s s' h hf hr
    obtain ⟨s1, h1, h2⟩ := run_cons hr
    have happ : pre ++ e :: es = (pre ++ [e]) ++ es := by simp
    rw [happ]
    refine ih ?_ (fun i hi hx => hf i hi (by simp [hx])) h2
    have hrun : run names start (pre ++ [e]) = some s1 := by rw [run_append h.run]; simp [run, h1]
    have here : ∀ i recs, s.phase ≠ .running → saveFile (s.mem i) = some recs → HadAfterSignal names start (pre ++ [e]) i recs :=
      fun i recs hp hs => ⟨pre, [e], s, rfl, h.run, h.sig hp, hs⟩
    have sig : s.phase ≠ .running → Ev.signal ∈ pre ++ [e] := fun hp => by simp [h.sig hp]
    have drop : ∀ {j : Nat}, ∀ k x, (put s.saving j none) k = some x → k ≠ j ∧ s.saving k = some x := by
      intro j k x hk
      simp only [put] at hk
      split at hk
      · cases hk
      · next hkj => exact ⟨hkj, hk⟩
    have snap : ∀ i recs, s.saving i = some ⟨.stop, some recs⟩ → HadAfterSignal names start (pre ++ [e]) i recs := fun i recs hr => (h.snap i recs hr).more _
    have past : ∀ i, Past i s.phase → ∀ w recs, s.saving i = some ⟨w, some recs⟩ → HadAfterSignal names start (pre ++ [e]) i recs := fun i hp w recs hr => (h.past i hp w recs hr).more _
    have file : (∀ i, names.getD i [] = name → Past i s.phase) → ∃ i recs, names.getD i [] = name ∧ s.files name = some recs ∧ HadAfterSignal names start (pre ++ [e]) i recs := by
      intro hp
      obtain ⟨i, recs, a, b, c⟩ := h.file hp
      exact ⟨i, recs, a, b, c.more _⟩
    -- when a save is over
    have over : ∀ {j who r}, s.phase ≠ .ended → s.saving j = some ⟨who, r⟩ →
        (∀ k r', (put s.saving j none) k = some ⟨.stop, r'⟩ → advance s.phase who = .stopping k ∨ advance s.phase who = .ended) ∧
        (advance s.phase who ≠ .running → s.phase ≠ .running) ∧ (∀ i, i ≠ j → Past i (advance s.phase who) → Past i s.phase) := by
      intro j who r hp hw
      refine ⟨?_, ?_, ?_⟩
      · intro k r' hk
        obtain ⟨hkj, hk⟩ := drop k _ hk
        rcases h.stop k r' hk with g | g
        · cases who with
          | interval => exact Or.inl g
          | stop =>
            rcases h.stop j _ hw with g' | g'
            · rw [g] at g'; cases g'; exact absurd rfl hkj
            · rw [g] at g'; cases g'
        · exact absurd g hp
      · intro hne k
        apply hne
        simp only [k, advance]; cases who <;> rfl
      · intro i hij hpast
        cases who with
        | interval => exact hpast
        | stop =>
          rcases h.stop j _ hw with g | g
          · simp only [g, advance, Past] at hpast ⊢
            omega
          · exact absurd g hp
    cases e with
    | changes j c =>
      simp only [step] at h1
      split at h1 <;> cases h1
      exact ⟨hrun, h.named, sig, h.stop, snap, past, file⟩
    | signal =>
      simp only [step] at h1
      split at h1
      · next hp =>
        cases h1
        refine ⟨hrun, h.named, fun _ => by simp, fun j r hj => ?_, snap, fun i hpast => ?_, fun hpast => ?_⟩
        · rcases h.stop j r hj with k | k <;> rw [hp] at k <;> cases k
        · exact absurd hpast (by simp [Past])
        · obtain ⟨i, hi⟩ := hx
          exact absurd (hpast i hi) (by simp [Past])
      · cases h1; exact ⟨hrun, h.named, sig, h.stop, snap, past, file⟩
      · cases h1
    | begins j who =>
      simp only [step] at h1
      split at h1
      · cases h1
      · next hc =>
        cases h1
        simp only [not_or] at hc
        obtain ⟨c1, c2, c3, c4⟩ := hc
        refine ⟨hrun, fun k x hk => ?_, sig, fun k r hk => ?_, fun i recs hr => ?_, fun i hp w recs hr => ?_, file⟩
        · simp only [put] at hk
          split at hk
          · next e => subst e; exact c3
          · exact h.named k x hk
        · simp only [put] at hk
          split at hk
          · next e => cases hk; subst e; exact Or.inl (Classical.byContradiction fun hne => c4 ⟨rfl, hne⟩)
          · exact h.stop k r hk
        · simp only [put] at hr
          split at hr
          · cases hr
          · exact snap i recs hr
        · simp only [put] at hr
          split at hr
          · cases hr
          · exact past i hp w recs hr
    | reads j =>
      simp only [step] at h1
      split at h1
      · cases h1
      · next who hw hp =>
        simp only [Option.map_eq_some_iff] at h1
        obtain ⟨recs, g, rfl⟩ := h1
        refine ⟨hrun, fun k x hk => ?_, sig, fun k r hk => ?_, fun i recs' hr => ?_, fun i hpast w recs' hr => ?_, file⟩
        · simp only [put] at hk
          split at hk
          · next e => subst e; exact h.named _ _ hw
          · exact h.named k x hk
        · simp only [put] at hk
          split at hk
          · next e => cases hk; subst e; exact h.stop _ _ hw
          · exact h.stop k r hk
        · simp only [put] at hr
          split at hr
          · next e =>
            cases hr; subst e
            refine here _ recs ?_ g
            rcases h.stop _ _ hw with k | k <;> rw [k] <;> simp
          · exact snap i recs' hr
        · simp only [put] at hr
          split at hr
          · next e =>
            cases hr; subst e
            refine here _ recs ?_ g
            intro k; rw [k] at hpast; exact hpast
          · exact past i hpast w recs' hr
      · cases h1
    | lands j =>
      simp only [step] at h1
      split at h1
      · cases h1
      · next who recs hw hp =>
        cases h1
        obtain ⟨o1, o2, o3⟩ := over hp hw
        refine ⟨hrun, fun k x hk => h.named k x (drop k x hk).2, fun hne => sig (o2 hne), o1, fun i recs' hr => snap i recs' (drop i _ hr).2,
          fun i hpast w recs' hr => past i (o3 i (drop i _ hr).1 hpast) w recs' (drop i _ hr).2, fun hpast => ?_⟩
        by_cases hj : names.getD j [] = name
        · refine ⟨j, recs, hj, by simp [put, ← hj], ?_⟩
          cases who with
          | stop => exact snap j recs hw
          | interval => exact past j (hpast j hj) _ recs hw
        · obtain ⟨i, r', a, b, c⟩ := file fun i hi => o3 i (fun e => hj (e ▸ hi)) (hpast i hi)
          refine ⟨i, r', a, ?_, c⟩
          simp only [put]; rw [if_neg (fun e => hj e.symm)]; exact b
      · cases h1
    | fails j =>
      have hj : names.getD j [] ≠ name := fun e => hf j e (by simp)
      simp only [step] at h1
      split at h1
      · cases h1
      · next who recs hw hp =>
        cases h1
        obtain ⟨o1, o2, o3⟩ := over hp hw
        exact ⟨hrun, fun k x hk => h.named k x (drop k x hk).2, fun hne => sig (o2 hne), o1, fun i recs' hr => snap i recs' (drop i _ hr).2,
          fun i hpast w recs' hr => past i (o3 i (drop i _ hr).1 hpast) w recs' (drop i _ hr).2, fun hpast => file fun i hi => o3 i (fun e => hj (e ▸ hi)) (hpast i hi)⟩
      · cases h1
    | closes =>
      simp only [step] at h1
      split at h1
      · next k hk =>
        split at h1
        · next hc =>
          cases h1
          have hk0 : names.getD k [] = [] := by rw [List.getD_eq_getElem?_getD, hc]; rfl
          have back : ∀ i, i ≠ k → Past i (.stopping (k + 1)) → Past i s.phase := by
            intro i hik hpast
            rw [hk]
            simp only [Past] at hpast ⊢
            omega
          refine ⟨hrun, h.named, fun _ => sig (by rw [hk]; simp), fun j r hj => ?_, snap, fun i hpast w recs hr => ?_, fun hpast => ?_⟩
          · rcases h.stop j r hj with g | g <;> rw [hk] at g <;> cases g
            exact absurd hk0 (h.named _ _ hj)
          · exact past i (back i (by rintro rfl; exact h.named _ _ hr hk0) hpast) w recs hr
          · exact file fun i hi => back i (by rintro rfl; exact hn (hi.symm.trans hk0)) (hpast i hi)
        · cases h1
      · cases h1
    | ends =>
      simp only [step] at h1
      split at h1
      · next hk =>
        cases h1
        have all : ∀ i, names.getD i [] ≠ [] → Past i s.phase := by
          intro i hi
          rw [hk]
          rcases Nat.lt_or_ge i names.length with g | g
          · exact g
          · exact absurd (by rw [List.getD_eq_getElem?_getD, List.getElem?_eq_none g]; rfl) hi
        refine ⟨hrun, h.named, fun _ => sig (by rw [hk]; simp), fun _ _ _ => Or.inr rfl, snap, fun i _ w recs hr => past i (all i (h.named _ _ hr)) w recs hr, fun _ => file fun i hi => all i (by rw [hi]; exact hn)⟩
      · cases h1

/-- The program has just been started. -/
structure Started (s : Prog H) : Prop where
  saving : ∀ i, s.saving i = none
  phase : s.phase = .running

/-- C128: when the program has ended after a signal, every file has what one of the caches with that file name had at some moment after the signal, if saving them did not fail: whatever other caches
do, whatever saves are under way when the signal comes or begin later, and if further signals come. -/
theorem stop_saves_some (names : List Str) (start : Prog H) (hs : Started start) (name : Str) (hi : name ∈ names) (hn : name ≠ [])
    (es : List (Ev H)) (s : Prog H) (h : run names start es = some s) (hend : s.phase = .ended) (hf : ∀ i, names[i]? = some name → Ev.fails i ∉ es) :
    ∃ i recs, names[i]? = some name ∧ s.files name = some recs ∧ HadAfterSignal names start es i recs := by
  have hg : ∀ i, names.getD i [] = name ↔ names[i]? = some name := by
    intro i
    rw [List.getD_eq_getElem?_getD]
    cases hx : names[i]? with
    | none => simpa using hn
    | some x => simp
  have h0 : Inv names start name [] start := by
    obtain ⟨i, hi⟩ := List.mem_iff_getElem?.mp hi
    refine ⟨rfl, fun j x hj => ?_, fun hp => absurd hs.phase hp, fun j r hj => ?_, fun i r hj => ?_, fun i hp => ?_, fun hp => ?_⟩
    · rw [hs.saving] at hj; cases hj
    · rw [hs.saving] at hj; cases hj
    · rw [hs.saving] at hj; cases hj
    · rw [hs.phase] at hp; exact absurd hp (by simp [Past])
    · have := hp i ((hg i).mpr hi)
      rw [hs.phase] at this; exact absurd this (by simp [Past])
  have := inv_run hn ((List.mem_iff_getElem?.mp hi).imp fun i hi => (hg i).mpr hi) h0 (fun i hi => hf i ((hg i).mp hi)) h
  obtain ⟨i, recs, a, b, c⟩ := this.file (fun i _ => by rw [hend]; trivial)
  exact ⟨i, recs, (hg i).mp a, b, by simpa using c⟩

/-- C128: when the program has ended after a signal, the file of every cache has what the cache had at some moment after the signal, if saving it did not fail and no other cache has the same
file: whatever other caches do, whatever saves are under way when the signal comes or begin later, and if further signals come. -/
theorem stop_saves (names : List Str) (start : Prog H) (hs : Started start) (i : Nat) (name : Str) (hi : names[i]? = some name) (hn : name ≠ [])
    (hu : ∀ j, names[j]? = some name → j = i) (es : List (Ev H)) (s : Prog H) (h : run names start es = some s) (hend : s.phase = .ended) (hf : Ev.fails i ∉ es) :
    ∃ recs, s.files name = some recs ∧ HadAfterSignal names start es i recs := by
  obtain ⟨j, recs, a, b, c⟩ := stop_saves_some names start hs name (List.mem_of_getElem? hi) hn es s h hend (fun j hj => hu j hj ▸ hf)
  exact ⟨recs, b, hu j a ▸ c⟩

/-- C128: stopping and saving touch no other files than those configured. -/
theorem other_files (names : List Str) (name : Str) (hn : name ∉ names) (he : name ≠ []) (es : List (Ev H)) : ∀ (start s : Prog H), run names start es = some s → s.files name = start.files name := by
  induction es with
  | nil => intro start s h; cases h; rfl
  | cons e es ih =>
    intro start s h
    obtain ⟨s1, h1, h2⟩ := run_cons h
    refine (ih s1 s h2).trans ?_
    cases e with
    | changes j c => simp only [step] at h1; split at h1 <;> cases h1; rfl
    | signal => simp only [step] at h1; split at h1 <;> cases h1 <;> rfl
    | begins j who => simp only [step] at h1; split at h1 <;> cases h1; rfl
    | reads j =>
      simp only [step] at h1
      split at h1
      · cases h1
      · simp only [Option.map_eq_some_iff] at h1; obtain ⟨r, _, rfl⟩ := h1; rfl
      · cases h1
    | lands j =>
      simp only [step] at h1
      split at h1
      · cases h1
      · cases h1
        simp only [put]
        rw [if_neg]
        intro e
        rw [List.getD_eq_getElem?_getD] at e
        cases hx : names[j]? with
        | none => rw [hx] at e; exact he e
        | some x => rw [hx] at e; simp at e; subst e; exact hn (List.mem_of_getElem? hx)
      · cases h1
    | fails j => simp only [step] at h1; split at h1 <;> cases h1; rfl
    | closes =>
      simp only [step] at h1
      split at h1
      · split at h1 <;> cases h1; rfl
      · cases h1
    | ends => simp only [step] at h1; split at h1 <;> cases h1; rfl

/-- At some moment in the run, cache `i` had exactly these entries. -/
def Had (names : List Str) (start : Prog H) (es : List (Ev H)) (i : Nat) (recs : List FileRec) : Prop :=
  ∃ es1 es2 s, es = es1 ++ es2 ∧ run names start es1 = some s ∧ saveFile (s.mem i) = some recs

private theorem Had.more {names : List Str} {start : Prog H} {es : List (Ev H)} {i : Nat} {recs : List FileRec} (h : Had names start es i recs) (e : Ev H) :
    Had names start (es ++ [e]) i recs := by
  obtain ⟨es1, es2, s, h1, h2⟩ := h
  exact ⟨es1, es2 ++ [e], s, by rw [h1]; simp, h2⟩

private structure Real (names : List Str) (start : Prog H) (pre : List (Ev H)) (s : Prog H) : Prop where
  run : run names start pre = some s
  snap : ∀ i w recs, s.saving i = some ⟨w, some recs⟩ → Had names start pre i recs
  file : ∀ name, s.files name = start.files name ∨ ∃ i recs, names.getD i [] = name ∧ s.files name = some recs ∧ Had names start pre i recs

private theorem real_run {names : List Str} {start : Prog H} {es : List (Ev H)} : ∀ {pre : List (Ev H)} {s s' : Prog H}, Real names start pre s → run names s es = some s' →
    Real names start (pre ++ es) s' := by
  induction es with
  | nil => intro pre s s' h hr; cases hr; simpa using h
  | cons e es ih =>
    intro pre s s' h hr
    obtain ⟨s1, h1, h2⟩ := run_cons hr
    have happ : pre ++ e :: es = (pre ++ [e]) ++ es := by simp
    rw [happ]
    refine ih ?_ h2
    have hrun : run names start (pre ++ [e]) = some s1 := by rw [run_append h.run]; simp [run, h1]
    have snap : ∀ i w recs, s.saving i = some ⟨w, some recs⟩ → Had names start (pre ++ [e]) i recs := fun i w recs hr => (h.snap i w recs hr).more _
    have file : ∀ name, s.files name = start.files name ∨ ∃ i recs, names.getD i [] = name ∧ s.files name = some recs ∧ Had names start (pre ++ [e]) i recs := by
      intro name
      rcases h.file name with g | ⟨i, recs, a, b, c⟩
      · exact Or.inl g
      · exact Or.inr ⟨i, recs, a, b, c.more _⟩
    have drop : ∀ {j : Nat}, ∀ i w recs, (put s.saving j none) i = some ⟨w, some recs⟩ → Had names start (pre ++ [e]) i recs := by
      intro j i w recs hk
      simp only [put] at hk
      split at hk
      · cases hk
      · exact snap i w recs hk
    cases e with
    | changes j c => simp only [step] at h1; split at h1 <;> cases h1; exact ⟨hrun, snap, file⟩
    | signal => simp only [step] at h1; split at h1 <;> cases h1 <;> exact ⟨hrun, snap, file⟩
    | begins j who =>
      simp only [step] at h1
      split at h1 <;> cases h1
      refine ⟨hrun, fun i w recs hr => ?_, file⟩
      simp only [put] at hr
      split at hr
      · cases hr
      · exact snap i w recs hr
    | reads j =>
      simp only [step] at h1
      split at h1
      · cases h1
      · simp only [Option.map_eq_some_iff] at h1
        obtain ⟨recs, g, rfl⟩ := h1
        refine ⟨hrun, fun i w recs' hr => ?_, file⟩
        simp only [put] at hr
        split at hr
        · next e => cases hr; subst e; exact ⟨pre, [.reads i], s, rfl, h.run, g⟩
        · exact snap i w recs' hr
      · cases h1
    | lands j =>
      simp only [step] at h1
      split at h1
      · cases h1
      · next who recs hw hp =>
        cases h1
        refine ⟨hrun, drop, fun name => ?_⟩
        by_cases hn : name = names.getD j []
        · exact Or.inr ⟨j, recs, hn.symm, by simp [put, hn], snap j who recs hw⟩
        · simp only [put]
          rw [if_neg hn]
          exact file name
      · cases h1
    | fails j =>
      simp only [step] at h1
      split at h1 <;> cases h1
      exact ⟨hrun, drop, file⟩
    | closes =>
      simp only [step] at h1
      split at h1
      · split at h1 <;> cases h1; exact ⟨hrun, snap, file⟩
      · cases h1
    | ends => simp only [step] at h1; split at h1 <;> cases h1; exact ⟨hrun, snap, file⟩

/-- C128: at every moment, while the program runs, stops, or whenever it is killed, a file is as the program found it or has exactly what one of the caches with that file name had at some moment;
also if saves fail. -/
theorem files_real (names : List Str) (start : Prog H) (hs : Started start) (es : List (Ev H)) (s : Prog H) (h : run names start es = some s) (name : Str) :
    s.files name = start.files name ∨ ∃ i recs, names.getD i [] = name ∧ s.files name = some recs ∧ Had names start es i recs := by
  have h0 : Real names start [] start := ⟨rfl, fun i w r hi => (by rw [hs.saving] at hi; cases hi), fun _ => Or.inl rfl⟩
  simpa using (real_run h0 h).file name

private structure Base (names : List Str) (s : Prog H) : Prop where
  named : ∀ j x, s.saving j = some x → names.getD j [] ≠ []
  stop : ∀ j r, s.saving j = some ⟨.stop, r⟩ → s.phase = .stopping j ∨ s.phase = .ended
  bound : ∀ k, s.phase = .stopping k → k ≤ names.length

private theorem named_lt {names : List Str} {j : Nat} (h : names.getD j [] ≠ []) : j < names.length := by
  rcases Nat.lt_or_ge j names.length with g | g
  · exact g
  · exact absurd (by rw [List.getD_eq_getElem?_getD, List.getElem?_eq_none g]; rfl) h

private theorem base_done {names : List Str} {s : Prog H} (h : Base names s) {j : Nat} {who : Who} {r : Option (List FileRec)} (hp : s.phase ≠ .ended) (hw : s.saving j = some ⟨who, r⟩)
    (files : Str → Option (List FileRec)) : Base names { s with files := files, saving := put s.saving j none, phase := advance s.phase who } := by
  refine ⟨fun k x hk => ?_, fun k r' hk => ?_, fun k hk => ?_⟩
  · simp only [put] at hk
    split at hk
    · cases hk
    · exact h.named k x hk
  · simp only [put] at hk
    split at hk
    · cases hk
    · next hkj =>
      rcases h.stop k r' hk with g | g
      · cases who with
        | interval => exact Or.inl g
        | stop =>
          rcases h.stop j _ hw with g' | g'
          · rw [g] at g'; cases g'; exact absurd rfl hkj
          · rw [g] at g'; cases g'
      · exact absurd g hp
  · cases who with
    | interval => exact h.bound k hk
    | stop =>
      rcases h.stop j _ hw with g | g
      · simp only [g, advance, Phase.stopping.injEq] at hk
        have := named_lt (h.named j _ hw)
        omega
      · exact absurd g hp

private theorem base_run {names : List Str} {es : List (Ev H)} : ∀ {s s' : Prog H}, Base names s → run names s es = some s' → Base names s' := by
  induction es with
  | nil => intro s s' h hr; cases hr; exact h
  | cons e es ih =>
    intro s s' h hr
    obtain ⟨s1, h1, h2⟩ := run_cons hr
    refine ih ?_ h2
    cases e with
    | changes j c => simp only [step] at h1; split at h1 <;> cases h1; exact ⟨h.named, h.stop, h.bound⟩
    | signal =>
      simp only [step] at h1
      split at h1
      · next hp =>
        cases h1
        refine ⟨h.named, fun j r hj => ?_, fun k hk => by cases hk; exact Nat.zero_le _⟩
        rcases h.stop j r hj with k | k <;> rw [hp] at k <;> cases k
      · cases h1; exact h
      · cases h1
    | begins j who =>
      simp only [step] at h1
      split at h1
      · cases h1
      · next hc =>
        cases h1
        simp only [not_or] at hc
        obtain ⟨c1, c2, c3, c4⟩ := hc
        refine ⟨fun k x hk => ?_, fun k r hk => ?_, h.bound⟩
        · simp only [put] at hk
          split at hk
          · next e => subst e; exact c3
          · exact h.named k x hk
        · simp only [put] at hk
          split at hk
          · next e => cases hk; subst e; exact Or.inl (Classical.byContradiction fun hne => c4 ⟨rfl, hne⟩)
          · exact h.stop k r hk
    | reads j =>
      simp only [step] at h1
      split at h1
      · cases h1
      · next who hw hp =>
        simp only [Option.map_eq_some_iff] at h1
        obtain ⟨recs, g, rfl⟩ := h1
        refine ⟨fun k x hk => ?_, fun k r hk => ?_, h.bound⟩
        · simp only [put] at hk
          split at hk
          · next e => subst e; exact h.named _ _ hw
          · exact h.named k x hk
        · simp only [put] at hk
          split at hk
          · next e => cases hk; subst e; exact h.stop _ _ hw
          · exact h.stop k r hk
      · cases h1
    | lands j =>
      simp only [step] at h1
      split at h1
      · cases h1
      · next who recs hw hp => cases h1; exact base_done h hp hw _
      · cases h1
    | fails j =>
      simp only [step] at h1
      split at h1
      · cases h1
      · next who recs hw hp => cases h1; exact base_done h hp hw _
      · cases h1
    | closes =>
      simp only [step] at h1
      split at h1
      · next k hk =>
        split at h1
        · next hc =>
          cases h1
          refine ⟨h.named, fun j r hj => ?_, fun k' hk' => ?_⟩
          · rcases h.stop j r hj with g | g <;> rw [hk] at g <;> cases g
            exact absurd (by rw [List.getD_eq_getElem?_getD, hc]; rfl) (h.named _ _ hj)
          · cases hk'
            exact (List.getElem?_eq_some_iff.mp hc).1
        · cases h1
      · cases h1
    | ends =>
      simp only [step] at h1
      split at h1 <;> cases h1
      exact ⟨h.named, fun _ _ _ => Or.inr rfl, by simp⟩

/-- What is left to do of a save. -/
private theorem finish {names : List Str} {s : Prog H} {k : Nat} {w : Who} {r : Option (List FileRec)} (hp : s.phase ≠ .ended) (hs : s.saving k = some ⟨w, r⟩)
    (hm : ∀ j, (saveFile (s.mem j)).isSome = true) (bad : Nat → Prop) :
    ∃ es s', run names s es = some s' ∧ s'.phase = advance s.phase w ∧ s'.saving k = none ∧ s'.mem = s.mem ∧ Ev.signal ∉ es ∧
      ∀ j, (Ev.fails j ∈ es → bad j) ∧ (Ev.lands j ∈ es → ¬ bad j) := by
  have fin : ∀ (s : Prog H), s.phase ≠ .ended → ∀ recs, s.saving k = some ⟨w, some recs⟩ →
      run names s [.lands k] = some { s with files := put s.files (names.getD k []) (some recs), saving := put s.saving k none, phase := advance s.phase w } := by
    intro s hp recs hs
    cases hph : s.phase with
    | ended => exact absurd hph hp
    | _ => simp [run, step, hph, hs]
  by_cases hb : bad k
  · refine ⟨[.fails k], { s with saving := put s.saving k none, phase := advance s.phase w }, ?_, rfl, by simp [put], rfl, by simp, ?_⟩
    · cases hph : s.phase with
      | ended => exact absurd hph hp
      | _ => simp [run, step, hph, hs]
    · intro j
      exact ⟨fun hj => by simp at hj; rw [hj]; exact hb, by simp⟩
  · cases r with
    | some recs =>
      refine ⟨[.lands k], _, fin s hp recs hs, rfl, by simp [put], rfl, by simp, ?_⟩
      intro j
      exact ⟨by simp, fun hj => by simp at hj; rw [hj]; exact hb⟩
    | none =>
      obtain ⟨recs, hr⟩ := Option.isSome_iff_exists.mp (hm k)
      have h1 : run names s [.reads k] = some { s with saving := put s.saving k (some ⟨w, some recs⟩) } := by
        cases hph : s.phase with
        | ended => exact absurd hph hp
        | _ => simp [run, step, hph, hs, hr]
      have h2 := fin { s with saving := put s.saving k (some ⟨w, some recs⟩) } hp recs (by simp [put])
      have h3 := (run_append (b := [Ev.lands k]) h1).trans h2
      refine ⟨[.reads k, .lands k], { s with files := put s.files (names.getD k []) (some recs), saving := put (put s.saving k (some ⟨w, some recs⟩)) k none, phase := advance s.phase w }, h3, rfl, by simp [put], rfl, by simp, ?_⟩
      intro j
      exact ⟨by simp, fun hj => by simp at hj; rw [hj]; exact hb⟩

/-- C128: a stop cannot get stuck, and a cache that cannot be saved does not keep others from being saved: after a signal, from whatever state the program is in, and for every set of caches whose
saves fail, it can go on to its end with no further signal, while all other saves succeed (so that the others are saved, `stop_saves`). (What the caches hold can be encoded, C91.) -/
theorem can_end (names : List Str) (start : Prog H) (hs : Started start) (es0 : List (Ev H)) (s : Prog H) (h : run names start es0 = some s) (hp : s.phase ≠ .running)
    (hm : ∀ j, (saveFile (s.mem j)).isSome = true) (bad : Nat → Prop) :
    ∃ es s', run names s es = some s' ∧ s'.phase = .ended ∧ Ev.signal ∉ es ∧ ∀ j, (Ev.fails j ∈ es → bad j) ∧ (Ev.lands j ∈ es → ¬ bad j) := by
  have hb : Base names s := by
    refine base_run ⟨fun j x hj => ?_, fun j r hj => ?_, fun k hk => ?_⟩ h
    · rw [hs.saving] at hj; cases hj
    · rw [hs.saving] at hj; cases hj
    · rw [hs.phase] at hk; cases hk
  have key : ∀ (n : Nat) (s : Prog H) (k : Nat), s.phase = .stopping k → k + n = names.length → (∀ j, (saveFile (s.mem j)).isSome = true) →
      ∃ es s', run names s es = some s' ∧ s'.phase = .ended ∧ Ev.signal ∉ es ∧ ∀ j, (Ev.fails j ∈ es → bad j) ∧ (Ev.lands j ∈ es → ¬ bad j) := by
    intro n
    induction n with
    | zero =>
      intro s k hk hn _
      have hk' : s.phase = .stopping names.length := by rw [hk, ← hn]; rfl
      exact ⟨[.ends], { s with phase := .ended }, by simp [run, step, hk'], rfl, by simp, fun j => by simp⟩
    | succ n ih =>
      intro s k hk hn hm
      -- the rest, once this cache is done
      have rest : ∀ (a : List (Ev H)) (s1 : Prog H), run names s a = some s1 → s1.phase = .stopping (k + 1) → s1.mem = s.mem → Ev.signal ∉ a →
          (∀ j, (Ev.fails j ∈ a → bad j) ∧ (Ev.lands j ∈ a → ¬ bad j)) →
          ∃ es s', run names s es = some s' ∧ s'.phase = .ended ∧ Ev.signal ∉ es ∧ ∀ j, (Ev.fails j ∈ es → bad j) ∧ (Ev.lands j ∈ es → ¬ bad j) := by
        intro a s1 ha h1 h2 h3 h4
        obtain ⟨b, s', g1, g2, g3, g4⟩ := ih s1 (k + 1) h1 (by omega) (by rw [h2]; exact hm)
        refine ⟨a ++ b, s', (run_append ha).trans g1, g2, ?_, fun j => ⟨fun hj => ?_, fun hj => ?_⟩⟩
        · intro hx
          rcases List.mem_append.mp hx with hx | hx
          · exact h3 hx
          · exact g3 hx
        · rcases List.mem_append.mp hj with hj | hj
          · exact (h4 j).1 hj
          · exact (g4 j).1 hj
        · rcases List.mem_append.mp hj with hj | hj
          · exact (h4 j).2 hj
          · exact (g4 j).2 hj
      have hlt : k < names.length := by omega
      by_cases he : names[k] = []
      · refine rest [.closes] { s with phase := .stopping (k + 1) } ?_ rfl rfl (by simp) (fun j => by simp)
        simp [run, step, hk, hlt, he]
      · have hg : names.getD k [] ≠ [] := by
          rw [List.getD_eq_getElem?_getD, List.getElem?_eq_getElem hlt]; exact he
        -- a save of its own
        have own : ∀ (s1 : Prog H), s1.phase = .stopping k → s1.saving k = none → s1.mem = s.mem → ∃ es s', run names s1 es = some s' ∧ s'.phase = .stopping (k + 1) ∧ s'.mem = s.mem ∧
            Ev.signal ∉ es ∧ ∀ j, (Ev.fails j ∈ es → bad j) ∧ (Ev.lands j ∈ es → ¬ bad j) := by
          intro s1 p1 p2 p3
          have b1 : run names s1 [.begins k .stop] = some { s1 with saving := put s1.saving k (some ⟨.stop, none⟩) } := by
            have : ¬ (s1.phase = .ended ∨ s1.saving k ≠ none ∨ names.getD k [] = [] ∨ (True ∧ s1.phase ≠ .stopping k)) := by
              rintro (a | a | a | ⟨_, a⟩)
              · rw [p1] at a; cases a
              · exact a p2
              · exact hg a
              · exact a p1
            simp only [run, step]
            rw [if_neg this]
            rfl
          obtain ⟨es, s', f1, f2, f3, f4, f5, f6⟩ := finish (names := names) (s := { s1 with saving := put s1.saving k (some ⟨.stop, none⟩) }) (k := k) (w := .stop) (r := none)
            (by show s1.phase ≠ _; rw [p1]; simp) (by simp [put]) (by show ∀ j, (saveFile (s1.mem j)).isSome = true; rw [p3]; exact hm) bad
          refine ⟨[.begins k .stop] ++ es, s', (run_append b1).trans f1, by rw [f2]; show advance s1.phase .stop = _; rw [p1]; rfl, f4.trans p3, by simp [f5], fun j => by simpa using f6 j⟩
        cases hsv : s.saving k with
        | none =>
          obtain ⟨es, s', q1, q2, q3, q4, q5⟩ := own s hk hsv rfl
          exact rest es s' q1 q2 q3 q4 q5
        | some x =>
          obtain ⟨w, r⟩ := x
          obtain ⟨a, s1, f1, f2, f3, f4, f5, f6⟩ := finish (names := names) (s := s) (by rw [hk]; simp) hsv hm bad
          cases w with
          | stop => exact rest a s1 f1 (by rw [f2, hk]; rfl) f4 f5 f6
          | interval =>
            obtain ⟨es, s', q1, q2, q3, q4, q5⟩ := own s1 (by rw [f2, hk]; rfl) f3 f4
            refine rest (a ++ es) s' ((run_append f1).trans q1) q2 q3 ?_ (fun j => ⟨fun hj => ?_, fun hj => ?_⟩)
            · intro hx
              rcases List.mem_append.mp hx with hx | hx
              · exact f5 hx
              · exact q4 hx
            · rcases List.mem_append.mp hj with hj | hj
              · exact (f6 j).1 hj
              · exact (q5 j).1 hj
            · rcases List.mem_append.mp hj with hj | hj
              · exact (f6 j).2 hj
              · exact (q5 j).2 hj
  cases hph : s.phase with
  | running => exact absurd hph hp
  | ended => exact ⟨[], s, rfl, hph, by simp, fun j => by simp⟩
  | stopping k => exact key (names.length - k) s k hph (by have := hb.bound k hph; omega) hm

section Examples

private def exEnv : Env Nat where
  ipStr a := 49 :: a
  hash k := k.name.length
  encode m := some [m.rcode.toUInt8, (m.answer.map (fun r => r.ttl.toUInt8)).headD 0]
  decode w := match w with
    | [r, t] => some { rcode := r.toNat, response := true,
                       answer := if t = 0 then [] else [{ name := [97], rtype := 1, cls := 1, ttl := t.toNat, data := .a [1, 2, 3, 4] }] }
    | _ => none

private def exT : Int := 1700000000000000000
private def exQ (name : String) : Msg := { id := 5, question := [{ name := str name, qtype := 1, qclass := 1 }] }
private def exA : Msg := { response := true, answer := [{ name := [97], rtype := 1, cls := 1, ttl := 100, data := .a [1, 2, 3, 4] }] }
private def empty : State Nat := Lru.new 10
private def one : State Nat := (storeInCache exEnv {} empty (exQ "a.") exA exT).getD empty
private def two : State Nat := (storeInCache exEnv {} one (exQ "bb.") exA exT).getD empty

private def exStart : Prog Nat := { mem := fun i => if i = 0 then one else two, files := fun _ => none }
private def exNames : List Str := [str "a.json", [], str "c.json"]

example : Started exStart := ⟨fun _ => rfl, rfl⟩

/-- A save of the first cache is under way when the signal comes. A response is stored meanwhile; the save of the stop has it. The second cache has no file. The third one fails. -/
private def exRun : List (Ev Nat) :=
  [.begins 0 .interval, .reads 0, .signal, .changes 0 two, .lands 0, .signal, .begins 0 .stop, .reads 0, .lands 0, .closes, .begins 2 .stop, .fails 2, .ends]

private def lens (s : Prog Nat) (n : Str) : Option Nat := (s.files n).map List.length

example : (run exNames exStart exRun).map (fun s => (lens s (str "a.json"), lens s (str "c.json"), s.phase)) = some (some 2, none, .ended) := by decide
example : Ev.fails 0 ∉ exRun ∧ exNames[0]? = some (str "a.json") ∧ (∀ j, exNames[j]? = some (str "a.json") → j = 0) := by
  refine ⟨by simp [exRun], rfl, fun j hj => ?_⟩
  match j, hj with
  | 0, _ => rfl
  | 1, hj => exact absurd hj (by decide)
  | 2, hj => exact absurd hj (by decide)
  | j + 3, hj => simp [exNames] at hj

/-- While a save has the lock, that of the stop waits. -/
example : (run exNames exStart [.signal, .begins 0 .interval, .begins 0 .stop]).isNone = true := by decide

/-- Finding: two caches with the same file name write over each other; what is left is that of the one built last, and the next start gives both of them its entries. -/
theorem shared_file_last : ((run [str "a.json", str "a.json"] exStart [.signal, .begins 0 .stop, .reads 0, .lands 0, .begins 1 .stop, .reads 1, .lands 1, .ends]).map
    fun s => (s.phase, s.files (str "a.json"))) = some (.ended, saveFile two) ∧ saveFile one ≠ saveFile two := by decide

/-- What is stored after the save of the stop is lost: the cache has two entries at the end, its file one. -/
example : ((run [str "a.json", []] exStart [.signal, .begins 0 .stop, .reads 0, .changes 0 two, .lands 0, .closes, .ends]).map
    fun s => (s.phase, lens s (str "a.json"), (saveFile (s.mem 0)).map List.length)) = some (.ended, some 1, some 2) := by decide

end Examples

end Verif.Props.Stopping
