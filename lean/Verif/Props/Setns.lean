import Verif.Model.Setns
/-
C67: switching to a network namespace and back.
-/
set_option linter.unusedVariables false
set_option linter.unusedSimpArgs false
namespace Verif.Props.Setns
open Verif.Setns

/-- The events of `es` happen one after the other from `s`, and `P` holds of every state together with the event that happens in it. -/
def Along (P : Sys → Ev → Prop) : Sys → List Ev → Prop
  | _, [] => True
  | s, e :: es => P s e ∧ ∀ s', step s e = some s' → Along P s' es

/-- All is in order: a thread without call is at home, and every call in progress remembers that. -/
private def Inv (home : Nat) (s : Sys) : Prop := ∀ t, match s.phase t with
  | .out => s.ns t = home
  | .saved o => s.ns t = home ∧ o = home
  | .inside o => o = home

private theorem inv_step {home : Nat} {s s' : Sys} {e : Ev} (hi : Inv home s) (h1 : ∀ t, e = .save t → s.ns 0 = home) (h2 : ∀ t, e ≠ .back t false) (hs : step s e = some s') :
    Inv home s' := by
  cases e with
  | save t =>
    simp only [step] at hs
    split at hs
    · rename_i hp
      simp only [Option.some.injEq] at hs
      subst hs
      intro u
      have := hi u
      simp only [upd]
      by_cases hu : u = t
      · subst hu
        rw [if_pos rfl]
        rw [hp] at this
        exact ⟨this, h1 u rfl⟩
      · rw [if_neg hu]; exact this
    · simp at hs
  | fail t =>
    simp only [step] at hs
    split at hs
    · rename_i o hp
      simp only [Option.some.injEq] at hs
      subst hs
      intro u
      have := hi u
      simp only [upd]
      by_cases hu : u = t
      · subst hu
        rw [if_pos rfl]
        rw [hp] at this
        exact this.1
      · rw [if_neg hu]; exact this
    · simp at hs
  | switch t target =>
    simp only [step] at hs
    split at hs
    · rename_i o hp
      simp only [Option.some.injEq] at hs
      subst hs
      intro u
      have := hi u
      simp only [upd]
      by_cases hu : u = t
      · subst hu
        rw [if_pos rfl]
        rw [hp] at this
        exact this.2
      · rw [if_neg hu, if_neg hu]; exact this
    · simp at hs
  | back t ok =>
    cases ok with
    | false => exact absurd rfl (h2 t)
    | true =>
      simp only [step] at hs
      split at hs
      · rename_i o hp
        simp only [Option.some.injEq] at hs
        subst hs
        intro u
        have := hi u
        simp only [upd, if_true]
        by_cases hu : u = t
        · subst hu
          rw [if_pos rfl, if_pos rfl]
          rw [hp] at this
          exact this
        · rw [if_neg hu, if_neg hu]; exact this
      · simp at hs

private theorem inv_run {home : Nat} (es : List Ev) : ∀ s s', Inv home s → Along (fun s e => (∀ t, e = .save t → s.ns 0 = home) ∧ ∀ t, e ≠ .back t false) s es →
    run s es = some s' → Inv home s' := by
  induction es with
  | nil => intro s s' hi _ h; simp only [run, Option.some.injEq] at h; subst h; exact hi
  | cons e es ih =>
    intro s s' hi ha h
    simp only [run] at h
    cases hs : step s e with
    | none => rw [hs] at h; simp at h
    | some s1 =>
      rw [hs] at h
      exact ih s1 s' (inv_step hi ha.1.1 ha.1.2 hs) (ha.2 s1 hs) h

/-- C67: however calls on any threads overlap, as long as no call opens `/proc/self/ns/net` while the main thread is in another namespace and no switch back fails, every thread
that is not within a target namespace is in the program's own one: other work never runs in a foreign namespace. -/
theorem netns_restored (home : Nat) (es : List Ev) (s : Sys) (h : run (init home) es = some s)
    (hc : Along (fun s e => (∀ t, e = .save t → s.ns 0 = home) ∧ ∀ t, e ≠ .back t false) (init home) es) :
    ∀ t, s.phase t = .out → s.ns t = home := by
  have hi : Inv home s := inv_run es (init home) s (fun t => rfl) hc h
  intro t ht
  have := hi t
  rw [ht] at this
  exact this

/-- C67: `fn` runs in the target namespace: from the switch to the switch back the thread's namespace is the target's, whatever the other threads do. -/
theorem netns_inside (s s1 s' : Sys) (t target : Nat) (es : List Ev) (h1 : step s (.switch t target) = some s1) (h2 : run s1 es = some s') (h3 : ∀ e, e ∈ es → ∀ ok, e ≠ .back t ok) :
    s'.ns t = target ∧ s'.phase t = s1.phase t := by
  have hs1 : s1.ns t = target ∧ ∃ o, s1.phase t = .inside o := by
    simp only [step] at h1
    split at h1
    · rename_i o _
      simp only [Option.some.injEq] at h1
      subst h1
      simp [upd]
    · simp at h1
  clear h1
  induction es generalizing s1 with
  | nil => simp only [run, Option.some.injEq] at h2; subst h2; exact ⟨hs1.1, rfl⟩
  | cons e es ih =>
    simp only [run] at h2
    cases hs : step s1 e with
    | none => rw [hs] at h2; simp at h2
    | some s2 =>
      rw [hs] at h2
      obtain ⟨hn, o, hp⟩ := hs1
      have key : s2.ns t = s1.ns t ∧ s2.phase t = s1.phase t := by
        cases e with
        | save u =>
          simp only [step] at hs
          split at hs
          · rename_i hu
            simp only [Option.some.injEq] at hs
            subst hs
            have : t ≠ u := by rintro rfl; rw [hp] at hu; simp at hu
            simp [upd, this]
          · simp at hs
        | fail u =>
          simp only [step] at hs
          split at hs
          · rename_i hu
            simp only [Option.some.injEq] at hs
            subst hs
            have : t ≠ u := by rintro rfl; rw [hp] at hu; simp at hu
            simp [upd, this]
          · simp at hs
        | switch u g =>
          simp only [step] at hs
          split at hs
          · rename_i hu
            simp only [Option.some.injEq] at hs
            subst hs
            have : t ≠ u := by rintro rfl; rw [hp] at hu; simp at hu
            simp [upd, this]
          · simp at hs
        | back u ok =>
          have hut : t ≠ u := by rintro rfl; exact h3 _ (by simp) ok rfl
          simp only [step] at hs
          split at hs
          · simp only [Option.some.injEq] at hs
            subst hs
            cases ok <;> simp [upd, hut]
          · simp at hs
      have := ih s2 h2 (fun e he => h3 e (by simp [he])) ⟨by rw [key.1]; exact hn, o, by rw [key.2]; exact hp⟩
      exact ⟨this.1, by rw [this.2, key.2]⟩

/-- Finding: if a call on another thread begins while the main thread is within a namespace, that thread is "restored" to the main thread's target: it is left in a foreign
namespace although every call of the kernel succeeds, for any two namespaces. -/
theorem netns_race (home a b : Nat) (hab : a ≠ home) :
    ∃ es s, run (init home) es = some s ∧ (∀ e, e ∈ es → ∀ t, e ≠ .back t false) ∧ (∀ t, s.phase t = .out) ∧ s.ns 1 = a ∧ s.ns 1 ≠ home := by
  refine ⟨[.save 0, .switch 0 a, .save 1, .switch 1 b, .back 0 true, .back 1 true], _, rfl, ?_, ?_, rfl, ?_⟩
  · intro e he t h
    subst h
    simp at he
  · intro t
    by_cases h0 : t = 0
    · subst h0; rfl
    · by_cases h1 : t = 1
      · subst h1; rfl
      · simp [upd, h0, h1, init]
  · exact hab

/-- Finding: a failing switch back is ignored, and the thread goes on in the foreign namespace. -/
theorem netns_back_fails (home a : Nat) (hab : a ≠ home) :
    ∃ s, run (init home) [.save 1, .switch 1 a, .back 1 false] = some s ∧ s.phase 1 = .out ∧ s.ns 1 ≠ home := by
  refine ⟨_, rfl, rfl, ?_⟩
  simpa [upd] using hab

/-! ### Examples -/

/-- Two overlapping calls on threads other than the main one -/
example : ∃ s, run (init 1) [.save 3, .save 4, .switch 4 7, .switch 3 8, .back 4 true, .save 4, .fail 4, .back 3 true] = some s ∧ s.ns 3 = 1 ∧ s.ns 4 = 1 ∧ s.phase 3 = .out :=
  ⟨_, rfl, rfl, rfl, rfl⟩
/-- The hypothesis of `netns_restored` holds of it. -/
example : Along (fun s e => (∀ t, e = .save t → s.ns 0 = 1) ∧ ∀ t, e ≠ .back t false) (init 1) [.save 3, .save 4, .switch 4 7, .switch 3 8, .back 4 true, .save 4, .fail 4, .back 3 true] := by
  refine ⟨⟨fun _ _ => rfl, by simp⟩, fun s h => ?_⟩; cases h
  refine ⟨⟨fun _ _ => rfl, by simp⟩, fun s h => ?_⟩; cases h
  refine ⟨⟨by simp, by simp⟩, fun s h => ?_⟩; cases h
  refine ⟨⟨by simp, by simp⟩, fun s h => ?_⟩; cases h
  refine ⟨⟨by simp, by simp⟩, fun s h => ?_⟩; cases h
  refine ⟨⟨fun _ _ => rfl, by simp⟩, fun s h => ?_⟩; cases h
  refine ⟨⟨by simp, by simp⟩, fun s h => ?_⟩; cases h
  exact ⟨⟨by simp, by simp⟩, fun s h => trivial⟩

end Verif.Props.Setns
