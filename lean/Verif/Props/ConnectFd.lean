import Verif.Spec.ConnectFd
/-
C89: connecting a descriptor within a time limit.
-/
namespace Verif.Props.ConnectFd
open Verif.ConnectFd Verif.Spec.ConnectFd
set_option linter.unusedVariables false
set_option linter.unusedSimpArgs false

private def ends (so : Except Errno Nat) : Poll → Result
  | .ready => finish so
  | .timedOut => .timedOut
  | .err e => .err "poll" e

private theorem loop_ends (t : Int) (so : Except Errno Nat) (ps : List Poll) (r : Result) :
    (loop t so ps).1 = some r ↔ ∃ k p rest, ps = List.replicate k (.err EINTR) ++ p :: rest ∧ p ≠ .err EINTR ∧
      r = ends so p := by
  induction ps with
  | nil => simp [loop]
  | cons p ps ih =>
    have hcons : ∀ k q rest, p :: ps = List.replicate k (.err EINTR) ++ q :: rest → p ≠ .err EINTR → p = q := by
      intro k q rest h hp
      cases k with
      | zero => simp at h; exact h.1
      | succ k => rw [List.replicate_succ, List.cons_append] at h; injection h with h1 _; exact (hp h1).elim
    by_cases hp : p = .err EINTR
    · subst hp
      simp only [loop, if_true, ih]
      constructor
      · rintro ⟨k, q, rest, h1, h2, h3⟩
        exact ⟨k + 1, q, rest, by rw [h1, List.replicate_succ]; rfl, h2, h3⟩
      · rintro ⟨k, q, rest, h1, h2, h3⟩
        cases k with
        | zero => simp at h1; exact (h2 h1.1.symm).elim
        | succ k =>
          rw [List.replicate_succ, List.cons_append] at h1
          injection h1 with _ h1
          exact ⟨k, q, rest, h1, h2, h3⟩
    · have hl : (loop t so (p :: ps)).1 = some (ends so p) := by
        cases p with
        | ready => rfl
        | timedOut => rfl
        | err e => simp only [loop]; rw [if_neg (fun h => hp (by rw [h]))]; rfl
      rw [hl]
      constructor
      · intro h; exact ⟨0, p, ps, by simp, hp, (Option.some.inj h).symm⟩
      · rintro ⟨k, q, rest, h1, h2, h3⟩
        have := hcons k q rest h1 hp
        subst this
        rw [h3]

private theorem under_way {t : Int} {c : Calls} (h : UnderWay c) : connectFd t c = loop t c.soError c.polls := by
  obtain ⟨h1, h2⟩ := h
  unfold connectFd
  rw [h1]
  rcases h2 with h2 | h2 <;> rw [h2] <;> simp [EINPROGRESS, EINTR]

private theorem not_under_way {t : Int} {c : Calls} (h : ¬ UnderWay c) :
    (c.setNonblock = none ∧ c.connect = none ∧ connectFd t c = (some .connected, [])) ∨
    (¬ (c.setNonblock = none ∧ c.connect = none) ∧ ∃ s e, connectFd t c = (some (.err s e), [])) := by
  unfold UnderWay at h
  unfold connectFd
  cases h1 : c.setNonblock with
  | some e => exact Or.inr ⟨by simp, _, e, rfl⟩
  | none =>
    cases h2 : c.connect with
    | none => exact Or.inl ⟨rfl, rfl, rfl⟩
    | some e =>
      right
      refine ⟨by simp, "connect", e, ?_⟩
      rw [h1, h2] at h
      have : e ≠ EINPROGRESS ∧ e ≠ EINTR := ⟨fun he => h ⟨rfl, Or.inl (by rw [he]; rfl)⟩, fun he => h ⟨rfl, Or.inr (by rw [he]; rfl)⟩⟩
      simp only [this, ne_eq, not_false_eq_true, and_self, if_true]

/-- It reports success exactly when the kernel has connected the descriptor. -/
theorem success_iff (t : Int) (c : Calls) : (connectFd t c).1 = some .connected ↔ Connected c := by
  unfold Connected
  by_cases h : UnderWay c
  · rw [under_way h, loop_ends]
    have hno : ¬ (c.setNonblock = none ∧ c.connect = none) := by
      rintro ⟨_, h2⟩
      rcases h.2 with h3 | h3 <;> rw [h2] at h3 <;> cases h3
    constructor
    · rintro ⟨k, p, rest, h1, h2, h3⟩
      right
      cases p with
      | ready =>
        dsimp only [ends] at h3
        unfold finish at h3
        split at h3
        · cases h3
        · split at h3
          · cases h3
          · rename_i e he hz
            have : e = 0 := Classical.byContradiction hz
            subst this
            exact ⟨h, ⟨k, rest, h1⟩, he⟩
      | timedOut => cases h3
      | err e => cases h3
    · rintro (h1 | ⟨_, ⟨k, rest, h2⟩, h3⟩)
      · exact (hno h1).elim
      · exact ⟨k, .ready, rest, h2, by simp, by simp [ends, finish, h3]⟩
  · rcases not_under_way (t := t) h with ⟨h1, h2, h3⟩ | ⟨h1, s, e, h3⟩
    · rw [h3]; simp [h1, h2]
    · rw [h3]; simp [h1, h]

/-- It reports that the time is over exactly when the kernel says so in a poll. -/
theorem timeout_iff (t : Int) (c : Calls) : (connectFd t c).1 = some .timedOut ↔ UnderWay c ∧ ∃ k, PollSays c k .timedOut := by
  by_cases h : UnderWay c
  · rw [under_way h, loop_ends]
    constructor
    · rintro ⟨k, p, rest, h1, h2, h3⟩
      cases p with
      | ready =>
        exfalso
        dsimp only [ends] at h3
        unfold finish at h3
        split at h3
        · cases h3
        · split at h3 <;> cases h3
      | timedOut => exact ⟨h, k, rest, h1⟩
      | err e => cases h3
    · rintro ⟨_, k, rest, h1⟩
      exact ⟨k, .timedOut, rest, h1, by simp, rfl⟩
  · rcases not_under_way (t := t) h with ⟨h1, h2, h3⟩ | ⟨h1, s, e, h3⟩ <;> rw [h3] <;> simp [h]

/-- Errors are those of the system calls: the one reported was returned by a call, and a connection that was refused later is reported as such. -/
theorem refused_reported (t : Int) (c : Calls) (k : Nat) (e : Errno) (h : UnderWay c) (hp : PollSays c k .ready) (he : c.soError = .ok e) (h0 : e ≠ 0) :
    (connectFd t c).1 = some (.err "connect" e) := by
  obtain ⟨rest, hp⟩ := hp
  rw [under_way h, loop_ends]
  exact ⟨k, .ready, rest, hp, by simp, by simp [ends, finish, he, h0]⟩

/-- Every wait is bounded by the time limit (by a millisecond if that is shorter), and unbounded exactly when there is no limit. -/
theorem waits_bounded (t : Int) (c : Calls) (w : Int) (h : w ∈ (connectFd t c).2) :
    (t ≤ 0 → w = -1) ∧ (0 < t → 1 ≤ w ∧ (1000000 ≤ t → w * 1000000 ≤ t ∧ t < (w + 1) * 1000000) ∧ (t < 1000000 → w = 1)) := by
  have hw : w = limit t := by
    by_cases hu : UnderWay c
    · rw [under_way hu] at h
      generalize c.polls = ps at h
      induction ps with
      | nil => simpa [loop] using h
      | cons p ps ih =>
        cases p with
        | ready => simpa [loop] using h
        | timedOut => simpa [loop] using h
        | err e =>
          simp only [loop] at h
          split at h
          · rcases List.mem_cons.mp h with h | h
            · exact h
            · exact ih h
          · simpa using h
    · rcases not_under_way (t := t) hu with ⟨_, _, h3⟩ | ⟨_, s, e, h3⟩ <;> rw [h3] at h <;> cases h
  subst hw
  unfold limit
  split
  · split <;> omega
  · omega

/-- Finding: each interruption by a signal starts the whole time limit again; after `k` of them it has polled `k + 1` times with the full limit. -/
theorem interruptions_restart (t : Int) (c : Calls) (k : Nat) (h : UnderWay c) (hp : PollSays c k .timedOut) : (connectFd t c).2 = List.replicate (k + 1) (limit t) := by
  obtain ⟨rest, hp⟩ := hp
  rw [under_way h, hp]
  clear hp
  induction k with
  | zero => rfl
  | succ k ih =>
    rw [List.replicate_succ, List.cons_append]
    simp only [loop, if_true]
    rw [ih]
    rfl

section Examples

/-- Interrupted twice, then connected. -/
private def late : Calls := ⟨none, some EINPROGRESS, [.err EINTR, .err EINTR, .ready], .ok 0⟩
example : connectFd 2500000000 late = (some .connected, [2500, 2500, 2500]) := by decide +kernel
example : Connected late := Or.inr ⟨⟨rfl, Or.inl rfl⟩, ⟨2, [], rfl⟩, rfl⟩
example : connectFd 0 ⟨none, some EINPROGRESS, [.ready], .ok 111⟩ = (some (.err "connect" 111), [-1]) := by decide +kernel
example : connectFd 300 ⟨none, some EINTR, [.err EINTR, .timedOut], .ok 0⟩ = (some .timedOut, [1, 1]) := by decide +kernel

end Examples

end Verif.Props.ConnectFd
