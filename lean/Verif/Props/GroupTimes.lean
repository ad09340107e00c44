import Verif.Spec.GroupTimes
/-
C97: when groups come back to members that failed.
-/
namespace Verif.Props.GroupTimes
open Verif Verif.GroupTimes Verif.Spec.GroupTimes

private theorem countP_set {α} (p : α → Bool) : ∀ (l : List α) (k : Nat) (x y : α), l[k]? = some x →
    (l.set k y).countP p + (if p x then 1 else 0) = l.countP p + (if p y then 1 else 0) := by
  intro l
  induction l with
  | nil => intro k x y h; simp at h
  | cons a l ih =>
    intro k x y h
    cases k with
    | zero =>
      simp only [List.getElem?_cons_zero, Option.some.injEq] at h
      subst h
      simp only [List.set_cons_zero, List.countP_cons]
      omega
    | succ k =>
      simp only [List.getElem?_cons_succ] at h
      have := ih k x y h
      simp only [List.set_cons_succ, List.countP_cons]
      omega

namespace Back
open Verif.GroupTimes.Back Verif.Spec.GroupTimes.Back
open Verif.Group.Back (Ev Sys Timer)

private def isSending : Group.Phase → Bool
  | .sending _ _ => true
  | _ => false

/-- failovers the timer has not been told of -/
private def pend (s : TSys) : Nat := s.sys.queries.countP isSending + s.sys.buf

private theorem settled_iff (s : TSys) : Settled s ↔ pend s = 0 := by
  unfold Settled pend
  constructor
  · rintro ⟨h1, h2⟩
    have : s.sys.queries.countP isSending = 0 := by
      rw [List.countP_eq_zero]
      intro p hp hs
      cases p <;> simp [isSending] at hs
      exact h2 _ _ hp
    omega
  · intro h
    have h0 : s.sys.queries.countP isSending = 0 := by omega
    rw [List.countP_eq_zero] at h0
    exact ⟨by omega, fun i r hp => h0 _ hp rfl⟩

/-- What a step does, as far as time goes. -/
private inductive Eff (reset : Int) (s s' : TSys) : Prop
  | quiet : pend s' = pend s → s'.sys.timer = s.sys.timer → s'.sys.active = s.sys.active → s'.now = s.now → s'.deadline = s.deadline → s'.log = s.log → Eff reset s s'
  | over : pend s' = pend s + 1 → s'.sys.timer = (if s.sys.timer = .off then .armed else s.sys.timer) → s'.now = s.now →
      s'.deadline = (if s.sys.timer = .off then s.now + reset else s.deadline) → s'.log = (s.now, .failover) :: s.log → Eff reset s s'
  | recv : pend s = pend s' + 1 → s'.sys.timer = .armed → s.sys.timer ≠ .off → s'.sys.active = s.sys.active → s'.now = s.now → s'.deadline = s.now + reset → s'.log = s.log → Eff reset s s'
  | fire : s.sys.timer = .armed → s.deadline ≤ s.now → pend s' = pend s → s'.sys.timer = .parked → s'.sys.active = 0 → s'.now = s.now → s'.log = (s.now, .back) :: s.log → Eff reset s s'
  | tick (t : Int) : s.now < t → s' = { s with now := t } → Eff reset s s'

private theorem next_sending (n i : Nat) (r : Res) : isSending (Group.nextAttempt n i r) = false := by
  unfold Group.nextAttempt; split <;> rfl

private theorem get_set {qs : List Group.Phase} {k : Nat} {x : Group.Phase} (y : Group.Phase) (h : qs[k]? = some x) : (qs.set k y)[k]? = some y := by
  have hk : k < qs.length := by
    rcases Nat.lt_or_ge k qs.length with h1 | h1
    · exact h1
    · rw [List.getElem?_eq_none h1] at h; cases h
  simp [hk]

private theorem eff {n : Nat} {ok : Res → Bool} {reset : Int} {s s' : TSys} {e : TEv} (h : tstep n ok reset s e = some s') : Eff reset s s' := by
  cases e with
  | tick t =>
    simp only [tstep] at h
    split at h
    · cases h; exact .tick t (by assumption) rfl
    · cases h
  | ev e =>
    simp only [tstep] at h
    split at h
    · next hd =>
      simp only [Option.map_eq_some_iff] at h
      obtain ⟨s1, h1, rfl⟩ := h
      cases e with
      | start =>
        simp only [Group.Back.step, Option.some.injEq] at h1
        subst h1
        refine .quiet ?_ rfl rfl rfl rfl rfl
        simp only [pend, List.countP_append]
        by_cases h : 0 < n <;> simp [h, isSending]
      | current k =>
        simp only [Group.Back.step] at h1
        split at h1
        · next i l hk =>
          cases h1
          refine .quiet ?_ rfl rfl rfl rfl rfl
          have := countP_set isSending _ _ _ (.calling i s.sys.active) hk
          simp only [isSending, Bool.false_eq_true, if_false, Nat.add_zero] at this
          simp only [pend]
          omega
        · cases h1
      | reply k r =>
        simp only [Group.Back.step] at h1
        split at h1
        · next i m hk =>
          cases h1
          refine .quiet ?_ rfl rfl rfl rfl rfl
          have := countP_set isSending _ _ _ (if ok r = true then .done r else .failed i m r) hk
          have hz : isSending (if ok r = true then .done r else .failed i m r) = false := by split <;> rfl
          rw [hz] at this
          simp only [isSending, Bool.false_eq_true, if_false, Nat.add_zero] at this
          simp only [pend]
          omega
        · cases h1
      | report k =>
        simp only [Group.Back.step] at h1
        split at h1
        · next i m r hk =>
          split at h1
          · cases h1
            have hc := countP_set isSending _ _ _ (Group.nextAttempt n i r) hk
            rw [next_sending] at hc
            simp only [isSending, Bool.false_eq_true, if_false, Nat.add_zero] at hc
            have hg := get_set (Group.nextAttempt n i r) hk
            have hn := next_sending n i r
            refine .quiet (by simp only [pend]; omega) rfl rfl rfl ?_ ?_
            · simp only [deadline]
              split
              · next hx => rw [hx.1] at hx; cases hx.2
              · rfl
            · simp only [notes, hg]
              cases hx : Group.nextAttempt n i r <;> rw [hx] at hn <;> first | rfl | (simp [isSending] at hn)
          · cases h1
            have hc := countP_set isSending _ _ _ (.sending i r) hk
            simp only [isSending] at hc
            have hg := get_set (.sending i r) hk
            refine .over (by simp only [pend]; simp at hc; omega) rfl rfl ?_ ?_
            · simp only [deadline]
              by_cases ht : s.sys.timer = .off <;> simp [ht]
            · simp only [notes, hg, List.singleton_append]
        · cases h1
      | send k =>
        simp only [Group.Back.step] at h1
        split at h1
        · next i r hk =>
          split at h1
          · cases h1
            refine .quiet ?_ rfl rfl rfl rfl rfl
            have hc := countP_set isSending _ _ _ (Group.nextAttempt n i r) hk
            rw [next_sending] at hc
            simp only [isSending] at hc
            simp only [pend]
            simp at hc
            omega
          · cases h1
        · cases h1
      | recv =>
        simp only [Group.Back.step] at h1
        split at h1
        · next hr =>
          cases h1
          exact .recv (by simp only [pend]; omega) rfl hr.1 rfl rfl rfl rfl
        · cases h1
      | fire =>
        simp only [Group.Back.step] at h1
        split at h1
        · next hr =>
          cases h1
          simp only [due, decide_eq_true_eq] at hd
          exact .fire hr hd rfl rfl rfl rfl rfl
        · cases h1
    · cases h

/-- the time of the latest failover -/
private def last : List (Int × Note) → Option Int
  | [] => none
  | (t, .failover) :: _ => some t
  | (_, .back) :: l => last l

private theorem last_iff (s : TSys) (t : Int) : LastFailover s t ↔ last s.log = some t := by
  unfold LastFailover
  generalize s.log = l
  induction l with
  | nil => simp [last]
  | cons x l ih =>
    obtain ⟨u, nt⟩ := x
    cases nt with
    | failover =>
      simp only [last, Option.some.injEq]
      constructor
      · rintro ⟨later, before, h, hl⟩
        cases later with
        | nil => simp at h; exact h.1
        | cons y later =>
          simp at h
          exact absurd (h.1 ▸ rfl) (hl y List.mem_cons_self)
      · rintro rfl
        exact ⟨[], l, rfl, by simp⟩
    | back =>
      simp only [last, ← ih]
      constructor
      · rintro ⟨later, before, h, hl⟩
        cases later with
        | nil => simp at h
        | cons y later =>
          simp at h
          exact ⟨later, before, h.2, fun x hx => hl x (List.mem_cons_of_mem _ hx)⟩
      · rintro ⟨later, before, h, hl⟩
        refine ⟨(u, .back) :: later, before, by simp [h], ?_⟩
        intro x hx
        rcases List.mem_cons.mp hx with rfl | hx
        · simp
        · exact hl x hx

private structure InvG (reset : Int) (s : TSys) : Prop where
  past : ∀ x ∈ s.log, x.1 ≤ s.now
  wait : pend s = 0 → s.sys.timer = .armed → ∀ t, (t, Note.failover) ∈ s.log → t + reset ≤ s.deadline
  off : s.sys.timer = .off → pend s = 0 ∧ s.sys.active = 0
  away : s.sys.active ≠ 0 → s.sys.timer = .armed ∨ 0 < pend s
  some : s.sys.timer ≠ .off → ∃ t, last s.log = some t
  least : s.sys.timer = .armed → ∃ t, (t, Note.failover) ∈ s.log ∧ t + reset ≤ s.deadline

private theorem g_init (reset : Int) (now : Int) : InvG reset { now := now } :=
  ⟨by simp, by simp [Group.Back.init], by simp [Group.Back.init, pend], by simp [Group.Back.init], by simp [Group.Back.init], by simp [Group.Back.init]⟩

private theorem g_step {reset : Int} {s s' : TSys} (h : InvG reset s) (he : Eff reset s s') : InvG reset s' := by
  obtain ⟨h1, h2, h3, h4, h5, h6⟩ := h
  cases he with
  | quiet a b c d e f => exact ⟨by rw [f, d]; exact h1, by rw [a, b, e, f]; exact h2, by rw [a, b, c]; exact h3, by rw [a, b, c]; exact h4, by rw [b, f]; exact h5, by rw [b, e, f]; exact h6⟩
  | over a b d e f =>
    refine ⟨?_, by intro h; omega, ?_, by intro _; right; omega, by intro _; rw [f]; exact ⟨_, rfl⟩, ?_⟩
    · rw [f, d]; intro x hx
      rcases List.mem_cons.mp hx with rfl | hx
      · exact Int.le_refl _
      · exact h1 x hx
    · rw [b]; intro h; split at h
      · cases h
      · next h' => exact absurd h h'
    · rw [b, e, f]; intro h
      by_cases ht : s.sys.timer = .off
      · exact ⟨s.now, by simp, by simp [ht]⟩
      · rw [if_neg ht] at h
        obtain ⟨t, h7, h8⟩ := h6 h
        exact ⟨t, List.mem_cons_of_mem _ h7, by rw [if_neg ht]; exact h8⟩
  | recv a b b' c d e f =>
    refine ⟨by rw [f, d]; exact h1, ?_, (by rw [b]; intro h; cases h), (by intro _; exact .inl b), (by rw [f]; intro _; exact h5 b'), ?_⟩
    · rw [f, e]; intro _ _ t ht
      have := h1 _ ht
      simp only at this
      omega
    · intro _
      obtain ⟨t, ht⟩ := h5 b'
      obtain ⟨l1, l2, hl, _⟩ := (last_iff s t).mpr ht
      have hm : (t, Note.failover) ∈ s.log := by rw [hl]; simp
      have := h1 _ hm
      simp only at this
      exact ⟨t, by rw [f]; exact hm, by rw [e]; omega⟩
  | fire b0 e0 a b c d f =>
    refine ⟨?_, (by rw [b]; intro _ h; cases h), (by rw [b]; intro h; cases h), (by rw [c]; intro h; exact absurd rfl h), ?_, (by rw [b]; intro h; cases h)⟩
    · rw [f, d]; intro x hx
      rcases List.mem_cons.mp hx with rfl | hx
      · exact Int.le_refl _
      · exact h1 x hx
    · intro _; rw [f]; simp only [last]; exact h5 (by rw [b0]; intro h; cases h)
  | tick t ht hs =>
    subst hs
    exact ⟨fun x hx => by have := h1 x hx; simp only; omega, h2, h3, h4, h5, h6⟩

private theorem g_run {n : Nat} {ok : Res → Bool} {reset : Int} : ∀ (es : List TEv) (s s' : TSys), InvG reset s → trun n ok reset s es = some s' → InvG reset s' := by
  intro es
  induction es with
  | nil => intro s s' h hr; simp only [trun, Option.some.injEq] at hr; exact hr ▸ h
  | cons e es ih =>
    intro s s' h hr
    simp only [trun, Option.bind_eq_some_iff] at hr
    obtain ⟨s1, h1, h2⟩ := hr
    exact ih s1 s' (g_step h (eff h1)) h2

private structure InvP (reset : Int) (s : TSys) : Prop where
  fresh : 0 < pend s → last s.log = some s.now
  timed : pend s = 0 → s.sys.timer = .armed → ∀ t, last s.log = some t → s.deadline = t + reset ∧ (s.now ≤ t + reset ∨ s.now = t)

private theorem p_step {n : Nat} {ok : Res → Bool} {reset : Int} {s s' : TSys} {e : TEv} (h : InvP reset s) (hs : tstep n ok reset s e = some s')
    (hp : ∀ t, e = .tick t → Settled s ∧ (s.sys.timer = .armed → t ≤ s.deadline)) : InvP reset s' := by
  obtain ⟨h1, h2⟩ := h
  cases e with
  | tick t =>
    obtain ⟨hz, hd⟩ := hp t rfl
    rw [settled_iff] at hz
    simp only [tstep] at hs
    split at hs
    · cases hs
      refine ⟨fun h => ?_, fun _ ha u hu => ?_⟩
      · simp only [pend] at h hz; omega
      · have := h2 hz ha u hu
        have := hd ha
        simp only
        omega
    · cases hs
  | ev e =>
    have he := eff hs
    cases he with
    | quiet a b c d e f => exact ⟨by rw [a, f, d]; exact h1, by rw [a, b, e, f, d]; exact h2⟩
    | over a b d e f => exact ⟨by intro _; rw [f, d]; rfl, by intro h; omega⟩
    | recv a b b' c d e f =>
      have hl := h1 (by omega)
      refine ⟨by intro _; rw [f, d]; exact hl, ?_⟩
      intro _ _ t ht
      rw [f, hl, Option.some.injEq] at ht
      rw [e, d]
      exact ⟨by omega, .inr ht⟩
    | fire b0 e0 a b c d f =>
      exact ⟨by rw [a, f, d]; exact h1, by rw [b]; intro _ h; cases h⟩
    | tick t ht hx =>
      -- a step of the group does not move the clock
      simp only [tstep] at hs
      split at hs
      · simp only [Option.map_eq_some_iff] at hs
        obtain ⟨s1, _, h3⟩ := hs
        rw [hx] at h3
        have : s.now = t := congrArg TSys.now h3
        omega
      · cases hs

private theorem p_run {n : Nat} {ok : Res → Bool} {reset : Int} : ∀ (es : List TEv) (s s' : TSys), InvP reset s → Prompt n ok reset s es → trun n ok reset s es = some s' → InvP reset s' := by
  intro es
  induction es with
  | nil => intro s s' h _ hr; simp only [trun, Option.some.injEq] at hr; exact hr ▸ h
  | cons e es ih =>
    intro s s' h hp hr
    simp only [trun, Option.bind_eq_some_iff] at hr
    obtain ⟨s1, h1, h2⟩ := hr
    exact ih s1 s' (p_step h h1 hp.1) (hp.2 s1 h1) h2

private theorem p_init (reset now : Int) : InvP reset { now := now } := ⟨by simp [pend, Group.Back.init], by simp [Group.Back.init]⟩

/-- A group goes back to its first member only when the time has passed since every failover, unless the timer is still to be told of one. -/
theorem failback_not_early {n : Nat} {ok : Res → Bool} {reset now : Int} {es : List TEv} {s s' : TSys} (h : trun n ok reset { now := now } es = some s)
    (hf : tstep n ok reset s (.ev .fire) = some s') (hs : Settled s) : ∀ t, (t, Note.failover) ∈ s.log → t + reset ≤ s.now := by
  intro t ht
  have hg := g_run es _ s (g_init reset now) h
  rw [settled_iff] at hs
  have he := eff hf
  simp only [tstep] at hf
  split at hf
  · next hd =>
    simp only [Option.map_eq_some_iff, Group.Back.step] at hf
    obtain ⟨s1, h1, _⟩ := hf
    split at h1
    · next ha =>
      have := hg.wait hs ha t ht
      simp only [due, decide_eq_true_eq] at hd
      omega
    · cases h1
  · cases hf

/-- However late the timer is told: a group never goes back before the time has passed since some failover; so it does not come back from its first one earlier. -/
theorem failback_waits {n : Nat} {ok : Res → Bool} {reset now : Int} {es : List TEv} {s s' : TSys} (h : trun n ok reset { now := now } es = some s)
    (hf : tstep n ok reset s (.ev .fire) = some s') : ∃ t, (t, Note.failover) ∈ s.log ∧ t + reset ≤ s.now := by
  have hg := g_run es _ s (g_init reset now) h
  simp only [tstep] at hf
  split at hf
  · next hd =>
    simp only [Option.map_eq_some_iff, Group.Back.step] at hf
    obtain ⟨s1, h1, _⟩ := hf
    split at h1
    · next ha =>
      obtain ⟨t, ht, hle⟩ := hg.least ha
      simp only [due, decide_eq_true_eq] at hd
      exact ⟨t, ht, by omega⟩
    · cases h1
  · cases hf

/-- On a machine that is not late: while another member than the first is used, the latest failover is not longer ago than the time. -/
theorem failback_not_late {n : Nat} {ok : Res → Bool} {reset now : Int} {es : List TEv} {s : TSys} (h : trun n ok reset { now := now } es = some s)
    (hp : Prompt n ok reset { now := now } es) (ha : s.sys.active ≠ 0) : ∃ t, LastFailover s t ∧ s.now ≤ t + max reset 0 := by
  have hg := g_run es _ s (g_init reset now) h
  have hq := p_run es _ s (p_init reset now) hp h
  by_cases hz : pend s = 0
  · rcases hg.away ha with hr | hr
    · obtain ⟨t, ht⟩ := hg.some (by rw [hr]; intro h; cases h)
      refine ⟨t, (last_iff s t).mpr ht, ?_⟩
      have := (hq.timed hz hr t ht).2
      omega
    · omega
  · exact ⟨s.now, (last_iff s s.now).mpr (hq.fresh (by omega)), by omega⟩

/-- On a machine that is not late: the group goes back when the latest failover is exactly that long ago, or at the moment of a failover. -/
theorem failback_on_time {n : Nat} {ok : Res → Bool} {reset now : Int} {es : List TEv} {s s' : TSys} (hr : 0 ≤ reset) (h : trun n ok reset { now := now } es = some s)
    (hp : Prompt n ok reset { now := now } es) (hf : tstep n ok reset s (.ev .fire) = some s') : ∃ t, LastFailover s t ∧ (s.now = t + reset ∨ s.now = t) := by
  have hg := g_run es _ s (g_init reset now) h
  have hq := p_run es _ s (p_init reset now) hp h
  simp only [tstep] at hf
  split at hf
  · next hd =>
    simp only [Option.map_eq_some_iff, Group.Back.step] at hf
    obtain ⟨s1, h1, _⟩ := hf
    split at h1
    · next ha =>
      simp only [due, decide_eq_true_eq] at hd
      obtain ⟨t, ht⟩ := hg.some (by rw [ha]; intro h; cases h)
      refine ⟨t, (last_iff s t).mpr ht, ?_⟩
      by_cases hz : pend s = 0
      · have := hq.timed hz ha t ht
        omega
      · have := hq.fresh (by omega)
        rw [ht, Option.some.injEq] at this
        exact .inr this.symm
    · cases h1
  · cases hf

/-- The steps are those of the group without time (C13, C14): what was proved about its runs holds for these. -/
theorem failback_refines {n : Nat} {ok : Res → Bool} {reset : Int} : ∀ (es : List TEv) (s s' : TSys), trun n ok reset s es = some s' →
    ∃ fs, Group.Back.run n ok s.sys fs = some s'.sys := by
  intro es
  induction es with
  | nil => intro s s' h; simp only [trun, Option.some.injEq] at h; exact ⟨[], by rw [h]; rfl⟩
  | cons e es ih =>
    intro s s' h
    simp only [trun, Option.bind_eq_some_iff] at h
    obtain ⟨s1, h1, h2⟩ := h
    obtain ⟨fs, hfs⟩ := ih s1 s' h2
    cases e with
    | tick t =>
      simp only [tstep] at h1
      split at h1
      · cases h1; exact ⟨fs, hfs⟩
      · cases h1
    | ev e =>
      simp only [tstep] at h1
      split at h1
      · simp only [Option.map_eq_some_iff] at h1
        obtain ⟨x, hx, rfl⟩ := h1
        exact ⟨e :: fs, by simp only [Group.Back.run, hx]; exact hfs⟩
      · cases h1

end Back

namespace Random
open Verif.GroupTimes.Random Verif.Spec.GroupTimes.Random

private theorem split_perm (l : List Nat) (m : Nat) : (l.filter (fun x => ¬ x = m) ++ l.filter (fun x => x = m)).Perm l := by
  induction l with
  | nil => exact .refl _
  | cons a l ih =>
    by_cases h : a = m
    · simp only [List.filter_cons, h, decide_true, not_true_eq_false, decide_false, if_true]
      exact List.perm_middle.trans (by simpa using List.Perm.cons m ih)
    · simp only [List.filter_cons, h, decide_false, not_false_eq_true, decide_true, if_true]
      simpa using List.Perm.cons a ih

private theorem eraseIdx_perm {α} : ∀ (l : List α) (i : Nat) (x : α), l[i]? = some x → (x :: l.eraseIdx i).Perm l := by
  intro l
  induction l with
  | nil => intro i x h; simp at h
  | cons a l ih =>
    intro i x h
    cases i with
    | zero => simp at h; subst h; exact .refl _
    | succ i =>
      simp only [List.getElem?_cons_succ] at h
      simp only [List.eraseIdx_cons_succ]
      exact (List.Perm.swap a x _).trans (.cons a (ih i x h))

private structure InvR (reset : Int) (members : List Nat) (s : TSys) : Prop where
  all : (s.active ++ s.sleeping.map (·.1)).Perm members
  why : ∀ x ∈ s.sleeping, (x.2 - reset, Note.off x.1) ∈ s.log
  rest : ∀ t m, (t, Note.off m) ∈ s.log → t + reset ≤ s.now ∨ (m, t + reset) ∈ s.sleeping

private theorem r_step {ok : Res → Bool} {reset : Int} {members : List Nat} {s s' : TSys} {e : TEv} (h : InvR reset members s) (hs : tstep ok reset s e = some s') : InvR reset members s' := by
  obtain ⟨h1, h2, h3⟩ := h
  cases e with
  | start => simp only [tstep, Option.some.injEq] at hs; subst hs; exact ⟨h1, h2, h3⟩
  | pick k d =>
    simp only [tstep] at hs
    split at hs
    · split at hs
      · cases hs; exact ⟨h1, h2, h3⟩
      · split at hs
        · cases hs
          refine ⟨h1, fun x hx => List.mem_cons_of_mem _ (h2 x hx), ?_⟩
          intro t m hm
          simp only [List.mem_cons, Prod.mk.injEq, reduceCtorEq, and_false, false_or] at hm
          exact h3 t m hm
        · cases hs
    · cases hs
  | reply k r =>
    simp only [tstep] at hs
    split at hs
    · cases hs; exact ⟨h1, h2, h3⟩
    · cases hs
  | deactivate k =>
    simp only [tstep] at hs
    split at hs
    · next m hk =>
      cases hs
      refine ⟨?_, ?_, ?_⟩
      · simp only [List.map_append, List.map_map]
        have : (List.map ((fun x : Nat × Int => x.1) ∘ fun x => (x, s.now + reset)) (s.active.filter fun x => decide (x = m))) = s.active.filter fun x => decide (x = m) := by
          rw [show ((fun x : Nat × Int => x.1) ∘ fun x => (x, s.now + reset)) = id from rfl, List.map_id]
        rw [this, ← List.append_assoc]
        exact ((split_perm s.active m).append_right _).trans h1
      · intro x hx
        simp only [List.mem_append, List.mem_map] at hx ⊢
        rcases hx with ⟨y, hy, rfl⟩ | hx
        · exact .inl ⟨y, hy, by simp⟩
        · exact .inr (h2 x hx)
      · intro t u hu
        simp only [List.mem_append, List.mem_map, Prod.mk.injEq, Note.off.injEq] at hu ⊢
        rcases hu with ⟨y, hy, rfl, rfl⟩ | hu
        · exact .inr (.inl ⟨y, hy, rfl, rfl⟩)
        · rcases h3 t u hu with h | h
          · exact .inl h
          · exact .inr (.inr h)
    · cases hs
  | wake i =>
    simp only [tstep] at hs
    split at hs
    · next m t hi =>
      split at hs
      · next ht =>
        cases hs
        have hp := eraseIdx_perm s.sleeping i (m, t) hi
        refine ⟨?_, ?_, ?_⟩
        · rw [List.append_assoc]
          refine List.Perm.trans ?_ h1
          exact (List.Perm.append_left _ (by simpa using hp.map (·.1)))
        · intro x hx
          exact List.mem_cons_of_mem _ (h2 x (List.mem_of_mem_eraseIdx hx))
        · intro u v hv
          simp only [List.mem_cons, Prod.mk.injEq, reduceCtorEq, and_false, false_or] at hv
          rcases h3 u v hv with h | h
          · exact .inl h
          · rcases List.mem_cons.mp (hp.mem_iff.mpr h) with h | h
            · cases h; exact .inl ht
            · exact .inr h
      · cases hs
    · cases hs
  | tick t =>
    simp only [tstep] at hs
    split at hs
    · cases hs
      refine ⟨h1, h2, fun u v hv => ?_⟩
      rcases h3 u v hv with h | h
      · left; simp only; omega
      · exact .inr h
    · cases hs

private theorem r_run {ok : Res → Bool} {reset : Int} {members : List Nat} : ∀ (es : List TEv) (s s' : TSys), InvR reset members s → trun ok reset s es = some s' → InvR reset members s' := by
  intro es
  induction es with
  | nil => intro s s' h hr; simp only [trun, Option.some.injEq] at hr; exact hr ▸ h
  | cons e es ih =>
    intro s s' h hr
    simp only [trun, Option.bind_eq_some_iff] at hr
    obtain ⟨s1, h1, h2⟩ := hr
    exact ih s1 s' (r_step h h1) h2

private theorem r_init (reset now : Int) (members : List Nat) : InvR reset members { active := members, now := now } := ⟨by simp, by simp, by simp⟩

/-- A member that failed is not asked by another query before the time has passed. -/
theorem random_rests {ok : Res → Bool} {reset now : Int} {members : List Nat} {es : List TEv} {s s' : TSys} {k draw m : Nat} (hd : members.Nodup)
    (h : trun ok reset { active := members, now := now } es = some s) (hp : tstep ok reset s (.pick k draw) = some s') (ha : s'.log = (s.now, .asked m) :: s.log) :
    ∀ t, (t, Note.off m) ∈ s.log → t + reset ≤ s.now := by
  intro t ht
  have hi := r_run es _ s (r_init reset now members) h
  rcases hi.rest t m ht with hx | hx
  · exact hx
  · have hm : m ∈ s.active := by
      simp only [tstep] at hp
      split at hp
      · split at hp
        · cases hp; have := congrArg List.length ha; simp at this
        · split at hp
          · next x hx =>
            cases hp
            simp only [List.cons.injEq, Prod.mk.injEq, Note.asked.injEq, true_and, and_true] at ha
            exact ha ▸ List.mem_of_getElem? hx
          · cases hp
      · cases hp
    have hn := (hi.all.nodup_iff.mpr hd)
    rw [List.nodup_append] at hn
    exact absurd rfl (hn.2.2 m hm m (List.mem_map.mpr ⟨_, hx, rfl⟩))

/-- On a machine that is not late: every member is active, or it failed, and not longer ago than the time. -/
theorem random_back {ok : Res → Bool} {reset now : Int} {members : List Nat} {es : List TEv} {s : TSys} (h : trun ok reset { active := members, now := now } es = some s)
    (hp : Prompt ok reset { active := members, now := now } es) {m : Nat} (hm : m ∈ members) : m ∈ s.active ∨ ∃ t, (t, Note.off m) ∈ s.log ∧ s.now ≤ t + max reset 0 := by
  have hi := r_run es _ s (r_init reset now members) h
  have hq : ∀ x ∈ s.sleeping, s.now ≤ x.2 ∨ s.now = x.2 - reset := by
    have key : ∀ (es : List TEv) (s s' : TSys), (∀ x ∈ s.sleeping, s.now ≤ x.2 ∨ s.now = x.2 - reset) → Prompt ok reset s es → trun ok reset s es = some s' →
        ∀ x ∈ s'.sleeping, s'.now ≤ x.2 ∨ s'.now = x.2 - reset := by
      intro es
      induction es with
      | nil => intro s s' h _ hr; simp only [trun, Option.some.injEq] at hr; exact hr ▸ h
      | cons e es ih =>
        intro s s' h hp hr
        simp only [trun, Option.bind_eq_some_iff] at hr
        obtain ⟨s1, h1, h2⟩ := hr
        refine ih s1 s' ?_ (hp.2 s1 h1) h2
        cases e with
        | start => simp only [tstep, Option.some.injEq] at h1; subst h1; exact h
        | pick k d =>
          simp only [tstep] at h1
          repeat' split at h1
          all_goals cases h1
          all_goals exact h
        | reply k r =>
          simp only [tstep] at h1
          split at h1
          · cases h1; exact h
          · cases h1
        | deactivate k =>
          simp only [tstep] at h1
          split at h1
          · cases h1
            intro x hx
            simp only [List.mem_append, List.mem_map] at hx
            rcases hx with ⟨y, _, rfl⟩ | hx
            · right; simp only; omega
            · exact h x hx
          · cases h1
        | wake i =>
          simp only [tstep] at h1
          split at h1
          · split at h1
            · cases h1
              exact fun x hx => h x (List.mem_of_mem_eraseIdx hx)
            · cases h1
          · cases h1
        | tick t =>
          have hp1 := hp.1 t rfl
          simp only [tstep] at h1
          split at h1
          · cases h1
            exact fun x hx => .inl (hp1 x hx)
          · cases h1
    exact key es _ s (by simp) hp h
  rcases List.mem_append.mp (hi.all.mem_iff.mpr hm) with h1 | h1
  · exact .inl h1
  · obtain ⟨x, hx, rfl⟩ := List.mem_map.mp h1
    refine .inr ⟨x.2 - reset, hi.why x hx, ?_⟩
    have := hq x hx
    omega

/-- Members do not get lost, and none is used twice. -/
theorem random_keeps {ok : Res → Bool} {reset now : Int} {members : List Nat} {es : List TEv} {s : TSys} (h : trun ok reset { active := members, now := now } es = some s) :
    (s.active ++ s.sleeping.map (·.1)).Perm members := (r_run es _ s (r_init reset now members) h).all

end Random

/-- Without the option the time is a minute; with it, that many seconds. -/
theorem reset_default (g : Assemble.Group) : (g.resetAfter = none → resetTime g = 60000000000) ∧ ∀ n, g.resetAfter = some n → resetTime g = n * 1000000000 := by
  refine ⟨fun h => ?_, fun n h => ?_⟩ <;> simp [resetTime, Assemble.resetAfter, h]

section Examples

private def okay : Res → Bool := Group.succeeded false false

private def down : Res := .fail "down"

/-- The first of two members fails at 7. -/
private def switched : List Back.TEv := [.ev .start, .ev (.current 0), .ev (.reply 0 down), .ev (.report 0), .ev (.send 0), .ev .recv]

example : (Back.trun 2 okay 60 { now := 7 } switched).map (fun s => (s.sys.active, s.deadline, s.log)) = some (1, 67, [(7, .failover)]) := by decide +kernel

/-- The hypotheses of `failback_not_early` and `failback_on_time` are met: at 67 the group goes back, and not before. -/
example : (Back.trun 2 okay 60 { now := 7 } (switched ++ [.tick 67, .ev .fire])).map (fun s => (s.sys.active, s.now, s.log)) = some (0, 67, [(67, .back), (7, .failover)]) := by decide +kernel
example : (Back.trun 2 okay 60 { now := 7 } (switched ++ [.tick 66, .ev .fire])).isNone := by decide +kernel

/-- The three members fail one after the other, the second when the time is just over. -/
private def race : List Back.TEv := switched ++ [.ev (.current 0), .tick 67, .ev (.reply 0 down), .ev (.report 0), .ev .fire]

/-- Finding: a failover at the moment the timer is due is undone, the group is back at the first member at once. -/
example : (Back.trun 3 okay 60 { now := 7 } race).map (fun s => (s.sys.active, s.now, s.log)) = some (0, 67, [(67, .back), (67, .failover), (7, .failover)]) := by decide +kernel

/-- Such runs are prompt. -/
example : Back.Prompt 3 okay 60 { now := 7 } race := by
  unfold race switched
  simp only [List.cons_append, List.nil_append]
  iterate 7 (refine ⟨fun t h => (by cases h), fun s' h => ?_⟩; cases h)
  refine ⟨fun t h => ?_, fun s' h => ?_⟩ <;> cases h
  · refine ⟨⟨rfl, fun i r h => ?_⟩, fun _ => by decide +kernel⟩
    have h : Group.Phase.sending i r ∈ [Group.Phase.calling 1 1] := h
    simp at h
  iterate 3 (refine ⟨fun t h => (by cases h), fun s' h => ?_⟩; cases h)
  trivial

/-- Random: the hypotheses of `random_rests` are met; member 1 failed at 7 and is asked again at 67. -/
private def twice : List Random.TEv := [.start, .pick 0 1, .reply 0 down, .deactivate 0, .tick 67, .wake 0, .start]

example : (Random.trun okay 60 { active := [0, 1], now := 7 } twice).map (fun s => (s.active, s.now, s.log)) = some ([0, 1], 67, [(67, .on 1), (7, .off 1), (7, .asked 1)]) := by decide +kernel
example : (Random.trun okay 60 { active := [0, 1], now := 7 } (twice ++ [.pick 1 1])).map (·.log.head?) = some (some (67, .asked 1)) := by decide +kernel
example : (Random.trun okay 60 { active := [0, 1], now := 7 } [.start, .pick 0 1, .reply 0 down, .deactivate 0, .tick 66, .wake 0]).isNone := by decide +kernel

end Examples

end Verif.Props.GroupTimes
