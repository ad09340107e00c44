import Verif.Spec.NetnsWatch
/-
Invariants for C59.
-/
set_option linter.unusedVariables false
set_option linter.unusedSimpArgs false
namespace Verif.Lemmas.NetnsWatch
open Verif.NetnsWatch Verif.Spec.NetnsWatch

/-- The supervisor -/
structure SupInv (s : Sys) : Prop where
  stopping : ∀ n, s.mode = .stopping n → s.cur ≠ none ∧ n ≤ 31 ∧ s.present = false
  waiting : s.mode = .waiting → s.cur = none ∧ s.present = true
  absent : s.present = false → s.retry = false ∧ (s.cur = none ∨ ∃ n, s.mode = .stopping n)
  present : s.present = true → s.mode = .idle → s.cur ≠ none ∨ s.retry = true
  retry : s.retry = true → s.cur = none
  live : ∀ i, Live s i → s.cur = some i ∨ i ∈ s.abandoned
  unborn : ∀ i, s.next ≤ i → s.inst i = .unborn
  cur : ∀ i, s.cur = some i → i < s.next ∧ s.inst i ≠ .unborn
  gone : ∀ i, i ∈ s.abandoned → i < s.next
  sub : s.sub ≠ .yes → s.chan = [] ∧ s.last = none ∧ s.present = false ∧ s.mode = .idle ∧ s.cur = none
  queue : ∀ b, s.queue.getLast? = some b → b = s.there

/-- The events on their way, as long as none is lost -/
structure FlowInv (s : Sys) : Prop where
  asked : ∀ st k, s.sub = .asked st k → k ≤ s.queue.length ∧ (s.queue.drop k = [] → st = s.there)
  last : s.sub = .yes → s.last = some ((s.chan.getLast?).getD s.present)
  flow : s.sub = .yes → s.queue = [] → (s.chan.getLast?).getD s.present = s.there
  bound : ∀ i, s.cur = some i → (∀ n, s.mode ≠ .stopping n) → (s.there = true ∧ ∀ g, s.inst i = .serving g → g = s.gen) ∨ false ∈ s.chan ∨ false ∈ s.queue

theorem sup_step {s s' : Sys} {e : Ev} (h : SupInv s) (hs : step s e = some s') : SupInv s' := by
  obtain ⟨a1, a2, a3, a4, a5, a6, a7, a8, a9, a10, a11⟩ := h
  unfold Live at a6
  cases e <;> simp only [step, notify, launch, onPresent, onAbsent, stopInst] at hs <;> (repeat' split at hs) <;> simp only [Option.some.injEq, reduceCtorEq] at hs <;> subst hs <;>
    constructor <;> (try unfold Live) <;> grind [setInst, stopInst]

theorem flow_launch {s : Sys} (ok : Bool) (h : FlowInv s) (hq : ∀ b, s.queue.getLast? = some b → b = s.there) (hp : s.present = true) (hy : s.sub = .yes)
    (hcur : s.cur = none) : FlowInv (launch s ok) := by
  obtain ⟨b1, b2, b3, b4⟩ := h
  cases ok with
  | false =>
    simp only [launch, Bool.false_eq_true, if_false]
    refine ⟨b1, b2, b3, ?_⟩
    intro j hj
    rw [show s.cur = some j from hj] at hcur
    cases hcur
  | true =>
    simp only [launch, if_true]
    refine ⟨b1, b2, b3, ?_⟩
    intro j hj _
    cases ht : s.there with
    | true =>
      refine Or.inl ⟨rfl, ?_⟩
      intro g hg
      cases hj
      simp [setInst] at hg
    | false =>
      right
      cases hl : s.queue.getLast? with
      | some b =>
        have := hq b hl
        rw [ht] at this
        subst this
        exact Or.inr (List.mem_of_getLast? hl)
      | none =>
        have hn : s.queue = [] := List.getLast?_eq_none_iff.1 hl
        have := b3 hy hn
        rw [ht] at this
        cases hc : s.chan.getLast? with
        | none => rw [hc] at this; rw [show s.present = false from this] at hp; cases hp
        | some b =>
          rw [hc] at this
          cases this
          exact Or.inl (List.mem_of_getLast? hc)

theorem flow_step {s s' : Sys} {e : Ev} (h : SupInv s) (hf : s.lost = false → FlowInv s) (hs : step s e = some s') (hl : s'.lost = false) : FlowInv s' := by
  have hlost : s.lost = false := by
    cases e <;> simp only [step, notify, launch, onPresent, onAbsent, stopInst] at hs <;> (repeat' split at hs) <;> simp only [Option.some.injEq, reduceCtorEq] at hs <;> subst hs <;> first | exact hl | (simp at hl)
  obtain ⟨b1, b2, b3, b4⟩ := hf hlost
  obtain ⟨a1, a2, a3, a4, a5, a6, a7, a8, a9, a10, a11⟩ := h
  clear hf a6 a9
  cases e
  case create =>
    simp only [step, stopInst] at hs
    split at hs
    · cases hs
    · rename_i ht
      cases hs
      refine ⟨?_, b2, ?_, ?_⟩
      · intro st k hk
        have := b1 st k hk
        refine ⟨by simp only [List.length_append]; omega, ?_⟩
        intro hd
        rw [List.drop_append_of_le_length this.1] at hd
        simp at hd
      · intro _ hq
        simp at hq
      · intro i hi hm
        rcases b4 i hi hm with hb | hb | hb
        · exact absurd hb.1 ht
        · exact Or.inr (Or.inl hb)
        · exact Or.inr (Or.inr (List.mem_append.2 (Or.inl hb)))
  case delete =>
    simp only [step, stopInst] at hs
    split at hs
    · cases hs
      refine ⟨?_, b2, ?_, ?_⟩
      · intro st k hk
        have := b1 st k hk
        refine ⟨by simp only [List.length_append]; omega, ?_⟩
        intro hd
        rw [List.drop_append_of_le_length this.1] at hd
        simp at hd
      · intro _ hq
        simp at hq
      · intro i hi hm
        exact Or.inr (Or.inr (List.mem_append.2 (Or.inr (List.mem_singleton.2 rfl))))
    · cases hs
  case dispatch =>
    cases hq : s.queue with
    | nil => simp [step, hq] at hs
    | cons e q =>
    have hq' : q = [] → e = s.there := by
      intro h
      exact a11 e (by rw [hq, h]; rfl)
    cases hsub : s.sub with
    | no =>
      simp only [step, hq, hsub] at hs
      cases hs
      have := a10 (by rw [hsub]; intro h; cases h)
      refine ⟨?_, ?_, ?_, ?_⟩
      · intro st k hk; cases hk
      · intro hk; cases hk
      · intro hk; cases hk
      · intro i hi; rw [this.2.2.2.2] at hi; cases hi
    | asked st k =>
      have := a10 (by rw [hsub]; intro h; cases h)
      cases k with
      | zero =>
        simp only [step, hq, hsub] at hs
        cases hs
        cases hl
      | succ k =>
        simp only [step, hq, hsub] at hs
        cases hs
        refine ⟨?_, ?_, ?_, ?_⟩
        · intro st' k' hk
          cases hk
          have := b1 st (k + 1) hsub
          rw [hq] at this
          exact ⟨by have := this.1; simp only [List.length_cons] at this; show k ≤ q.length; omega, this.2⟩
        · intro hk; cases hk
        · intro hk; cases hk
        · intro i hi; rw [this.2.2.2.2] at hi; cases hi
    | yes =>
      simp only [step, hq, hsub, notify] at hs
      have c2 := b2 hsub
      split at hs
      · rename_i hd
        cases hs
        rw [c2] at hd
        have hd := Option.some.inj hd
        refine ⟨?_, fun _ => c2, ?_, ?_⟩
        · intro st k hk; cases hk
        · intro _ hq2
          exact hd.trans (hq' hq2)
        · intro i hi hm
          rcases b4 i hi hm with hb | hb | hb
          · exact Or.inl hb
          · exact Or.inr (Or.inl hb)
          · rw [hq] at hb
            cases hb with
            | head =>
              cases hg : s.chan.getLast? with
              | some x =>
                rw [hg] at hd
                cases hd
                exact Or.inr (Or.inl (List.mem_of_getLast? hg))
              | none =>
                rw [hg] at hd
                have hp : s.present = false := hd
                rcases (a3 hp).2 with h | ⟨n, h⟩
                · exact absurd (h.symm.trans hi) (by intro h; cases h)
                · exact absurd h (hm n)
            | tail _ hb => exact Or.inr (Or.inr hb)
      · split at hs
        · cases hs
          have hg : (s.chan ++ [e]).getLast? = some e := by simp
          refine ⟨?_, ?_, ?_, ?_⟩
          · intro st k hk; cases hk
          · intro _
            show some e = some ((s.chan ++ [e]).getLast?.getD s.present)
            rw [hg]; rfl
          · intro _ hq2
            show (s.chan ++ [e]).getLast?.getD s.present = s.there
            rw [hg]
            exact hq' hq2
          · intro i hi hm
            rcases b4 i hi hm with hb | hb | hb
            · exact Or.inl hb
            · exact Or.inr (Or.inl (List.mem_append.2 (Or.inl hb)))
            · rw [hq] at hb
              cases hb with
              | head => exact Or.inr (Or.inl (List.mem_append.2 (Or.inr (List.mem_singleton.2 rfl))))
              | tail _ hb => exact Or.inr (Or.inr hb)
        · cases hs
          cases hl
  case ask =>
    simp only [step, notify] at hs
    (repeat' split at hs) <;> simp only [Option.some.injEq, reduceCtorEq] at hs <;> subst hs <;> constructor <;> grind
  case register =>
    simp only [step, notify] at hs
    (repeat' split at hs) <;> simp only [Option.some.injEq, reduceCtorEq] at hs <;> subst hs <;> constructor <;> grind
  case receive =>
    have hyes : s.chan ≠ [] → s.sub = .yes := by
      intro hc
      exact Classical.byContradiction fun h => hc (a10 h).1
    have hlast : ∀ (b : Bool) (c : List Bool), (b :: c).getLast?.getD s.present = c.getLast?.getD b := by
      intro b c
      cases c with
      | nil => rfl
      | cons x c => rw [List.getLast?_cons_cons]; simp [List.getLast?_cons]
    simp only [step, stopInst] at hs
    split at hs
    · rename_i hm
      cases hc : s.chan with
      | nil => simp [hc] at hs
      | cons b c =>
        have hy := hyes (by rw [hc]; simp)
        have c2 := b2 hy
        have c3 := b3 hy
        rw [hc, hlast] at c2 c3
        cases b with
        | true =>
          simp only [hc] at hs
          cases hcur : s.cur with
          | some i =>
            simp only [onPresent, hcur] at hs
            cases hs
            refine ⟨?_, fun _ => c2, fun _ => c3, ?_⟩
            · intro st k hk; rw [show s.sub = .asked st k from hk] at hy; cases hy
            · intro j hj hmj
              have hj : s.cur = some j := hcur.trans hj
              rcases b4 j hj hmj with hb | hb | hb
              · exact Or.inl hb
              · rw [hc] at hb
                cases hb with
                | tail _ hb => exact Or.inr (Or.inl hb)
              · exact Or.inr (Or.inr hb)
          | none =>
            simp only [onPresent, hcur] at hs
            cases hs
            refine ⟨?_, fun _ => c2, fun _ => c3, ?_⟩
            · intro st k hk; rw [show s.sub = .asked st k from hk] at hy; cases hy
            · intro j hj; cases hj
        | false =>
          simp only [hc] at hs
          cases hcur : s.cur with
          | some i =>
            simp only [onAbsent, hcur] at hs
            cases hs
            refine ⟨?_, fun _ => c2, fun _ => c3, ?_⟩
            · intro st k hk; rw [show s.sub = .asked st k from hk] at hy; cases hy
            · intro j hj hmj
              exact absurd rfl (hmj 0)
          | none =>
            simp only [onAbsent, hcur] at hs
            cases hs
            refine ⟨?_, fun _ => c2, fun _ => c3, ?_⟩
            · intro st k hk; rw [show s.sub = .asked st k from hk] at hy; cases hy
            · intro j hj; cases hj
    · cases hs
  case launch ok =>
    simp only [step, stopInst] at hs
    split at hs
    · rename_i hm
      cases hs
      have hp := (a2 hm).2
      have hy : s.sub = .yes := Classical.byContradiction fun h => by rw [(a10 h).2.2.1] at hp; cases hp
      refine flow_launch ok ⟨b1, b2, b3, b4⟩ a11 hp hy (a2 hm).1
    · cases hs
  case timer ok =>
    simp only [step, stopInst] at hs
    split at hs
    · split at hs
      · rename_i hm
        cases hs
        have hp := hm.1
        have hy : s.sub = .yes := Classical.byContradiction fun h => by rw [(a10 h).2.2.1] at hp; cases hp
        exact flow_launch (s := { s with retry := false }) ok ⟨b1, b2, b3, b4⟩ a11 hp hy hm.2
      · cases hs
        exact ⟨b1, b2, b3, b4⟩
    · cases hs
  case bind i ok =>
    simp only [step, stopInst] at hs
    (repeat' split at hs) <;> simp only [Option.some.injEq, reduceCtorEq] at hs <;> subst hs <;> constructor <;> grind [setInst, stopInst]
  case exit i =>
    simp only [step, stopInst] at hs
    (repeat' split at hs) <;> simp only [Option.some.injEq, reduceCtorEq] at hs <;> subst hs <;> constructor <;> grind [setInst, stopInst]
  case ended =>
    simp only [step, stopInst] at hs
    (repeat' split at hs) <;> simp only [Option.some.injEq, reduceCtorEq] at hs <;> subst hs <;> constructor <;> grind [setInst, stopInst]
  case stop ef =>
    simp only [step, stopInst] at hs
    (repeat' split at hs) <;> simp only [Option.some.injEq, reduceCtorEq] at hs <;> subst hs <;> constructor <;> grind [setInst, stopInst]
  case stopped =>
    simp only [step, stopInst] at hs
    (repeat' split at hs) <;> simp only [Option.some.injEq, reduceCtorEq] at hs <;> subst hs <;> constructor <;> grind [setInst, stopInst]
  case giveUp =>
    simp only [step, stopInst] at hs
    (repeat' split at hs) <;> simp only [Option.some.injEq, reduceCtorEq] at hs <;> subst hs <;> constructor <;> grind [setInst, stopInst]

theorem init_inv (b : Bool) (g : Nat) : SupInv { there := b, gen := g } ∧ FlowInv { there := b, gen := g } := by
  constructor
  · constructor <;> simp [Live]
  · constructor <;> simp

theorem run_inv {es : List Ev} : ∀ {s s' : Sys}, SupInv s → (s.lost = false → FlowInv s) → run s es = some s' → SupInv s' ∧ (s'.lost = false → FlowInv s') := by
  induction es with
  | nil => intro s s' h hf hr; cases hr; exact ⟨h, hf⟩
  | cons e es ih =>
    intro s s' h hf hr
    simp only [run] at hr
    cases hs : step s e with
    | none => rw [hs] at hr; cases hr
    | some t =>
      rw [hs] at hr
      exact ih (sup_step h hs) (fun hl => flow_step h hf hs hl) hr

theorem reach_inv {s : Sys} (h : Reachable s) : SupInv s ∧ (s.lost = false → FlowInv s) := by
  obtain ⟨b, g, es, hr⟩ := h
  exact run_inv (init_inv b g).1 (fun _ => (init_inv b g).2) hr

theorem run_append (es : List Ev) (e : Ev) : ∀ s : Sys, run s (es ++ [e]) = (run s es).bind (step · e) := by
  induction es with
  | nil => intro s; show (step s e).bind (run · []) = step s e; cases step s e <;> rfl
  | cons x es ih =>
    intro s
    simp only [List.cons_append, run]
    cases step s x with
    | none => rfl
    | some t => exact ih t

theorem reach_step {s s' : Sys} {e : Ev} (h : Reachable s) (hs : step s e = some s') : Reachable s' := by
  obtain ⟨b, g, es, hr⟩ := h
  exact ⟨b, g, es ++ [e], by rw [run_append, hr]; exact hs⟩

end Verif.Lemmas.NetnsWatch
