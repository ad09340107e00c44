import Verif.Lemmas.NetnsWatch
/-
C59: listeners in network namespaces.
-/
set_option linter.unusedVariables false
set_option linter.unusedSimpArgs false
namespace Verif.Props.NetnsWatch
open Verif.NetnsWatch Verif.Spec.NetnsWatch Verif.Lemmas.NetnsWatch

/-- When all events have been read and none was lost, the supervisor knows whether the namespace is there. -/
theorem netns_state_arrives {s : Sys} (h : Reachable s) (hl : s.lost = false) (hy : s.sub = .yes) (hq : s.queue = []) (hc : s.chan = []) : s.present = s.there := by
  have := ((reach_inv h).2 hl).flow hy hq
  rw [hc] at this
  exact this

/-- At rest, the listener runs, and runs in the namespace that is there now, exactly if the namespace is there. -/
theorem netns_settled {s : Sys} (h : Reachable s) (hl : s.lost = false) (hs : Settled s) : s.there = true ↔ ∃ i, s.cur = some i ∧ s.inst i = .serving s.gen := by
  obtain ⟨hy, hq, hc, hm, hr, hi⟩ := hs
  have hp := netns_state_arrives h hl hy hq hc
  obtain ⟨sup, flow⟩ := reach_inv h
  have flow := flow hl
  constructor
  · intro ht
    rw [ht] at hp
    rcases sup.present hp hm with h1 | h1
    · cases hcur : s.cur with
      | none => exact absurd hcur h1
      | some i =>
        obtain ⟨g, hg⟩ := hi i hcur
        refine ⟨i, rfl, ?_⟩
        rcases flow.bound i hcur (by intro n; rw [hm]; intro h; cases h) with hb | hb | hb
        · rw [hg, hb.2 g hg]
        · rw [hc] at hb; cases hb
        · rw [hq] at hb; cases hb
    · rw [hr] at h1; cases h1
  · intro ⟨i, hcur, _⟩
    cases ht : s.there with
    | true => rfl
    | false =>
      rw [ht] at hp
      rcases (sup.absent hp).2 with h1 | ⟨n, h1⟩
      · rw [h1] at hcur; cases hcur
      · rw [hm] at h1; cases h1

/-- At rest without a namespace, no instance of the listener is left except those `stopNetNSListener` has given up. -/
theorem netns_settled_absent {s : Sys} (h : Reachable s) (hl : s.lost = false) (hs : Settled s) (ht : s.there = false) (i : Nat) (hi : Live s i) : i ∈ s.abandoned := by
  obtain ⟨hy, hq, hc, hm, hr, _⟩ := hs
  have hp := netns_state_arrives h hl hy hq hc
  obtain ⟨sup, _⟩ := reach_inv h
  rw [ht] at hp
  rcases sup.live i hi with h1 | h1
  · rcases (sup.absent hp).2 with h2 | ⟨n, h2⟩
    · rw [h1] at h2; cases h2
    · rw [hm] at h2; cases h2
  · exact h1

/-- There are never two instances at once, unless one has been given up; whatever is lost. -/
theorem netns_one_listener {s : Sys} (h : Reachable s) {i j : Nat} (hi : Live s i) (hj : Live s j) (hia : i ∉ s.abandoned) (hja : j ∉ s.abandoned) : i = j := by
  obtain ⟨sup, _⟩ := reach_inv h
  rcases sup.live i hi with h1 | h1
  · rcases sup.live j hj with h2 | h2
    · exact Option.some.inj (h1.symm.trans h2)
    · exact absurd h2 hja
  · exact absurd h1 hia

private theorem mode_step {t s : Sys} {e : Ev} (hs : step t e = some s) {n : Nat} (hm : s.mode = .stopping n) :
    (t.mode = .stopping n ∧ isStop e = false ∧ e ≠ .receive) ∨ (e = .receive ∧ n = 0) ∨ (isStop e = true ∧ ∃ m, n = m + 1 ∧ t.mode = .stopping m) := by
  cases e <;> simp only [step, notify, launch, onPresent, onAbsent] at hs <;> (repeat' split at hs) <;> simp only [Option.some.injEq, reduceCtorEq] at hs <;> subst hs <;> grind [isStop]

private theorem stop_calls {b : Bool} {g : Nat} : ∀ (k : Nat) (es : List Ev) (s : Sys), es.length = k → run { there := b, gen := g } es = some s → ∀ n, s.mode = .stopping n →
    ∃ es1 es2, es = es1 ++ .receive :: es2 ∧ es2.countP isStop = n ∧ Ev.receive ∉ es2 := by
  intro k
  induction k with
  | zero =>
    intro es s hk hr n hm
    cases List.length_eq_zero_iff.1 hk
    cases hr
    cases hm
  | succ k ih =>
    intro es s hk hr n hm
    rcases List.eq_nil_or_concat es with rfl | ⟨es', e, rfl⟩
    · cases hk
    · rw [List.concat_eq_append, run_append] at hr
      cases ht : run { there := b, gen := g } es' with
      | none => rw [ht] at hr; cases hr
      | some t =>
        rw [ht] at hr
        have hs : step t e = some s := hr
        have ih := ih es' t (by simpa using hk) ht
        rw [List.concat_eq_append]
        rcases mode_step hs hm with ⟨h1, h2, h3⟩ | ⟨rfl, rfl⟩ | ⟨h1, m, rfl, h2⟩
        · obtain ⟨es1, es2, h, hc, hn⟩ := ih n h1
          refine ⟨es1, es2 ++ [e], by rw [h]; simp, by simp [hc, h2], ?_⟩
          intro hmem
          rcases List.mem_append.1 hmem with h4 | h4
          · exact hn h4
          · exact h3 (List.mem_singleton.1 h4).symm
        · exact ⟨es', [], rfl, rfl, by simp⟩
        · obtain ⟨es1, es2, h, hc, hn⟩ := ih m h2
          refine ⟨es1, es2 ++ [e], by rw [h]; simp, by simp [hc, h1], ?_⟩
          intro hmem
          rcases List.mem_append.1 hmem with h4 | h4
          · exact hn h4
          · rw [← List.mem_singleton.1 h4] at h1
            cases h1

/-- An instance is given up only after 31 calls of `Stop` since the supervisor has learnt that the namespace is gone. -/
theorem netns_give_up_late {b : Bool} {g : Nat} {es : List Ev} {s s' : Sys} (hr : run { there := b, gen := g } es = some s) (hs : step s .giveUp = some s') :
    ∃ es1 es2, es = es1 ++ .receive :: es2 ∧ es2.countP isStop = 31 ∧ Ev.receive ∉ es2 := by
  simp only [step] at hs
  split at hs
  · rename_i hm _
    exact stop_calls es.length es s rfl hr 31 hm
  · cases hs

private theorem lost_step {t s : Sys} {e : Ev} (hc : t.sub ≠ .yes → t.chan = []) (hs : step t e = some s) (hl : s.lost = true) : t.lost = true ∨ (e = .dispatch ∧ Loses t) := by
  cases e <;> simp only [step, notify, launch, onPresent, onAbsent] at hs <;> (repeat' split at hs) <;> simp only [Option.some.injEq, reduceCtorEq] at hs <;> subst hs <;> grind [Loses]

/-- Events are lost in two ways only. -/
theorem netns_lost_only {b : Bool} {g : Nat} : ∀ (es : List Ev) (s : Sys), run { there := b, gen := g } es = some s → s.lost = true →
    ∃ es1 es2 t, es = es1 ++ .dispatch :: es2 ∧ run { there := b, gen := g } es1 = some t ∧ Loses t := by
  intro es
  generalize hk : es.length = k
  induction k generalizing es with
  | zero =>
    intro s hr hl
    cases List.length_eq_zero_iff.1 hk
    cases hr
    cases hl
  | succ k ih =>
    intro s hr hl
    rcases List.eq_nil_or_concat es with rfl | ⟨es', e, rfl⟩
    · cases hk
    · rw [List.concat_eq_append, run_append] at hr
      cases ht : run { there := b, gen := g } es' with
      | none => rw [ht] at hr; cases hr
      | some t =>
        rw [ht] at hr
        rw [List.concat_eq_append]
        have hc := fun h => ((reach_inv ⟨b, g, es', ht⟩).1.sub h).1
        rcases lost_step hc hr hl with h | ⟨rfl, h⟩
        · obtain ⟨es1, es2, u, he, hu, hlo⟩ := ih es' (by simpa using hk) t ht h
          exact ⟨es1, es2 ++ [e], u, by rw [he]; simp, hu, hlo⟩
        · exact ⟨es', [], t, rfl, ht, h⟩

/-- How much there is left to do -/
private def starting (s : Sys) : Nat := (List.range s.next).countP (fun i => s.inst i == .starting)

private def curCost (s : Sys) : Nat := match s.cur with
  | none => if s.retry && s.there then 5 else 0
  | some i => match s.inst i with
    | .done => if s.there then 6 else 1
    | .starting => 3
    | _ => 0

private def cost (s : Sys) : Nat := match s.mode with
  | .waiting => 10
  | .stopping n => 20 + (31 - n)
  | .idle => curCost s

private def todo (s : Sys) : Nat := 200 * s.queue.length + 100 * s.chan.length + cost s + starting s

private theorem countP_less {f g : Nat → Bool} {i : Nat} (hf : f i = true) (hg : g i = false) (he : ∀ x, x ≠ i → g x = f x) : ∀ n, i < n →
    (List.range n).countP g + 1 = (List.range n).countP f := by
  have same : ∀ n, n ≤ i → (List.range n).countP g = (List.range n).countP f := by
    intro n hn
    apply List.countP_congr
    intro x hx
    rw [he x (by have := List.mem_range.1 hx; omega)]
  intro n
  induction n with
  | zero => intro h; omega
  | succ n ih =>
    intro h
    simp only [List.range_succ, List.countP_append, List.countP_singleton]
    by_cases hi : i = n
    · subst hi
      rw [same i (Nat.le_refl _), hf, hg]
      simp
    · rw [he n (Ne.symm hi)]
      have := ih (by omega)
      omega

private theorem starting_less {s : Sys} {i : Nat} {v : Inst} (hi : s.inst i = .starting) (hn : i < s.next) (hv : v ≠ .starting) :
    (List.range s.next).countP (fun x => setInst s i v x == .starting) + 1 = starting s := by
  apply countP_less (i := i)
  · simp [hi]
  · simp [setInst, hv]
  · intro x hx
    simp [setInst, hx]
  · exact hn

private theorem starting_new (s : Sys) : (List.range (s.next + 1)).countP (fun x => setInst s s.next .starting x == .starting) = starting s + 1 := by
  simp only [List.range_succ, List.countP_append, List.countP_singleton]
  have : (List.range s.next).countP (fun x => setInst s s.next .starting x == .starting) = starting s := by
    apply List.countP_congr
    intro x hx
    have : x ≠ s.next := by have := List.mem_range.1 hx; omega
    simp [setInst, this]
  rw [this]
  simp [setInst]

private theorem cost_le (s : Sys) : cost s ≤ 51 := by
  unfold cost
  split
  · omega
  · omega
  · unfold curCost
    (repeat' split) <;> omega

private theorem less_launch {s : Sys} (h : cost s ≥ 5 ∧ s.retry = true ∨ cost s = 10) : todo (launch s true) < todo s := by
  have h1 : todo (launch s true) = 200 * s.queue.length + 100 * s.chan.length + 3 + (starting s + 1) := by
    rw [← starting_new]
    simp [launch, todo, cost, curCost, setInst, starting]
  have h2 : todo s = 200 * s.queue.length + 100 * s.chan.length + cost s + starting s := rfl
  omega

private theorem smooth_less {s s' : Sys} {e : Ev} (sup : SupInv s) (flow : FlowInv s) (hy : s.sub = .yes) (hsm : Smooth s e) (hs : step s e = some s') : todo s' < todo s := by
  cases e with
  | create => exact hsm.elim
  | delete => exact hsm.elim
  | ask => exact hsm.elim
  | register => exact hsm.elim
  | exit i => exact hsm.elim
  | dispatch =>
    cases hq : s.queue with
    | nil => simp [step, hq] at hs
    | cons e q =>
      simp only [step, hq, hy, notify] at hs
      split at hs
      · cases hs
        simp only [todo, cost, curCost, starting, hq, List.length_cons]
        omega
      · split at hs
        · cases hs
          simp only [todo, cost, curCost, starting, hq, List.length_cons, List.length_append]
          simp only [List.length_nil]
          omega
        · cases hs
          simp only [todo, cost, curCost, starting, hq, List.length_cons]
          omega
  | receive =>
    have key : ∀ c b, s.chan = b :: c → s'.queue = s.queue → s'.chan = c → starting s' = starting s → todo s' < todo s := by
      intro c b h1 h2 h3 h4
      have := cost_le s'
      simp only [todo, h1, h2, h3, h4, List.length_cons]
      omega
    simp only [step] at hs
    split at hs
    · split at hs
      · cases hs
      · rename_i c hc
        simp only [onPresent] at hs
        split at hs <;> cases hs <;> exact key c _ hc rfl rfl rfl
      · rename_i c hc
        simp only [onAbsent] at hs
        split at hs <;> cases hs <;> exact key c _ hc rfl rfl rfl
    · cases hs
  | launch ok =>
    cases (show ok = true from hsm)
    simp only [step] at hs
    split at hs
    · rename_i hm
      cases hs
      apply less_launch
      right
      simp [cost, hm]
    · cases hs
  | timer ok =>
    obtain ⟨rfl, hq, hc⟩ := hsm
    simp only [step] at hs
    split at hs
    · rename_i hm
      have hcur := sup.retry hm.2
      have hp : s.present = true := by
        cases hp : s.present with
        | true => rfl
        | false => have := (sup.absent hp).1; rw [hm.2] at this; cases this
      have ht : s.there = true := by
        have := flow.flow hy hq
        rw [hc] at this
        rw [← this]
        exact hp
      rw [if_pos ⟨hp, hcur⟩] at hs
      cases hs
      have h1 : todo (launch { s with retry := false } true) = 200 * s.queue.length + 100 * s.chan.length + 3 + (starting s + 1) := by
        rw [← starting_new]
        simp [launch, todo, cost, curCost, setInst, starting]
      rw [h1]
      simp only [todo, cost, hm.1, curCost, hcur, hm.2, ht]
      simp
      omega
    · cases hs
  | bind i ok =>
    cases (show ok = true from hsm)
    simp only [step] at hs
    split at hs
    · rename_i hi
      cases hs
      have hn : i < s.next := by
        refine Classical.byContradiction fun h => ?_
        rw [sup.unborn i (by omega)] at hi
        cases hi
      have hst := starting_less hi hn (v := if true && s.there then .serving s.gen else .done) (by split <;> intro h <;> cases h)
      have hcost : cost { s with inst := setInst s i (if true && s.there then .serving s.gen else .done) } ≤ cost s := by
        simp only [cost]
        split
        · omega
        · omega
        · simp only [curCost]
          split
          · omega
          · rename_i j hj
            by_cases hij : j = i
            · subst hij
              simp only [setInst, if_true, hi]
              cases ht : s.there <;> simp
            · simp only [setInst, if_neg hij]
              omega
      show _ + _ + _ + (List.range s.next).countP (fun x => setInst s i _ x == .starting) < _ + _ + _ + starting s
      have h3 : ∀ a c c' d d' : Nat, c' ≤ c → d' + 1 = d → a + c' + d' < a + c + d := by intros; omega
      exact h3 _ _ _ _ _ hcost hst
    · cases hs
  | ended =>
    simp only [step] at hs
    split at hs
    · rename_i i hi
      split at hs
      · rename_i hm
        cases hs
        simp only [todo, cost, hm.1, curCost, hi, hm.2, starting]
        cases s.there <;> simp
        split <;> omega
      · cases hs
    · cases hs
  | stop ef =>
    simp only [step] at hs
    split at hs
    · rename_i n i hm hcur
      split at hs
      · rename_i hn
        cases hs
        have hst : (List.range s.next).countP (fun x => stopInst s i ef x == .starting) = starting s := by
          apply List.countP_congr
          intro x _
          have hx : (stopInst s i ef x = .starting) ↔ (s.inst x = .starting) := by
            unfold stopInst
            cases hi : s.inst i with
            | serving g =>
              cases ef with
              | false => exact Iff.rfl
              | true =>
                show setInst s i .done x = _ ↔ _
                simp only [setInst]
                split
                · rename_i hx; subst hx; rw [hi]; simp
                · exact Iff.rfl
            | _ => exact Iff.rfl
          simp [hx]
        have h1 : ∀ f, cost { s with mode := .stopping (n + 1), inst := f } = 20 + (31 - (n + 1)) := fun _ => rfl
        have h2 : cost s = 20 + (31 - n) := by simp [cost, hm]
        simp only [todo, h1, h2]
        show _ + _ + _ + (List.range s.next).countP (fun x => stopInst s i ef x == .starting) < _
        rw [hst]
        omega
      · cases hs
    · cases hs
  | stopped =>
    simp only [step] at hs
    split at hs
    · rename_i n i hm hcur
      split at hs
      · rename_i hn
        cases hs
        have hp := (sup.stopping _ hm).2.2
        have hr := (sup.absent hp).1
        simp only [todo, cost, hm, curCost, starting, hr]
        simp
        omega
      · cases hs
    · cases hs
  | giveUp =>
    simp only [step] at hs
    split at hs
    · rename_i i hm hcur
      cases hs
      have hp := (sup.stopping _ hm).2.2
      have hr := (sup.absent hp).1
      simp only [todo, cost, hm, curCost, starting, hr]
      simp
    · cases hs

private theorem smooth_sub {s s' : Sys} {e : Ev} (hy : s.sub = .yes) (hs : step s e = some s') : s'.sub = .yes := by
  cases e <;> simp only [step, notify, launch, onPresent, onAbsent] at hs <;> (repeat' split at hs) <;> simp only [Option.some.injEq, reduceCtorEq] at hs <;> subst hs <;>
    first | exact hy | rfl | (rename_i h; rw [hy] at h; cases h) | grind

private theorem todo_le (s : Sys) : todo s ≤ 200 * s.queue.length + 100 * s.chan.length + 51 + s.next := by
  have h1 := cost_le s
  have h2 : starting s ≤ s.next := by
    have := List.countP_le_length (p := fun i => s.inst i == .starting) (l := List.range s.next)
    rw [List.length_range] at this
    exact this
  simp only [todo]
  omega

private theorem lost_stays {s s' : Sys} {e : Ev} (hs : step s e = some s') (hl : s'.lost = false) : s.lost = false := by
  cases e <;> simp only [step, notify, launch, onPresent, onAbsent] at hs <;> (repeat' split at hs) <;> simp only [Option.some.injEq, reduceCtorEq] at hs <;> subst hs <;> first | exact hl | (simp at hl)

private theorem lost_stays_run {s s' : Sys} {n : Nat} (hr : SmoothRun s n s') (hl : s'.lost = false) : s.lost = false := by
  induction hr with
  | nil => exact hl
  | cons _ hs _ ih => exact lost_stays hs (ih hl)

/-- While the namespace is left alone and what is started starts, only a bounded number of steps can follow, whatever their order: every execution comes to a state in which
nothing more can happen … -/
theorem netns_settles {s s' : Sys} {n : Nat} (h : Reachable s) (hy : s.sub = .yes) (hr : SmoothRun s n s') (hl : s'.lost = false) :
    n ≤ 200 * s.queue.length + 100 * s.chan.length + 51 + s.next := by
  have key : n + todo s' ≤ todo s := by
    induction hr with
    | nil => omega
    | cons hsm hs hr ih =>
      have hl' := lost_stays_run hr hl
      have hl'' := lost_stays hs hl'
      have := ih (reach_step h hs) (smooth_sub hy hs) hl
      obtain ⟨sup, flow⟩ := reach_inv h
      have := smooth_less sup (flow hl'') hy hsm hs
      omega
  have := todo_le s
  omega

private theorem progress {s : Sys} (sup : SupInv s) (hy : s.sub = .yes) (hl : s.lost = false) (hns : ¬ Settled s) : ∃ e s', Smooth s e ∧ step s e = some s' ∧ s'.lost = false := by
  cases hm : s.mode with
  | stopping n =>
    obtain ⟨hc, hn, _⟩ := sup.stopping n hm
    cases hcur : s.cur with
    | none => exact absurd hcur hc
    | some i =>
      by_cases hn31 : n = 31
      · subst hn31
        (refine ⟨.giveUp, _, trivial, by simp only [step, hm, hcur]; rfl, ?_⟩; exact hl)
      · (refine ⟨.stop true, _, trivial, by simp only [step, hm, hcur]; rw [if_pos (by omega)], ?_⟩; exact hl)
  | waiting =>
    refine ⟨.launch true, _, rfl, by simp only [step, hm]; rw [if_pos trivial], ?_⟩
    simp [launch, hl]
  | idle =>
    cases hc : s.chan with
    | cons b c =>
      cases b with
      | true => refine ⟨.receive, _, trivial, by simp only [step, hm, hc]; rw [if_pos trivial], ?_⟩; unfold onPresent; split <;> exact hl
      | false => refine ⟨.receive, _, trivial, by simp only [step, hm, hc]; rw [if_pos trivial], ?_⟩; unfold onAbsent; split <;> exact hl
    | nil =>
      cases hq : s.queue with
      | cons e q =>
        refine ⟨.dispatch, _, trivial, by simp only [step, hq, hy]; rfl, ?_⟩
        simp only [notify, hc]
        split
        · exact hl
        · exact hl
      | nil =>
        cases hr : s.retry with
        | true =>
          by_cases hp : s.present = true ∧ s.cur = none
          · refine ⟨.timer true, _, ⟨rfl, hq, hc⟩, by simp only [step]; rw [if_pos ⟨hm, hr⟩, if_pos hp], ?_⟩
            simp [launch, hl]
          · (refine ⟨.timer true, _, ⟨rfl, hq, hc⟩, by simp only [step]; rw [if_pos ⟨hm, hr⟩, if_neg hp], ?_⟩; exact hl)
        | false =>
          cases hcur : s.cur with
          | none => exact absurd ⟨hy, hq, hc, hm, hr, by intro i hi; rw [hcur] at hi; cases hi⟩ hns
          | some i =>
            cases hi : s.inst i with
            | unborn => exact absurd hi (sup.cur i hcur).2
            | starting => (refine ⟨.bind i true, _, rfl, by simp only [step]; rw [if_pos hi], ?_⟩; exact hl)
            | done => (refine ⟨.ended, _, trivial, by simp only [step, hcur]; rw [if_pos ⟨hm, hi⟩], ?_⟩; exact hl)
            | serving g =>
              refine absurd ⟨hy, hq, hc, hm, hr, ?_⟩ hns
              intro j hj
              rw [hcur] at hj
              cases hj
              exact ⟨g, hi⟩

/-- … and that state is at rest, so `netns_settled` says what has become of the listener. -/
theorem netns_stuck_settled {s : Sys} (h : Reachable s) (hy : s.sub = .yes) (hl : s.lost = false) (hs : ∀ e, Smooth s e → step s e = none) : Settled s := by
  refine Classical.byContradiction fun hns => ?_
  obtain ⟨e, s', hsm, hst, _⟩ := progress (reach_inv h).1 hy hl hns
  rw [hs e hsm] at hst
  cases hst

/-- From every state in which nothing is lost yet, rest can be reached without losing anything. -/
theorem netns_can_settle {s : Sys} (h : Reachable s) (hy : s.sub = .yes) (hl : s.lost = false) : ∃ n s', SmoothRun s n s' ∧ s'.lost = false ∧ Settled s' := by
  generalize hk : todo s = k
  induction k using Nat.strongRecOn generalizing s with
  | ind k ih =>
    by_cases hs : Settled s
    · exact ⟨0, s, .nil s, hl, hs⟩
    · obtain ⟨sup, flow⟩ := reach_inv h
      obtain ⟨e, t, hsm, hst, hlt⟩ := progress sup hy hl hs
      have := smooth_less sup (flow hl) hy hsm hst
      obtain ⟨n, s', hr, hl', hs'⟩ := ih (todo t) (by omega) (reach_step h hst) (smooth_sub hy hst) hlt rfl
      exact ⟨n + 1, s', .cons hsm hst hr, hl', hs'⟩

/-! Cases -/

/-- A namespace that is there, goes, and comes back: the listener ends up in the new one. -/
private def back : List Ev := [.ask, .register, .receive, .launch true, .bind 0 true, .delete, .create, .dispatch, .dispatch, .receive, .stop true, .stopped, .receive, .launch true,
  .bind 1 true]

private def seen (s : Sys) : Bool × Bool × Option Nat × Nat × Mode × Bool × List Bool × List Bool := (s.there, s.present, s.cur, s.gen, s.mode, s.lost, s.queue, s.chan)

private theorem of_seen {b : Bool} {g : Nat} {es : List Ev} {x : Bool × Bool × Option Nat × Nat × Mode × Bool × List Bool × List Bool} {i j : Inst} {sub : Sub} {r : Bool} {ab : List Nat}
    (h : (run { there := b, gen := g } es).map (fun s => (seen s, s.inst 0, s.inst 1, s.sub, s.retry, s.abandoned)) = some (x, i, j, sub, r, ab)) :
    ∃ s, run { there := b, gen := g } es = some s ∧ seen s = x ∧ s.inst 0 = i ∧ s.inst 1 = j ∧ s.sub = sub ∧ s.retry = r ∧ s.abandoned = ab := by
  cases hs : run { there := b, gen := g } es with
  | none => rw [hs] at h; cases h
  | some s =>
    rw [hs] at h
    have h := Option.some.inj h
    simp only [Prod.mk.injEq] at h
    exact ⟨s, rfl, h.1, h.2.1, h.2.2.1, h.2.2.2.1, h.2.2.2.2.1, h.2.2.2.2.2⟩

example : ∃ s, Reachable s ∧ s.lost = false ∧ Settled s ∧ s.there = true ∧ s.cur = some 1 ∧ s.inst 0 = .done ∧ s.inst 1 = .serving 8 ∧ s.gen = 8 := by
  obtain ⟨s, hr, hs, h0, h1, hsub, hre, _⟩ := of_seen (b := true) (g := 7) (es := back) (by rfl :
    _ = some ((true, true, some 1, 8, .idle, false, [], []), .done, .serving 8, .yes, false, []))
  simp only [seen, Prod.mk.injEq] at hs
  obtain ⟨a, b, c, d, e, f, g, h⟩ := hs
  refine ⟨s, ⟨_, _, _, hr⟩, f, ⟨hsub, g, h, e, hre, ?_⟩, a, c, h0, h1, d⟩
  intro i hi
  rw [c] at hi
  cases hi
  exact ⟨8, h1⟩

/-- Without the two conditions the property fails. A namespace that appears between the subscriber's look at the file system and its registration (netns_watch_linux.go:152-155) is
never noticed: everything is at rest, the namespace is there, and no listener runs. -/
theorem netns_subscribe_race : ∃ s, Reachable s ∧ Settled s ∧ s.there = true ∧ s.cur = none ∧ ∀ i, s.inst i = .unborn := by
  obtain ⟨s, hr, hs, h0, h1, hsub, hre, _⟩ := of_seen (b := false) (g := 0) (es := [.ask, .create, .dispatch, .register, .receive]) (by rfl :
    _ = some ((true, false, none, 1, .idle, true, [], []), .unborn, .unborn, .yes, false, []))
  simp only [seen, Prod.mk.injEq] at hs
  obtain ⟨a, b, c, d, e, f, g, h⟩ := hs
  refine ⟨s, ⟨_, _, _, hr⟩, ⟨hsub, g, h, e, hre, ?_⟩, a, c, ?_⟩
  · intro i hi
    rw [c] at hi
    cases hi
  · intro i
    cases hr
    rfl

private def flap : Nat → List Ev
  | 0 => []
  | n + 1 => [.create, .dispatch, .delete, .dispatch] ++ flap n

/-- A namespace that comes and goes while the supervisor is busy stopping a listener: the last `Present` finds the channel full and is dropped. The comment at
netns_watch_linux.go:227-229 promises that it is retried on the next event, but there is none while the namespace stays: it is there, everything is at rest, and no listener runs. -/
theorem netns_dropped_event : ∃ s, Reachable s ∧ Settled s ∧ s.there = true ∧ s.cur = none := by
  obtain ⟨s, hr, hs, h0, h1, hsub, hre, _⟩ := of_seen (b := true) (g := 0) (es := [.ask, .register, .receive, .launch true, .bind 0 true, .delete, .dispatch, .receive] ++ flap 8 ++
      [.create, .dispatch, .stop true, .stopped] ++
      ((List.range 8).map fun i => [Ev.receive, .launch true, .bind (i + 1) true, .receive, .stop true, .stopped]).flatten) (by rfl :
    _ = some ((true, false, none, 9, .idle, true, [], []), .done, .done, .yes, false, []))
  simp only [seen, Prod.mk.injEq] at hs
  obtain ⟨a, b, c, d, e, f, g, h⟩ := hs
  refine ⟨s, ⟨_, _, _, hr⟩, ⟨hsub, g, h, e, hre, ?_⟩, a, c⟩
  intro i hi
  rw [c] at hi
  cases hi

/-- An instance that does not stop in time is given up and goes on: then two instances serve at once, the old one in the namespace that is gone. -/
theorem netns_two_listeners : ∃ s, Reachable s ∧ s.lost = false ∧ Settled s ∧ s.inst 0 = .serving 0 ∧ s.inst 1 = .serving 1 ∧ s.abandoned = [0] := by
  obtain ⟨s, hr, hs, h0, h1, hsub, hre, hab⟩ := of_seen (b := true) (g := 0) (es := [.ask, .register, .receive, .launch true, .bind 0 true, .delete, .dispatch, .receive] ++
      List.replicate 31 (.stop false) ++ [.giveUp, .create, .dispatch, .receive, .launch true, .bind 1 true]) (by rfl :
    _ = some ((true, true, some 1, 1, .idle, false, [], []), .serving 0, .serving 1, .yes, false, [0]))
  simp only [seen, Prod.mk.injEq] at hs
  obtain ⟨a, b, c, d, e, f, g, h⟩ := hs
  refine ⟨s, ⟨_, _, _, hr⟩, f, ⟨hsub, g, h, e, hre, ?_⟩, h0, h1, hab⟩
  intro i hi
  rw [c] at hi
  cases hi
  exact ⟨1, h1⟩

end Verif.Props.NetnsWatch
