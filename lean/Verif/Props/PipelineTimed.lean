/-
C103: how long a call to an upstream server over UDP, TCP, DNS-over-TLS or DNS-over-DTLS takes.
-/
import Verif.Spec.PipelineTimed
import Verif.Props.Pipeline
set_option linter.unusedVariables false
set_option linter.unusedSimpArgs false
namespace Verif.Props.PipelineTimed
open Verif Verif.Pipeline Verif.PipelineTimed Verif.Spec.Pipeline Verif.Spec.PipelineTimed Verif.PipelineL

/-- What one event can do to a request. -/
private structure Later (x x' : Req) : Prop where
  q : x'.q = x.q
  ret : ∀ res, x.ph = .returned res → x'.ph = .returned res
  done : ∀ d, x.done = some d → x'.done = some d
  left : x.ph ≠ .queueing → x'.ph ≠ .queueing

private theorem Later.refl (x : Req) : Later x x := ⟨rfl, fun _ h => h, fun _ h => h, fun h => h⟩

private theorem Later.trans {x y z : Req} (h : Later x y) (k : Later y z) : Later x z :=
  ⟨k.q.trans h.q, fun r e => k.ret r (h.ret r e), fun d e => k.done d (h.done d e), fun e => k.left (h.left e)⟩

private theorem mark_later (s : Sys) (r : Nat) (a : Option Msg) (e : Option Err) (k : Nat) (x : Req) (hx : s.reqs[k]? = some x) :
    ∃ x', (s.markDone r a e).reqs[k]? = some x' ∧ Later x x' ∧ x'.ph = x.ph := by
  unfold Sys.markDone
  split
  · exact ⟨x, hx, .refl x, rfl⟩
  · rename_i y hy
    split
    · exact ⟨x, hx, .refl x, rfl⟩
    · rename_i hd
      have hlt := (List.getElem?_eq_some_iff.mp hy).1
      by_cases hk : r = k
      · subst hk
        rw [hy] at hx
        cases hx
        refine ⟨_, List.getElem?_set_self hlt, ⟨rfl, fun _ h => h, fun d h => ?_, fun h => h⟩, rfl⟩
        rw [hd] at h; cases h
      · exact ⟨x, by simp [List.getElem?_set_ne hk, hx], .refl x, rfl⟩

private theorem fold_later (e : Err) : ∀ (l : List (Nat × Nat)) (s : Sys) (k : Nat) (x : Req), s.reqs[k]? = some x →
    ∃ x', (l.foldl (fun t y => t.markDone y.2 none (some e)) s).reqs[k]? = some x' ∧ Later x x' ∧ x'.ph = x.ph
  | [], s, k, x, hx => ⟨x, hx, .refl x, rfl⟩
  | y :: l, s, k, x, hx => by
    obtain ⟨x1, h1, h2, h3⟩ := mark_later s y.2 none (some e) k x hx
    obtain ⟨x2, h4, h5, h6⟩ := fold_later e l _ k x1 h1
    exact ⟨x2, h4, h2.trans h5, h6.trans h3⟩

private theorem set_later {l : List Req} {r k : Nat} {x y z : Req} (hy : l[r]? = some y) (hx : l[k]? = some x) (h : Later y z) :
    ∃ x', (l.set r z)[k]? = some x' ∧ Later x x' ∧ (r ≠ k → x' = x) := by
  have hlt := (List.getElem?_eq_some_iff.mp hy).1
  by_cases hk : r = k
  · subst hk
    rw [hy] at hx; cases hx
    exact ⟨z, by simp [hlt], h, fun h => absurd rfl h⟩
  · exact ⟨x, by simp [List.getElem?_set_ne hk, hx], .refl x, fun _ => rfl⟩

private theorem take_later {s s' : Sys} {r k : Nat} {x : Req} (h : s.take r = some s') (hx : s.reqs[k]? = some x) :
    ∃ x', s'.reqs[k]? = some x' ∧ Later x x' := by
  unfold Sys.take at h
  split at h
  · simp only [Option.some.injEq] at h; subst h; exact ⟨x, hx, .refl x⟩
  · split at h
    · rename_i y hy
      split at h
      · rename_i hp
        simp only [Option.some.injEq] at h; subst h
        obtain ⟨x', h1, h2, _⟩ := set_later (z := { y with ph := .waiting }) hy hx ⟨rfl, fun res e => (by rw [hp] at e; cases e), fun _ h => h, fun _ h => by cases h⟩
        exact ⟨x', h1, h2⟩
      · cases h
    · cases h

private theorem step_later (s s' : Sys) (e : Ev) (h : step s e = some s') (k : Nat) (x : Req) (hx : s.reqs[k]? = some x) :
    ∃ x', s'.reqs[k]? = some x' ∧ Later x x' := by
  have hk := (List.getElem?_eq_some_iff.mp hx).1
  cases e with
  | call q =>
    simp only [step, Option.some.injEq] at h; subst h
    exact ⟨x, by simp [List.getElem?_append_left hk, hx], .refl x⟩
  | queueTimeout r =>
    simp only [step] at h
    split at h <;> try cases h
    rename_i y hy
    split at h <;> try cases h
    rename_i hp
    obtain ⟨x', h1, h2, _⟩ := set_later (z := { y with ph := .returned (.fail errTimeout) }) hy hx
      ⟨rfl, fun res e => (by rw [hp] at e; cases e), fun _ h => h, fun _ h => by cases h⟩
    exact ⟨x', h1, h2⟩
  | startTake r =>
    simp only [step] at h
    split at h <;> try cases h
    cases ht : s.take r with
    | none => rw [ht] at h; cases h
    | some t => rw [ht] at h; cases h; obtain ⟨x', h1, h2⟩ := take_later ht hx; exact ⟨x', h1, h2⟩
  | dialFail e =>
    simp only [step] at h
    split at h <;> try cases h
    obtain ⟨x', h1, h2, _⟩ := mark_later s _ none (some e) k x hx
    exact ⟨x', h1, h2⟩
  | dialOk =>
    simp only [step] at h
    split at h <;> try cases h
    exact ⟨x, hx, .refl x⟩
  | writerTake r id =>
    simp only [step] at h
    split at h <;> try cases h
    split at h <;> try cases h
    rename_i t ht
    split at h <;> try cases h
    rename_i y hy
    obtain ⟨x1, h1, h2⟩ := take_later ht hx
    obtain ⟨x', h3, h4, _⟩ := set_later (z := { y with id := id }) hy h1 ⟨rfl, fun _ h => h, fun _ h => h, fun h => h⟩
    exact ⟨x', h3, h2.trans h4⟩
  | writerFull r =>
    simp only [step] at h
    split at h <;> try cases h
    cases ht : s.take r with
    | none => rw [ht] at h; cases h
    | some t => rw [ht] at h; cases h; obtain ⟨x', h1, h2⟩ := take_later ht hx; exact ⟨x', h1, h2⟩
  | writeOk => simp only [step] at h; split at h <;> cases h; exact ⟨x, hx, .refl x⟩
  | writeFail e =>
    simp only [step] at h
    split at h <;> try cases h
    split at h <;> cases h <;> exact ⟨x, hx, .refl x⟩
  | writerFailed =>
    simp only [step] at h
    split at h <;> try cases h
    rename_i r e _ _
    obtain ⟨x', h1, h2, _⟩ := mark_later s r none (some e) k x hx
    exact ⟨x', h1, h2⟩
  | writerStop => simp only [step] at h; split at h <;> cases h; exact ⟨x, hx, .refl x⟩
  | recv a =>
    simp only [step] at h
    split at h <;> try cases h
    split at h <;> cases h <;> exact ⟨x, hx, .refl x⟩
  | readerDone =>
    simp only [step] at h
    split at h <;> try cases h
    rename_i r a _
    obtain ⟨x', h1, h2, _⟩ := mark_later s r (some a) none k x hx
    exact ⟨x', h1, h2⟩
  | readerStop => simp only [step] at h; split at h <;> cases h; exact ⟨x, hx, .refl x⟩
  | drain =>
    simp only [step] at h
    split at h <;> cases h
    obtain ⟨x', h1, h2, _⟩ := fold_later errClosed s.inflight s k x hx
    exact ⟨x', h1, h2⟩
  | timeout r =>
    simp only [step] at h
    split at h <;> try cases h
    rename_i y hy
    split at h <;> try cases h
    rename_i hp
    obtain ⟨x', h1, h2, _⟩ := set_later (z := { y with ph := .returned (.fail errTimeout) }) hy hx
      ⟨rfl, fun res e => (by rw [hp] at e; cases e), fun _ h => h, fun _ h => by cases h⟩
    exact ⟨x', h1, h2⟩
  | ret r =>
    simp only [step] at h
    split at h <;> try cases h
    rename_i y hy
    split at h <;> try cases h
    rename_i d hp hd
    obtain ⟨x', h1, h2, _⟩ := set_later (z := { y with ph := .returned (waitFor y.q d) }) hy hx
      ⟨rfl, fun res e => (by rw [hp] at e; cases e), fun _ h => h, fun _ h => by cases h⟩
    exact ⟨x', h1, h2⟩

variable {T : Nat} (R : Run T)

private theorem mono {m n : Nat} (h : m ≤ n) : R.time m ≤ R.time n := by
  induction h with
  | refl => exact Nat.le_refl _
  | @step k hk ih =>
    rcases R.next k with ⟨e, _, _, h⟩ | ⟨_, _, h⟩
    · show R.time m ≤ R.time (k + 1); omega
    · exact Nat.le_trans ih h

private theorem run_later {m n : Nat} (h : m ≤ n) (k : Nat) (x : Req) (hx : (R.state m).reqs[k]? = some x) :
    ∃ x', (R.state n).reqs[k]? = some x' ∧ Later x x' := by
  induction h with
  | refl => exact ⟨x, hx, .refl x⟩
  | @step j hj ih =>
    obtain ⟨x1, h1, h2⟩ := ih
    rcases R.next j with ⟨e, _, hs, _⟩ | ⟨_, hs, _⟩
    · obtain ⟨x2, h3, h4⟩ := step_later _ _ e hs k x1 h1
      exact ⟨x2, h3, h2.trans h4⟩
    · exact ⟨x1, by show (R.state (j + 1)).reqs[k]? = _; rw [hs]; exact h1, h2⟩

/-- The moment at which the clock passes `t`. -/
private theorem crossing {t m n : Nat} (hmn : m ≤ n) (hm : R.time m ≤ t) (hn : t < R.time n) :
    ∃ j, m ≤ j ∧ j < n ∧ R.time j ≤ t ∧ t < R.time (j + 1) := by
  induction hmn with
  | refl => omega
  | @step k hk ih =>
    by_cases h : t < R.time k
    · obtain ⟨j, h1, h2, h3⟩ := ih h
      exact ⟨j, h1, Nat.lt_succ_of_lt h2, h3⟩
    · exact ⟨k, hk, Nat.lt_succ_self k, by omega, hn⟩

private theorem called {m : Nat} {q : Msg} (h : R.ev m = some (.call q)) :
    (R.state (m + 1)).reqs[(R.state m).reqs.length]? = some { q := q } := by
  rcases R.next m with ⟨e, he, hs, _⟩ | ⟨he, _⟩
  · rw [h] at he; cases he
    simp only [step, Option.some.injEq] at hs
    rw [← hs]; simp
  · rw [h] at he; cases he

/-- C103: a call is over after `query-timeout`, whatever the server, the network and the other calls do. -/
theorem call_in_time (m n : Nat) (q : Msg) (hc : R.ev m = some (.call q)) (hmn : m ≤ n) (ht : R.time m + T < R.time n) :
    ∃ (x : Req) (res : Res), (R.state n).reqs[(R.state m).reqs.length]? = some x ∧ x.q = q ∧ x.ph = .returned res := by
  obtain ⟨j, h1, h2, h3, h4⟩ := crossing R hmn (t := R.time m + T) (by omega) ht
  have hmj : m + 1 ≤ j := by
    rcases Nat.lt_or_ge m j with h | h
    · exact h
    · have : j = m := by omega
      subst this
      rcases R.next j with ⟨e, _, _, he⟩ | ⟨he, _⟩
      · omega
      · rw [hc] at he; cases he
  obtain ⟨x, hx, hl⟩ := run_later R hmj _ _ (called R hc)
  obtain ⟨k1, k2⟩ := R.notLate m j q hc (by omega) h4
  have hp : ∃ res, x.ph = .returned res := by
    cases hp : x.ph with
    | queueing => simp [step, hx, hp] at k1
    | waiting => simp [step, hx, hp] at k2
    | returned res => exact ⟨res, rfl⟩
  obtain ⟨res, hp⟩ := hp
  obtain ⟨x', hx', hl'⟩ := run_later R (Nat.le_of_lt h2) _ _ hx
  exact ⟨x', res, hx', hl'.q.trans hl.q, hl'.ret res hp⟩

/-- What can change the phase of a request to `returned`. -/
private theorem step_return (s s' : Sys) (e : Ev) (h : step s e = some s') (k : Nat) (x x' : Req) (res : Res) (hx : s.reqs[k]? = some x)
    (hx' : s'.reqs[k]? = some x') (hp : x'.ph = .returned res) :
    x.ph = .returned res ∨ e = .queueTimeout k ∨ e = .timeout k ∨ (e = .ret k ∧ ∃ d, x.done = some d ∧ res = waitFor x.q d) := by
  have hk := (List.getElem?_eq_some_iff.mp hx).1
  have same : s'.reqs[k]? = some x → x.ph = .returned res := by
    intro e; rw [hx'] at e; cases e; exact hp
  have mark : ∀ r a e, s'.reqs = (s.markDone r a e).reqs → x.ph = .returned res := by
    intro r a e hs
    obtain ⟨x1, h1, _, h2⟩ := mark_later s r a e k x hx
    rw [← hs, hx'] at h1; cases h1
    rw [← h2, hp]
  have take : ∀ r t, s.take r = some t → (∃ y, t.reqs[k]? = some y ∧ y.ph = .returned res) → x.ph = .returned res := by
    rintro r t ht ⟨y, hy, hyp⟩
    unfold Sys.take at ht
    split at ht
    · cases ht; rw [hx] at hy; cases hy; exact hyp
    · split at ht <;> try cases ht
      rename_i z hz
      split at ht <;> cases ht
      have hzl := (List.getElem?_eq_some_iff.mp hz).1
      by_cases hr : r = k
      · subst hr; simp [hzl] at hy; subst hy; cases hyp
      · simp [List.getElem?_set_ne hr, hx] at hy; subst hy; exact hyp
  cases e with
  | call q =>
    simp only [step, Option.some.injEq] at h; subst h
    exact .inl (same (by simp [List.getElem?_append_left hk, hx]))
  | queueTimeout r =>
    simp only [step] at h
    split at h <;> try cases h
    split at h <;> cases h
    by_cases hr : r = k
    · exact .inr (.inl (by rw [hr]))
    · exact .inl (same (by simp [List.getElem?_set_ne hr, hx]))
  | startTake r =>
    simp only [step] at h
    split at h <;> try cases h
    cases ht : s.take r with
    | none => rw [ht] at h; cases h
    | some t => rw [ht] at h; cases h; exact .inl (take r t ht ⟨x', hx', hp⟩)
  | dialFail e =>
    simp only [step] at h
    split at h <;> cases h
    exact .inl (mark _ _ _ rfl)
  | dialOk =>
    simp only [step] at h
    split at h <;> cases h
    exact .inl (same hx)
  | writerTake r id =>
    simp only [step] at h
    split at h <;> try cases h
    split at h <;> try cases h
    rename_i t ht
    split at h <;> cases h
    rename_i y hy
    have hyl := (List.getElem?_eq_some_iff.mp hy).1
    by_cases hr : r = k
    · subst hr
      simp [hyl] at hx'
      subst hx'
      exact .inl (take r t ht ⟨y, hy, hp⟩)
    · simp [List.getElem?_set_ne hr] at hx'
      exact .inl (take r t ht ⟨x', hx', hp⟩)
  | writerFull r =>
    simp only [step] at h
    split at h <;> try cases h
    cases ht : s.take r with
    | none => rw [ht] at h; cases h
    | some t => rw [ht] at h; cases h; exact .inl (take r t ht ⟨x', hx', hp⟩)
  | writeOk => simp only [step] at h; split at h <;> cases h; exact .inl (same hx)
  | writeFail e =>
    simp only [step] at h
    split at h <;> try cases h
    split at h <;> cases h <;> exact .inl (same hx)
  | writerFailed =>
    simp only [step] at h
    split at h <;> cases h
    exact .inl (mark _ _ _ rfl)
  | writerStop => simp only [step] at h; split at h <;> cases h; exact .inl (same hx)
  | recv a =>
    simp only [step] at h
    split at h <;> try cases h
    split at h <;> cases h <;> exact .inl (same hx)
  | readerDone =>
    simp only [step] at h
    split at h <;> cases h
    exact .inl (mark _ _ _ rfl)
  | readerStop => simp only [step] at h; split at h <;> cases h; exact .inl (same hx)
  | drain =>
    simp only [step] at h
    split at h <;> cases h
    obtain ⟨x1, h1, _, h2⟩ := fold_later errClosed s.inflight s k x hx
    have : some x' = some x1 := hx'.symm.trans h1
    cases this
    exact .inl (by rw [← h2, hp])
  | timeout r =>
    simp only [step] at h
    split at h <;> try cases h
    split at h <;> cases h
    by_cases hr : r = k
    · exact .inr (.inr (.inl (by rw [hr])))
    · exact .inl (same (by simp [List.getElem?_set_ne hr, hx]))
  | ret r =>
    simp only [step] at h
    split at h <;> try cases h
    rename_i y hy
    split at h <;> cases h
    rename_i d hp' hd
    by_cases hr : r = k
    · subst hr
      rw [hy] at hx; cases hx
      simp [hk] at hx'
      subst hx'
      simp only [Phase.returned.injEq] at hp
      exact .inr (.inr (.inr ⟨rfl, d, hd, hp.symm⟩))
    · exact .inl (same (by simp [List.getElem?_set_ne hr, hx]))

/-- C103: and it is not given up before: a call that is over earlier is over because its request was completed, and its result is that of the request. -/
theorem not_given_up_early (m n : Nat) (q : Msg) (hc : R.ev m = some (.call q)) (hmn : m < n) (ht : R.time n < R.time m + T) (x : Req) (res : Res)
    (hx : (R.state n).reqs[(R.state m).reqs.length]? = some x) (hr : x.ph = .returned res) : ∃ d, x.done = some d ∧ res = waitFor q d := by
  have key : ∀ k, m + 1 ≤ k → k ≤ n → ∀ y, (R.state k).reqs[(R.state m).reqs.length]? = some y → y.ph = .returned res →
      ∃ d, y.done = some d ∧ res = waitFor q d := by
    intro k hk
    induction hk with
    | refl =>
      intro _ y hy hp
      rw [called R hc] at hy; cases hy; cases hp
    | @step j hj ih =>
      intro hjn y hy hp
      obtain ⟨y0, hy0, hl0⟩ := run_later R hj _ _ (called R hc)
      rcases R.next j with ⟨e, he, hs, _⟩ | ⟨_, hs, _⟩
      · obtain ⟨y1, hy1, hl1⟩ := step_later _ _ e hs _ y0 hy0
        have : some y = some y1 := hy.symm.trans hy1
        cases this
        have early : R.time j < R.time m + T := Nat.lt_of_le_of_lt (mono R (Nat.le_of_lt hjn)) ht
        rcases step_return _ _ e hs _ y0 y res hy0 hy hp with h | rfl | rfl | ⟨rfl, d, hd, hw⟩
        · obtain ⟨d, hd, hw⟩ := ih (Nat.le_of_lt hjn) y0 hy0 h
          exact ⟨d, hl1.done d hd, hw⟩
        · have := R.notEarly m j q hc (.inl he); omega
        · have := R.notEarly m j q hc (.inr he); omega
        · exact ⟨d, hl1.done d hd, by rw [hw, hl0.q]⟩
      · have hy' : (R.state (j + 1)).reqs[(R.state m).reqs.length]? = some y := hy
        rw [hs] at hy'
        exact ih (Nat.le_of_lt hjn) y hy' hp
  exact key n hmn (Nat.le_refl n) x hx hr

/-- C103: a request that is completed in time is returned to its caller at once, with what it was completed with. -/
theorem completed_in_time (m j n : Nat) (q : Msg) (hc : R.ev m = some (.call q)) (hmj : m < j) (hjn : j ≤ n) (ht : R.time j < R.time m + T)
    (hn : R.time j < R.time n) (x : Req) (d : Res) (hx : (R.state j).reqs[(R.state m).reqs.length]? = some x) (hw : x.ph = .waiting) (hd : x.done = some d) :
    ∃ x', (R.state n).reqs[(R.state m).reqs.length]? = some x' ∧ x'.ph = .returned (waitFor q d) := by
  obtain ⟨i, h1, h2, h3, h4⟩ := crossing R hjn (t := R.time j) (Nat.le_refl _) hn
  have hi : R.time i = R.time j := Nat.le_antisymm h3 (mono R h1)
  have hq : x.q = q := by
    obtain ⟨y, hy, hl⟩ := run_later R (Nat.succ_le_of_lt hmj) _ _ (called R hc)
    have : some x = some y := hx.symm.trans hy
    cases this; exact hl.q
  obtain ⟨y, hy, hl⟩ := run_later R h1 _ _ hx
  have hyd := hl.done d hd
  have hret : y.ph = .returned (waitFor q d) := by
    cases hp : y.ph with
    | queueing => exact absurd hp (hl.left (by rw [hw]; simp))
    | waiting =>
      have := R.prompt i (.ret (R.state m).reqs.length) (by omega) (.inr (.inr (.inr (.inr ⟨_, rfl⟩))))
      simp [step, hy, hp, hyd] at this
    | returned res =>
      obtain ⟨d', hd', hres⟩ := not_given_up_early R m i q hc (by omega) (by omega) y res hy hp
      rw [hyd] at hd'; cases hd'
      rw [hres]
  obtain ⟨z, hz, hlz⟩ := run_later R (Nat.le_of_lt h2) _ _ hy
  exact ⟨z, hz, hlz.ret _ hret⟩

/-- What an event does to the goroutines of a connection that stays. -/
private theorem step_conn (s s' : Sys) (e : Ev) (h : step s e = some s') (hm : s.manager = .connected) (hd : e ≠ .drain) (hr : ∀ a, e ≠ .recv a) :
    s'.manager = .connected ∧
    (s'.reader = s.reader ∨ (e = .readerDone ∧ (∃ r a, s.reader = .completing r a) ∧ s'.reader = .reading) ∨ (e = .readerStop ∧ s.reader = .reading ∧ s'.reader = .stopped)) ∧
    (s'.writer = s.writer ∨ (∃ r id, e = .writerTake r id) ∨ ∀ r id, s'.writer ≠ .writing r id) ∧
    (e = .readerStop → s'.writer = s.writer) := by
  cases e with
  | call q => simp only [step, Option.some.injEq] at h; subst h; exact ⟨hm, .inl rfl, .inl rfl, fun _ => rfl⟩
  | queueTimeout r =>
    simp only [step] at h
    split at h <;> try cases h
    split at h <;> cases h
    exact ⟨hm, .inl rfl, .inl rfl, fun _ => rfl⟩
  | startTake r => simp [step, hm] at h
  | dialFail e => simp [step, hm] at h
  | dialOk => simp [step, hm] at h
  | writerTake r id =>
    simp only [step] at h
    split at h <;> try cases h
    split at h <;> try cases h
    rename_i t ht
    split at h <;> cases h
    have : t.manager = s.manager ∧ t.reader = s.reader := by
      unfold Sys.take at ht
      split at ht
      · cases ht; exact ⟨rfl, rfl⟩
      · split at ht <;> try cases ht
        split at ht <;> cases ht
        exact ⟨rfl, rfl⟩
    exact ⟨this.1.trans hm, .inl this.2, .inr (.inl ⟨r, id, rfl⟩), fun h => by cases h⟩
  | writerFull r =>
    simp only [step] at h
    split at h <;> try cases h
    cases ht : s.take r with
    | none => rw [ht] at h; cases h
    | some t =>
      rw [ht] at h; cases h
      have : t.manager = s.manager ∧ t.reader = s.reader := by
        unfold Sys.take at ht
        split at ht
        · cases ht; exact ⟨rfl, rfl⟩
        · split at ht <;> try cases ht
          split at ht <;> cases ht
          exact ⟨rfl, rfl⟩
      exact ⟨this.1.trans hm, .inl this.2, .inr (.inr (by simp)), fun h => by cases h⟩
  | writeOk => simp only [step] at h; split at h <;> cases h; exact ⟨hm, .inl rfl, .inr (.inr (by simp)), fun h => by cases h⟩
  | writeFail e =>
    simp only [step] at h
    split at h <;> try cases h
    split at h <;> cases h <;> exact ⟨hm, .inl rfl, .inr (.inr (by simp)), fun h => by cases h⟩
  | writerFailed =>
    simp only [step] at h
    split at h <;> cases h
    rename_i r e st _
    have := mark_frame s r none (some e)
    refine ⟨this.1.trans hm, .inl this.2.2.1, .inr (.inr ?_), fun h => by cases h⟩
    intro r id
    show (if st = true then Writer.stopped else Writer.idle) ≠ _
    split <;> simp
  | writerStop => simp only [step] at h; split at h <;> cases h; exact ⟨hm, .inl rfl, .inr (.inr (by simp)), fun h => by cases h⟩
  | recv a => exact absurd rfl (hr a)
  | readerDone =>
    simp only [step] at h
    split at h <;> cases h
    rename_i r a hrd
    have := mark_frame s r (some a) none
    exact ⟨this.1.trans hm, .inr (.inl ⟨rfl, ⟨r, a, hrd⟩, rfl⟩), .inl this.2.1, fun h => by cases h⟩
  | readerStop =>
    simp only [step] at h
    split at h <;> cases h
    rename_i hrd
    exact ⟨hm, .inr (.inr ⟨rfl, hrd, rfl⟩), .inl rfl, fun _ => rfl⟩
  | drain => exact absurd rfl hd
  | timeout r =>
    simp only [step] at h
    split at h <;> try cases h
    split at h <;> cases h
    exact ⟨hm, .inl rfl, .inl rfl, fun _ => rfl⟩
  | ret r =>
    simp only [step] at h
    split at h <;> try cases h
    split at h <;> cases h
    exact ⟨hm, .inl rfl, .inl rfl, fun _ => rfl⟩

private theorem writes_succ (ev : Nat → Option Ev) (n k : Nat) :
    writes ev n (k + 1) = writes ev n k + if n ≤ k ∧ isTake (ev k) = true then 1 else 0 := by
  simp only [writes, List.range_succ, List.filter_append, List.length_append, List.filter_cons, List.filter_nil]
  congr 1
  by_cases h1 : n ≤ k <;> cases h2 : isTake (ev k) <;> simp [h1]

/-- C103: a connection on which nothing is received any more is given up after the idle timeout of 10 seconds, and the time of the writes going on or begun meanwhile. (That then
the queries on it are completed with an error is in C24.) -/
theorem silent_connection_dropped (W : Nat) (hW : WritesWithin R W) (n k : Nat) (hnk : n ≤ k) (hm : (R.state n).manager = .connected)
    (hs : ∀ j a, n ≤ j → j < k → R.ev j ≠ some (.recv a)) (ht : R.time n + idleTimeout + (1 + writes R.ev n k) * W < R.time k) :
    ∃ j, n ≤ j ∧ j < k ∧ R.ev j = some .drain := by
  rcases Classical.em (∃ j, n ≤ j ∧ j < k ∧ R.ev j = some .drain) with h | hno
  · exact h
  exfalso
  have hd : ∀ j, n ≤ j → j < k → R.ev j ≠ some .drain := fun j h1 h2 h3 => hno ⟨j, h1, h2, h3⟩
  have key : ∀ j, n ≤ j → j ≤ k → (R.state j).manager = .connected ∧
      (((∃ r a, (R.state j).reader = .completing r a) ∧ R.time j = R.time n) ∨
       (∃ a, n ≤ a ∧ a ≤ j ∧ R.time a = R.time n ∧ ∀ i, a ≤ i → i ≤ j → (R.state i).reader = .reading) ∨
       ((R.state j).reader = .stopped ∧ R.time j ≤ R.time n + idleTimeout + (1 + writes R.ev n j) * W ∧
        ∀ r id, (R.state j).writer = .writing r id → ∃ b, n ≤ b ∧ b ≤ j ∧ R.time b ≤ R.time n + idleTimeout + writes R.ev n j * W ∧
          ∀ i, b ≤ i → i ≤ j → (R.state i).writer = .writing r id)) := by
    intro j hj
    obtain ⟨d, rfl⟩ := Nat.exists_eq_add_of_le hj
    clear hj
    induction d with
    | zero =>
      intro _
      refine ⟨hm, ?_⟩
      show ((∃ r a, (R.state n).reader = .completing r a) ∧ R.time n = R.time n) ∨ _
      cases hr : (R.state n).reader with
      | completing r a => exact .inl ⟨⟨r, a, rfl⟩, rfl⟩
      | reading =>
        exact .inr (.inl ⟨n, Nat.le_refl _, Nat.le_refl _, rfl, fun i h1 h2 => by rw [Nat.le_antisymm h2 h1]; exact hr⟩)
      | stopped =>
        refine .inr (.inr ⟨rfl, (by show R.time n ≤ _; omega), fun r id hw => ⟨n, Nat.le_refl _, Nat.le_refl _, by omega, fun i h1 h2 => ?_⟩⟩)
        rw [Nat.le_antisymm h2 h1]; exact hw
    | succ d ih =>
      have hj : n ≤ n + d := Nat.le_add_right n d
      have e : n + (d + 1) = n + d + 1 := rfl
      rw [e]
      generalize n + d = j at *
      intro hjk
      have hjk' : j < k := hjk
      obtain ⟨hmj, ih⟩ := ih (Nat.le_of_lt hjk')
      rcases R.next j with ⟨e, he, hst, htm⟩ | ⟨he, hst, htm⟩
      · obtain ⟨c1, c2, c3, c4⟩ := step_conn _ _ e hst hmj (fun h => hd j hj hjk' (by rw [he, h])) (fun a h => hs j a hj hjk' (by rw [he, h]))
        refine ⟨c1, ?_⟩
        rcases ih with ⟨⟨r, a, hr⟩, htn⟩ | ⟨a, h1, h2, h3, h4⟩ | ⟨hr, h1, h2⟩
        · rcases c2 with c2 | ⟨_, _, c2⟩ | ⟨_, c2, _⟩
          · exact .inl ⟨⟨r, a, by rw [c2]; exact hr⟩, by omega⟩
          · refine .inr (.inl ⟨j + 1, by omega, Nat.le_refl _, by omega, fun i k1 k2 => ?_⟩)
            rw [Nat.le_antisymm k2 k1]; exact c2
          · rw [hr] at c2; cases c2
        · rcases c2 with c2 | ⟨_, ⟨r, b, c2⟩, _⟩ | ⟨ce, _, c2⟩
          · refine .inr (.inl ⟨a, h1, by omega, h3, fun i k1 k2 => ?_⟩)
            rcases Nat.lt_or_ge i (j + 1) with hi | hi
            · exact h4 i k1 (by omega)
            · rw [Nat.le_antisymm k2 hi, c2]; exact h4 j h2 (Nat.le_refl _)
          · rw [h4 j h2 (Nat.le_refl _)] at c2; cases c2
          · have hread := R.reads a j h2 h4 (fun i b k1 k2 => hs i b (by omega) (by omega))
            refine .inr (.inr ⟨c2, by rw [htm]; omega, fun r id hw => ⟨j + 1, by omega, Nat.le_refl _, by rw [htm]; omega, fun i k1 k2 => ?_⟩⟩)
            rw [Nat.le_antisymm k2 k1]; exact hw
        · have hr' : (R.state (j + 1)).reader = .stopped := by
            rcases c2 with c2 | ⟨_, ⟨r, b, c2⟩, _⟩ | ⟨_, _, c2⟩
            · rw [c2]; exact hr
            · rw [hr] at c2; cases c2
            · exact c2
          have hmono : writes R.ev n j ≤ writes R.ev n (j + 1) := by rw [writes_succ]; omega
          have hmul := Nat.mul_le_mul_right W hmono
          have hmul' := Nat.mul_le_mul_right W (Nat.add_le_add_left hmono 1)
          refine .inr (.inr ⟨hr', by rw [htm]; omega, fun r id hw => ?_⟩)
          rcases c3 with c3 | ⟨r', id', c3⟩ | c3
          · rw [c3] at hw
            obtain ⟨b, k1, k2, k3, k4⟩ := h2 r id hw
            refine ⟨b, k1, by omega, by omega, fun i l1 l2 => ?_⟩
            rcases Nat.lt_or_ge i (j + 1) with hi | hi
            · exact k4 i l1 (by omega)
            · rw [Nat.le_antisymm l2 hi, c3]; exact hw
          · have hcnt : writes R.ev n (j + 1) = 1 + writes R.ev n j := by
              rw [writes_succ, if_pos ⟨hj, by rw [he, c3]; rfl⟩]; omega
            refine ⟨j + 1, by omega, Nat.le_refl _, by rw [htm, hcnt]; exact h1, fun i l1 l2 => ?_⟩
            rw [Nat.le_antisymm l2 l1]; exact hw
          · exact absurd hw (c3 r id)
      · refine ⟨by rw [hst]; exact hmj, ?_⟩
        have hcnt : writes R.ev n (j + 1) = writes R.ev n j := by
          rw [writes_succ, he, if_neg (by simp [isTake])]; omega
        rcases Nat.lt_or_ge (R.time j) (R.time (j + 1)) with hlt | hge
        · rcases ih with ⟨⟨r, a, hr⟩, htn⟩ | ⟨a, h1, h2, h3, h4⟩ | ⟨hr, h1, h2⟩
          · have := R.prompt j .readerDone hlt (.inr (.inr (.inl rfl)))
            simp [step, hr] at this
          · refine .inr (.inl ⟨a, h1, by omega, h3, fun i k1 k2 => ?_⟩)
            rcases Nat.lt_or_ge i (j + 1) with hi | hi
            · exact h4 i k1 (by omega)
            · rw [Nat.le_antisymm k2 hi, hst]; exact h4 j h2 (Nat.le_refl _)
          · cases hw : (R.state j).writer with
            | idle =>
              have := R.prompt j .writerStop hlt (.inr (.inl rfl))
              simp [step, hr, hw] at this
            | failing r e b =>
              have := R.prompt j .writerFailed hlt (.inl rfl)
              simp [step, hw] at this
            | stopped =>
              have := R.prompt j .drain hlt (.inr (.inr (.inr (.inl rfl))))
              simp [step, hw, hr, hmj] at this
            | writing r id =>
              obtain ⟨b, k1, k2, k3, k4⟩ := h2 r id hw
              have hall : ∀ i, b ≤ i → i ≤ j + 1 → (R.state i).writer = .writing r id := by
                intro i l1 l2
                rcases Nat.lt_or_ge i (j + 1) with hi | hi
                · exact k4 i l1 (by omega)
                · rw [Nat.le_antisymm l2 hi, hst]; exact hw
              have hwr := hW b (j + 1) r id (by omega) hall
              refine .inr (.inr ⟨by rw [hst]; exact hr, ?_, ?_⟩)
              · rw [hcnt, Nat.add_mul, Nat.one_mul]; omega
              · intro r' id' hw'
                rw [hst, hw] at hw'
                cases hw'
                exact ⟨b, k1, by omega, by rw [hcnt]; exact k3, hall⟩
        · have hte : R.time (j + 1) = R.time j := Nat.le_antisymm hge htm
          rcases ih with ⟨hr, htn⟩ | ⟨a, h1, h2, h3, h4⟩ | ⟨hr, h1, h2⟩
          · exact .inl ⟨by rw [hst]; exact hr, by omega⟩
          · refine .inr (.inl ⟨a, h1, by omega, h3, fun i k1 k2 => ?_⟩)
            rcases Nat.lt_or_ge i (j + 1) with hi | hi
            · exact h4 i k1 (by omega)
            · rw [Nat.le_antisymm k2 hi, hst]; exact h4 j h2 (Nat.le_refl _)
          · refine .inr (.inr ⟨by rw [hst]; exact hr, by rw [hcnt, hte]; exact h1, fun r id hw => ?_⟩)
            rw [hst] at hw
            obtain ⟨b, k1, k2, k3, k4⟩ := h2 r id hw
            refine ⟨b, k1, by omega, by rw [hcnt]; exact k3, fun i l1 l2 => ?_⟩
            rcases Nat.lt_or_ge i (j + 1) with hi | hi
            · exact k4 i l1 (by omega)
            · rw [Nat.le_antisymm l2 hi, hst]; exact hw
  obtain ⟨_, h⟩ := key k hnk (Nat.le_refl _)
  rcases h with ⟨_, htn⟩ | ⟨a, h1, h2, h3, h4⟩ | ⟨_, h1, _⟩
  · omega
  · have := R.reads a k h2 h4 (fun i b k1 k2 => hs i b (by omega) k2)
    omega
  · omega

/-- C103: and the next query makes a new connection. -/
theorem reconnects (n : Nat) (hd : R.ev n = some .drain) (r : Nat) (x : Req) (hx : (R.state (n + 1)).reqs[r]? = some x) (hq : x.ph = .queueing) :
    ∃ s', step (R.state (n + 1)) (.startTake r) = some s' ∧ s'.manager = .dialing r := by
  rcases R.next n with ⟨e, he, hs, _⟩ | ⟨he, _⟩
  · rw [hd] at he; cases he
    have hm : (R.state (n + 1)).manager = .idle := by
      simp only [step] at hs
      split at hs
      · simp only [Option.some.injEq] at hs; rw [← hs]
      · cases hs
    simp only [step, hm, if_true]
    unfold Sys.take
    split
    · exact ⟨_, rfl, rfl⟩
    · simp only [hx, hq, if_true]
      exact ⟨_, rfl, rfl⟩
  · rw [hd] at he; cases he

/-- C103, finding: a write has no time limit, and only the writer closes the connection. As long as a write blocks, for example since the server takes nothing any more off a TCP connection, no later query is
sent or completed: each one times out, also when the reader has long given up. -/
theorem blocked_write_blocks_all (s : Sys) (hm : s.manager = .connected) (r0 id0 : Nat) (hw : s.writer = .writing r0 id0) (evs : List Ev) (s' : Sys)
    (hrun : run s evs = some s') (h1 : .writeOk ∉ evs) (h2 : ∀ e, .writeFail e ∉ evs) :
    s'.manager = .connected ∧ s'.writer = .writing r0 id0 ∧ s'.written = s.written ∧
    ∀ (r : Nat) (x : Req), s.reqs.length ≤ r → s'.reqs[r]? = some x → x.ph = .queueing ∨ x.ph = .returned (.fail errTimeout) := by
  have key : ∀ (evs : List Ev) (t : Sys), run t evs = some s' → t.manager = .connected → t.writer = .writing r0 id0 →
      (∀ (r : Nat) (x : Req), s.reqs.length ≤ r → t.reqs[r]? = some x → x.ph = .queueing ∨ x.ph = .returned (.fail errTimeout)) →
      s.reqs.length ≤ t.reqs.length → t.written = s.written → .writeOk ∉ evs → (∀ e, .writeFail e ∉ evs) →
      s'.manager = .connected ∧ s'.writer = .writing r0 id0 ∧ s'.written = s.written ∧
      ∀ (r : Nat) (x : Req), s.reqs.length ≤ r → s'.reqs[r]? = some x → x.ph = .queueing ∨ x.ph = .returned (.fail errTimeout) := by
    intro evs
    induction evs with
    | nil =>
      intro t hrun tm tw tr _ tn _ _
      simp only [run, Option.some.injEq] at hrun
      subst hrun
      exact ⟨tm, tw, tn, tr⟩
    | cons e evs ih =>
      intro t hrun tm tw tr tl tn n1 n2
      simp only [run] at hrun
      cases hst : step t e with
      | none => rw [hst] at hrun; cases hrun
      | some t' =>
        rw [hst] at hrun
        replace hrun : run t' evs = some s' := hrun
        have m1 : .writeOk ∉ evs := fun h => n1 (List.mem_cons_of_mem _ h)
        have m2 : ∀ e, .writeFail e ∉ evs := fun x h => n2 x (List.mem_cons_of_mem _ h)
        have mark : ∀ r a e, t'.reqs = (t.markDone r a e).reqs →
            (∀ (r : Nat) (x : Req), s.reqs.length ≤ r → t'.reqs[r]? = some x → x.ph = .queueing ∨ x.ph = .returned (.fail errTimeout)) ∧ s.reqs.length ≤ t'.reqs.length := by
          intro r a e h
          have hlen : t'.reqs.length = t.reqs.length := by
            rw [h]; unfold Sys.markDone; split
            · rfl
            · split <;> simp
          refine ⟨fun k x hk hx => ?_, by omega⟩
          have hlt := (List.getElem?_eq_some_iff.mp hx).1
          obtain ⟨y, e1, _, e2⟩ := mark_later t r a e k t.reqs[k] (List.getElem?_eq_getElem (by omega))
          rw [← h, hx] at e1
          cases e1
          rw [e2]
          exact tr k _ hk (List.getElem?_eq_getElem (by omega))
        have fix : ∀ (k : Nat) (z : Req), z.ph = .returned (.fail errTimeout) →
            (∀ (r : Nat) (x : Req), s.reqs.length ≤ r → (t.reqs.set k z)[r]? = some x → x.ph = .queueing ∨ x.ph = .returned (.fail errTimeout)) := by
          intro k z hz r x hr hx
          by_cases hk : k = r
          · subst hk
            have hlt := (List.getElem?_eq_some_iff.mp hx).1
            rw [List.getElem?_set_self (by simpa using hlt)] at hx
            cases hx; exact .inr hz
          · rw [List.getElem?_set_ne hk] at hx
            exact tr r x hr hx
        cases e with
        | call q =>
          simp only [step, Option.some.injEq] at hst; subst hst
          refine ih _ hrun tm tw (fun r x hr hx => ?_) (by simp; omega) tn m1 m2
          rcases Nat.lt_trichotomy r t.reqs.length with h | h | h
          · rw [List.getElem?_append_left h] at hx; exact tr r x hr hx
          · subst h; simp at hx; subst hx; exact .inl rfl
          · rw [List.getElem?_eq_none (by simp; omega)] at hx; cases hx
        | queueTimeout r =>
          simp only [step] at hst
          split at hst <;> try cases hst
          split at hst <;> cases hst
          exact ih _ hrun tm tw (fix _ _ rfl) (by simpa using tl) tn m1 m2
        | timeout r =>
          simp only [step] at hst
          split at hst <;> try cases hst
          split at hst <;> cases hst
          exact ih _ hrun tm tw (fix _ _ rfl) (by simpa using tl) tn m1 m2
        | ret r =>
          simp only [step] at hst
          split at hst <;> try cases hst
          rename_i y hy
          split at hst <;> cases hst
          rename_i d hp hd
          refine ih _ hrun tm tw (fun k x hk hx => ?_) (by simpa using tl) tn m1 m2
          by_cases hkr : r = k
          · subst hkr
            rcases tr r y hk hy with h | h <;> rw [hp] at h <;> cases h
          · have hx' : (t.reqs.set r { y with ph := .returned (waitFor y.q d) })[k]? = some x := hx
            rw [List.getElem?_set_ne hkr] at hx'
            exact tr k x hk hx'
        | startTake r => simp [step, tm] at hst
        | dialFail e => simp [step, tm] at hst
        | dialOk => simp [step, tm] at hst
        | writerTake r id => simp [step, tw] at hst
        | writerFull r => simp [step, tw] at hst
        | writeOk => exact absurd (List.mem_cons_self ..) n1
        | writeFail e => exact absurd (List.mem_cons_self ..) (n2 e)
        | writerFailed => simp [step, tw] at hst
        | writerStop => simp [step, tw] at hst
        | drain => simp [step, tw] at hst
        | readerStop =>
          simp only [step] at hst
          split at hst <;> cases hst
          exact ih _ hrun tm tw tr tl tn m1 m2
        | recv a =>
          simp only [step] at hst
          split at hst <;> try cases hst
          split at hst <;> cases hst <;> exact ih _ hrun tm tw tr tl tn m1 m2
        | readerDone =>
          simp only [step] at hst
          split at hst <;> cases hst
          rename_i r a _
          have hf := mark_frame t r (some a) none
          have hwr : (t.markDone r (some a) none).written = t.written := by
            unfold Sys.markDone; split
            · rfl
            · split <;> rfl
          obtain ⟨k1, k2⟩ := mark r (some a) none rfl
          exact ih _ hrun (hf.1.trans tm) (hf.2.1.trans tw) k1 k2 (hwr.trans tn) m1 m2
  exact key evs s hrun hm hw (fun r x hr hx => by
    have := (List.getElem?_eq_some_iff.mp hx).1
    omega) (Nat.le_refl _) rfl h1 h2

/-- C103: the limit is `query-timeout`, and 2 seconds when it is not set; the idle timeout is 10 seconds. -/
theorem limit (timeout : Nat) : (timeout ≠ 0 → newPipeline timeout = timeout) ∧ newPipeline 0 = 2000000000 ∧ idleTimeout = 10000000000 :=
  ⟨fun h => if_neg h, rfl, rfl⟩

section Examples

/-! A server that says nothing to the first query, 10 s later the connection is given up; the second query goes over a new connection and is answered after a second. -/
private def q1 : Msg := { id := 7, question := [⟨str "a.", 1, 1⟩] }
private def q2 : Msg := { id := 8, question := [⟨str "b.", 1, 1⟩] }
private def a2 : Msg := { id := 100, response := true, question := [⟨str "b.", 1, 1⟩] }
private def sec : Nat := 1000000000

private def evs : List (Option Ev × Nat) :=
  [(some (.call q1), 0), (some (.startTake 0), 0), (some .dialOk, 0), (some (.writerTake 0 200), 0), (some .writeOk, 0), (none, 0), (some (.timeout 0), 2 * sec), (none, 2 * sec),
   (some .readerStop, 10 * sec), (some .writerStop, 10 * sec), (some .drain, 10 * sec), (none, 10 * sec), (some (.call q2), 20 * sec), (some (.startTake 1), 20 * sec),
   (some .dialOk, 20 * sec), (some (.writerTake 1 100), 20 * sec), (some .writeOk, 20 * sec), (none, 20 * sec), (some (.recv a2), 21 * sec), (some .readerDone, 21 * sec),
   (some (.ret 1), 21 * sec), (none, 21 * sec)]

private def exEv (n : Nat) : Option Ev := match evs[n]? with
  | some (e, _) => e
  | none => none
private def exTime (n : Nat) : Nat := match evs[n]? with
  | some (_, t) => t
  | none => 22 * sec
private def exState (n : Nat) : Sys := (run {} ((evs.take n).filterMap (·.1))).getD {}

private theorem tail_state (n : Nat) (h : 22 ≤ n) : exState n = exState 22 := by
  unfold exState
  rw [List.take_of_length_le (by simp [evs]; omega), List.take_of_length_le (by simp [evs])]
private theorem tail_ev (n : Nat) (h : 22 ≤ n) : exEv n = none := by
  unfold exEv
  rw [List.getElem?_eq_none (by simp [evs]; omega)]
private theorem tail_time (n : Nat) (h : 22 ≤ n) : exTime n = 22 * sec := by
  unfold exTime
  rw [List.getElem?_eq_none (by simp [evs]; omega)]

private theorem ex_next : ∀ n, n < 22 → (match exEv n with
    | some e => decide (step (exState n) e = some (exState (n + 1)) ∧ exTime (n + 1) = exTime n)
    | none => decide (exState (n + 1) = exState n ∧ exTime n ≤ exTime (n + 1))) = true := by decide +kernel

private theorem ex_calls : ∀ n, n < 22 → (match exEv n with
    | some (.call _) => decide ((n = 0 ∧ (exState n).reqs.length = 0) ∨ (n = 12 ∧ (exState n).reqs.length = 1))
    | _ => true) = true := by decide +kernel

private theorem ex_call {m : Nat} {q : Msg} (h : exEv m = some (.call q)) :
    (m = 0 ∧ (exState m).reqs.length = 0) ∨ (m = 12 ∧ (exState m).reqs.length = 1) := by
  rcases Nat.lt_or_ge m 22 with hm | hm
  · have := ex_calls m hm
    rw [h] at this; exact of_decide_eq_true this
  · rw [tail_ev m hm] at h; cases h

private theorem ex_timers : ∀ n, n < 22 → (exEv n = some (.queueTimeout 0) ∨ exEv n = some (.timeout 0) → 0 + 2 * sec ≤ exTime n) ∧
    (exEv n = some (.queueTimeout 1) ∨ exEv n = some (.timeout 1) → 20 * sec + 2 * sec ≤ exTime n) ∧
    (exTime n < exTime (n + 1) → 0 + 2 * sec < exTime (n + 1) → step (exState n) (.queueTimeout 0) = none ∧ step (exState n) (.timeout 0) = none) ∧
    (exTime n < exTime (n + 1) → 20 * sec + 2 * sec < exTime (n + 1) → step (exState n) (.queueTimeout 1) = none ∧ step (exState n) (.timeout 1) = none) := by
  decide +kernel

private theorem ex_prompt : ∀ n, n < 22 → exTime n < exTime (n + 1) → step (exState n) .writerFailed = none ∧ step (exState n) .writerStop = none ∧
    step (exState n) .readerDone = none ∧ step (exState n) .drain = none ∧ (exState n).reqs.length ≤ 2 ∧ step (exState n) (.ret 0) = none ∧ step (exState n) (.ret 1) = none := by
  decide +kernel

private theorem ex_reads : (∀ n, n < 23 → (n < 9 → exTime n ≤ 10 * sec) ∧ (9 ≤ n → n < 15 → (exState n).reader ≠ .reading) ∧ (15 ≤ n → 20 * sec ≤ exTime n ∧ exTime n ≤ 22 * sec)) := by
  decide +kernel

private theorem ex_writes : ∀ n, n < 23 → n ≠ 4 → n ≠ 16 → (match (exState n).writer with | .writing _ _ => false | _ => true) = true := by decide +kernel

private def exRun : Run (newPipeline 0) where
  state := exState
  time := exTime
  ev := exEv
  start := rfl
  next n := by
    rcases Nat.lt_or_ge n 22 with hn | hn
    · have := ex_next n hn
      cases he : exEv n with
      | none => rw [he] at this; exact .inr ⟨rfl, of_decide_eq_true this⟩
      | some e => rw [he] at this; exact .inl ⟨e, rfl, of_decide_eq_true this⟩
    · refine .inr ⟨tail_ev n hn, ?_, ?_⟩
      · rw [tail_state n hn, tail_state (n + 1) (by omega)]
      · rw [tail_time n hn, tail_time (n + 1) (by omega)]; exact Nat.le_refl _
  notEarly m n q hc he := by
    rcases Nat.lt_or_ge n 22 with hn | hn
    · have := ex_timers n hn
      rcases ex_call hc with ⟨rfl, h⟩ | ⟨rfl, h⟩ <;> rw [h] at he
      · exact this.1 he
      · exact this.2.1 he
    · rw [tail_ev n hn] at he
      rcases he with he | he <;> cases he
  notLate m n q hc h1 h2 := by
    rcases Nat.lt_or_ge n 22 with hn | hn
    · have := ex_timers n hn
      rcases ex_call hc with ⟨rfl, h⟩ | ⟨rfl, h⟩ <;> rw [h]
      · exact this.2.2.1 h1 h2
      · exact this.2.2.2 h1 h2
    · rw [tail_time n hn, tail_time (n + 1) (by omega)] at h1; omega
  reads m n hmn h _ := by
    have time : ∀ n, 15 ≤ n → 20 * sec ≤ exTime n ∧ exTime n ≤ 22 * sec := by
      intro n hn
      rcases Nat.lt_or_ge n 23 with h | h
      · exact (ex_reads n h).2.2 hn
      · rw [tail_time n (by omega)]; simp only [sec]; omega
    have hs : sec = 1000000000 := rfl
    have hi : idleTimeout = 10000000000 := rfl
    rcases Nat.lt_or_ge n 9 with hn | hn
    · have := (ex_reads n (by omega)).1 hn; omega
    rcases Nat.lt_or_ge m 15 with hm | hm
    · rcases Nat.lt_or_ge m 9 with hm9 | hm9
      · exact absurd (h 9 (by omega) hn) ((ex_reads 9 (by omega)).2.1 (by omega) (by omega))
      · exact absurd (h m (by omega) hmn) ((ex_reads m (by omega)).2.1 hm9 hm)
    · have := time m hm
      have := time n (by omega)
      omega
  prompt n e h he := by
    rcases Nat.lt_or_ge n 22 with hn | hn
    · obtain ⟨p1, p2, p3, p4, p5, p6, p7⟩ := ex_prompt n hn h
      rcases he with rfl | rfl | rfl | rfl | ⟨r, rfl⟩
      · exact p1
      · exact p2
      · exact p3
      · exact p4
      · match r with
        | 0 => exact p6
        | 1 => exact p7
        | r + 2 => simp [step, List.getElem?_eq_none (show (exState n).reqs.length ≤ r + 2 by omega)]
    · rw [tail_time n hn, tail_time (n + 1) (by omega)] at h; omega

example : ∃ (x : Req) (res : Res), (exState 12).reqs[0]? = some x ∧ x.q = q1 ∧ x.ph = .returned res :=
  call_in_time exRun 0 12 q1 rfl (by omega) (by show 0 + 2 * sec < 20 * sec; simp [sec])
example : WritesWithin exRun 0 := by
  intro m n r id hmn h
  have at4 : ∀ j, m ≤ j → j ≤ n → j = 4 ∨ j = 16 := by
    intro j h1 h2
    have hw : (exState j).writer = .writing r id := h j h1 h2
    rcases Nat.lt_or_ge j 23 with hj | hj
    · rcases Classical.em (j = 4 ∨ j = 16) with h | h
      · exact h
      · have := ex_writes j hj (fun e => h (.inl e)) (fun e => h (.inr e))
        rw [hw] at this; cases this
    · rw [tail_state j (by omega)] at hw
      have := ex_writes 22 (by omega) (by omega) (by omega)
      rw [hw] at this; cases this
  have h1 := at4 m (Nat.le_refl _) hmn
  have h2 := at4 n hmn (Nat.le_refl _)
  have : m = n := by
    rcases h1 with rfl | rfl <;> rcases h2 with rfl | rfl
    · rfl
    · have := at4 5 (by omega) (by omega); omega
    · omega
    · rfl
  subst this; exact Nat.le_refl _
example : ∃ x', (exState 22).reqs[1]? = some x' ∧ x'.ph = .returned (.ok { a2 with id := 8 }) :=
  completed_in_time exRun 12 20 22 q2 rfl (by omega) (by omega) (by decide +kernel) (by decide +kernel)
    { q := q2, ph := .waiting, id := 100, done := some (.ok { a2 with id := 8 }) } (.ok { a2 with id := 8 }) (by decide +kernel) rfl rfl

/-! A write that blocks: the reader gives up, and the next query times out all the same. -/
example : (run {} [.call q1, .startTake 0, .dialOk, .writerTake 0 200, .timeout 0, .readerStop, .call q2, .queueTimeout 1]).map (fun s => (s.reqs.map (·.ph), s.manager, s.reader)) =
    some ([.returned (.fail errTimeout), .returned (.fail errTimeout)], .connected, .stopped) := by decide +kernel

end Examples

end Verif.Props.PipelineTimed
