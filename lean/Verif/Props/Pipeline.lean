/-
C24: pipelined connections.
-/
import Verif.Lemmas.PipelineHist
set_option linter.unusedVariables false
set_option linter.unusedSimpArgs false
namespace Verif.Props.Pipeline
open Verif Verif.Pipeline Verif.Spec.Pipeline Verif.PipelineL

/-- C24: in every interleaving, with every behaviour of server and network, the code never closes a channel twice. -/
theorem pipeline_no_panic (evs : List Ev) (s : Sys) (h : run {} evs = some s) : s.panicked = false := by
  obtain ⟨pl, hi, _⟩ := run_inv evs s h
  exact hi.ok

private theorem validate_spec (q a : Msg) (h : validateResponseQuestion q a = true) : ForQuestion q a := by
  unfold validateResponseQuestion at h
  unfold ForQuestion
  cases hq : q.question with
  | nil => exact .inl rfl
  | cons qu qs =>
    right
    rw [hq] at h
    cases ha : a.question with
    | nil => rw [ha] at h; simp at h
    | cons au as =>
      rw [ha] at h
      simp only [equalFold, Bool.and_eq_true, beq_iff_eq] at h
      exact ⟨qu, au, rfl, rfl, h.1.1, h.2, h.1.2⟩

/-- C24: what a caller gets is an error, or a message that arrived on the connection while its query was outstanding there under the ID of that message, with
the caller's ID put in and nothing else changed; and that message is for the question the caller asked. -/
theorem pipeline_answer (evs : List Ev) (s : Sys) (h : run {} evs = some s) (r : Nat) (x : Req) (res : Res)
    (hx : s.reqs[r]? = some x) (hr : x.ph = .returned res) :
    (calls evs)[r]? = some x.q ∧
    ((∃ e, res = .fail e) ∨ ∃ a m, Answered evs r a ∧ res = .ok m ∧ m = { a with id := x.q.id } ∧ ForQuestion x.q m) := by
  obtain ⟨pl, hi, hh⟩ := run_inv evs s h
  refine ⟨by rw [hh.calls, hx]; rfl, ?_⟩
  rcases hh.ret r x res hx hr with rfl | ⟨d, hd, rfl⟩
  · exact .inl ⟨_, rfl⟩
  · rcases hh.done r x d hx hd with ⟨e, rfl⟩ | ⟨a, ha, rfl⟩
    · exact .inl ⟨e, rfl⟩
    · simp only [waitFor, Res.ok]
      split
      · rename_i hv
        exact .inr ⟨a, _, ha, rfl, rfl, validate_spec _ _ hv⟩
      · exact .inl ⟨_, rfl⟩

private theorem append_eq {α} {e : α} : ∀ {pre post pre' post' : List α}, pre ++ e :: post = pre' ++ post' → pre'.length ≤ pre.length →
    ∃ mid, pre = pre' ++ mid ∧ post' = mid ++ e :: post
  | pre, post, [], post', h, _ => ⟨pre, rfl, by simpa using h.symm⟩
  | [], post, b :: pre', post', h, hl => by simp at hl
  | a :: pre, post, b :: pre', post', h, hl => by
    simp only [List.cons_append, List.cons.injEq] at h
    obtain ⟨mid, h1, h2⟩ := append_eq h.2 (by simpa using hl)
    exact ⟨mid, by rw [h.1, h1]; rfl, h2⟩

/-- C24: at most one query is outstanding under an ID, so a message answers at most one query. -/
theorem pipeline_outstanding_unique (evs : List Ev) (r r' id : Nat) (h : Outstanding evs r id) (h' : Outstanding evs r' id) : r = r' := by
  obtain ⟨pre, post, e, _, hn, _⟩ := h
  obtain ⟨pre', post', e', _, hn', _⟩ := h'
  rw [e] at e'
  rcases Nat.le_total pre'.length pre.length with hl | hl
  · obtain ⟨mid, h1, h2⟩ := append_eq e' hl
    cases mid with
    | nil => simp only [List.nil_append, List.cons.injEq, Ev.writerTake.injEq] at h2; exact h2.1.1.symm
    | cons y mid =>
      simp only [List.cons_append, List.cons.injEq] at h2
      exact absurd (by rw [h2.2]; simp) (hn' r)
  · obtain ⟨mid, h1, h2⟩ := append_eq e'.symm hl
    cases mid with
    | nil => simp only [List.nil_append, List.cons.injEq, Ev.writerTake.injEq] at h2; exact h2.1.1
    | cons y mid =>
      simp only [List.cons_append, List.cons.injEq] at h2
      exact absurd (by rw [h2.2]; simp) (hn r')

/-- C24: the in-flight table never has two queries under one ID, nor one query under two; and what it has is outstanding. -/
theorem pipeline_ids_distinct (evs : List Ev) (s : Sys) (h : run {} evs = some s) :
    (s.inflight.map (·.1)).Nodup ∧ (s.inflight.map (·.2)).Nodup ∧ ∀ id r, (id, r) ∈ s.inflight → Outstanding evs r id := by
  obtain ⟨pl, hi, hh⟩ := run_inv evs s h
  refine ⟨?_, ?_, fun id r hm => hh.flight r id ((hi.flight r id).mpr hm)⟩
  · rw [List.Nodup, List.pairwise_map]; exact hi.flightD
  · rw [List.Nodup, List.pairwise_map]
    refine hi.flightD.imp_of_mem ?_
    intro a b ha hb hab he
    have e1 := (hi.flight a.2 a.1).mpr ha
    have e2 := (hi.flight b.2 b.1).mpr hb
    rw [he, e2] at e1
    simp only [Place.flight.injEq] at e1
    exact hab e1.symm

/-- C24: every message sent is the query of a call, with only the ID replaced by the one chosen for it. -/
theorem pipeline_sends (evs : List Ev) (s : Sys) (h : run {} evs = some s) (m : Msg) (hm : m ∈ s.written) :
    ∃ (r id : Nat) (q : Msg), .writerTake r id ∈ evs ∧ (calls evs)[r]? = some q ∧ m = { q with id := id } := by
  obtain ⟨pl, hi, hh⟩ := run_inv evs s h
  exact hh.written m hm

/-- C24: no request is lost: as long as its caller waits and it is not completed, somebody has it. -/
theorem pipeline_not_lost (evs : List Ev) (s : Sys) (h : run {} evs = some s) (r : Nat) (x : Req) (hx : s.reqs[r]? = some x)
    (hw : x.ph = .waiting) (hd : x.done = none) :
    s.manager = .dialing r ∨ r ∈ s.requeued ∨ (∃ id, (id, r) ∈ s.inflight) ∨ (∃ e b, s.writer = .failing r e b) ∨ ∃ a, s.reader = .completing r a := by
  obtain ⟨pl, hi, hh⟩ := run_inv evs s h
  cases hp : pl r with
  | absent => rw [hi.absent, hx] at hp; cases hp
  | caller => rw [hi.caller r x hx, hw] at hp; cases hp
  | hand => exact absurd hp (hh.nohand r)
  | manager => exact .inl ((hi.manager r).mp hp)
  | requeued => exact .inr (.inl ((hi.requeued r).mp hp))
  | flight id => exact .inr (.inr (.inl ⟨id, (hi.flight r id).mp hp⟩))
  | writer =>
    have hf := (hi.writer r).mp hp
    cases hwr : s.writer <;> rw [hwr] at hf <;> simp [failingOf] at hf
    subst hf
    exact .inr (.inr (.inr (.inl ⟨_, _, rfl⟩)))
  | reader a => exact .inr (.inr (.inr (.inr ⟨a, (hi.reader r a).mp hp⟩)))
  | done => exact absurd hd ((hi.done r x hx).mp hp)
  | dropped =>
    obtain ⟨res, hr⟩ := hi.dropped r x hx hp
    rw [hw] at hr; cases hr

/-- C24: when the connection is given up, every query in flight is completed with an error, and none is left. -/
theorem pipeline_drain (evs : List Ev) (s s' : Sys) (h : run {} evs = some s) (hs : step s .drain = some s') :
    s'.inflight = [] ∧ ∀ id r, (id, r) ∈ s.inflight → ∃ x : Req, s'.reqs[r]? = some x ∧ x.done = some (.fail errClosed) := by
  obtain ⟨pl, hi, hh⟩ := run_inv evs s h
  have hnd := (pipeline_ids_distinct evs s h).2.1
  rw [List.Nodup, List.pairwise_map] at hnd
  have hall : ∀ x, x ∈ s.inflight → ∃ y : Req, s.reqs[x.2]? = some y ∧ y.done = none := by
    intro x hx
    have e1 := (hi.flight x.2 x.1).mpr hx
    cases hy : s.reqs[x.2]? with
    | none => have := (hi.absent x.2).mpr hy; rw [e1] at this; cases this
    | some y =>
      refine ⟨y, rfl, ?_⟩
      cases hd : y.done with
      | none => rfl
      | some d => have := (hi.done x.2 y hy).mpr (by simp [hd]); rw [e1] at this; cases this
  obtain ⟨_, _, _, f4⟩ := fold_reqs errClosed s.inflight s hnd hall
  simp only [step] at hs
  split at hs
  · simp only [Option.some.injEq] at hs
    subst hs
    refine ⟨rfl, ?_⟩
    intro id r hm
    obtain ⟨y, hy, _⟩ := hall (id, r) hm
    refine ⟨{ y with done := some (.fail errClosed) }, ?_, rfl⟩
    simp only [Sys.drain]
    rw [f4, if_pos (List.mem_map.mpr ⟨_, hm, rfl⟩)]
    simp only at hy
    rw [hy]; rfl
  · cases hs

/-- C24: every caller gets a result: at any moment a caller that has not returned can, when its timer fires, return with an error. -/
theorem pipeline_timeout (evs : List Ev) (s : Sys) (h : run {} evs = some s) (r : Nat) (x : Req) (hx : s.reqs[r]? = some x)
    (hn : ∀ res, x.ph ≠ .returned res) :
    ∃ e s', (e = .queueTimeout r ∨ e = .timeout r) ∧ step s e = some s' ∧ ∃ x' : Req, s'.reqs[r]? = some x' ∧ x'.ph = .returned (.fail errTimeout) := by
  have hlt := (List.getElem?_eq_some_iff.mp hx).1
  cases hp : x.ph with
  | queueing =>
    refine ⟨.queueTimeout r, { s with reqs := s.reqs.set r { x with ph := .returned (.fail errTimeout) } }, .inl rfl, ?_, ?_⟩
    · simp [step, hx, hp]
    · exact ⟨{ x with ph := .returned (.fail errTimeout) }, by simp [hlt], rfl⟩
  | waiting =>
    cases hs : step s (.timeout r) with
    | none => simp [step, hx, hp] at hs
    | some s' =>
      refine ⟨.timeout r, s', .inr rfl, hs, { x with ph := .returned (.fail errTimeout) }, ?_, rfl⟩
      simp only [step, hx, hp, if_true, Option.some.injEq] at hs
      subst hs
      simp [hlt]
  | returned res => exact absurd hp (hn res)

/-- C24: a completed request is returned to its caller, and a caller whose query was answered with a message for its question gets it. -/
theorem pipeline_completed (evs : List Ev) (s : Sys) (h : run {} evs = some s) (r : Nat) (x : Req) (d : Res) (hx : s.reqs[r]? = some x)
    (hw : x.ph = .waiting) (hd : x.done = some d) :
    ∃ s', step s (.ret r) = some s' ∧ ∃ (x' : Req) (res : Res), s'.reqs[r]? = some x' ∧ x'.ph = .returned res ∧
      ((d.err ≠ none → res = d) ∧ ∀ m, d = .ok m → ForQuestion x.q m → res = .ok m) := by
  have hlt := (List.getElem?_eq_some_iff.mp hx).1
  refine ⟨{ s with reqs := s.reqs.set r { x with ph := .returned (waitFor x.q d) } }, by simp [step, hx, hw, hd],
    { x with ph := .returned (waitFor x.q d) }, waitFor x.q d, by simp [hlt], rfl, ?_, ?_⟩
  · intro he
    unfold waitFor
    cases hde : d.err with
    | none => exact absurd hde he
    | some e => rfl
  · rintro m rfl hq
    simp only [waitFor, Res.ok]
    rw [if_pos]
    unfold validateResponseQuestion
    rcases hq with hq | ⟨qu, au, h1, h2, h3, h4, h5⟩
    · rw [hq]
    · cases hq : x.q.question with
      | nil => rfl
      | cons q1 qs =>
        cases ha : m.question with
        | nil => rw [ha] at h2; simp at h2
        | cons a1 as =>
          rw [hq] at h1; rw [ha] at h2
          simp only [List.head?_cons, Option.some.injEq] at h1 h2
          subst h1; subst h2
          simp [equalFold, h3, h4, h5]

private theorem pigeon : ∀ (n : Nat) (l : List Nat), (∀ i, i < n → i ∈ l) → n ≤ l.length
  | 0, _, _ => Nat.zero_le _
  | n + 1, l, h => by
    have hm := h n (by omega)
    have := pigeon n (l.erase n) (fun i hi => by
      have := h i (by omega)
      rw [List.mem_erase_of_ne (by omega)]; exact this)
    rw [List.length_erase_of_mem hm] at this
    have : 0 < l.length := List.length_pos_of_mem hm
    omega

/-- C24: an ID can always be found: if the table is not full, one of the 65536 IDs is free; so the loop that draws IDs can end. -/
theorem pipeline_id_available (s : Sys) (h : s.inflight.length < maxInFlight) : ∃ id, id < 65536 ∧ s.inflight.lookup id = none := by
  rcases Classical.em (∃ id, id < 65536 ∧ s.inflight.lookup id = none) with hc | hc
  · exact hc
  exfalso
  have := pigeon 65536 (s.inflight.map (·.1)) (fun i hi => by
    cases hl : s.inflight.lookup i with
    | none => exact absurd ⟨i, hi, hl⟩ hc
    | some v => exact List.mem_map.mpr ⟨_, lookup_mem _ _ _ hl, rfl⟩)
  rw [List.length_map] at this
  have : maxInFlight = 65535 := rfl
  omega

/-- C24: so a writer waiting for work can take any request offered. -/
theorem pipeline_can_send (evs : List Ev) (s : Sys) (h : run {} evs = some s) (hw : s.writer = .idle) (r : Nat) (x : Req)
    (hx : s.reqs[r]? = some x) (ho : x.ph = .queueing ∨ r ∈ s.requeued) :
    ∃ e s', step s e = some s' ∧ (e = .writerFull r ∨ ∃ id, e = .writerTake r id) := by
  have hlt := (List.getElem?_eq_some_iff.mp hx).1
  have ht : ∃ t, s.take r = some t ∧ t.inflight = s.inflight ∧ ∃ y, t.reqs[r]? = some y := by
    unfold Sys.take
    by_cases hr : r ∈ s.requeued
    · rw [if_pos hr]; exact ⟨_, rfl, rfl, x, hx⟩
    · rw [if_neg hr, hx]
      rcases ho with ho | ho
      · simp only [ho, if_true]; exact ⟨_, rfl, rfl, { x with ph := .waiting }, by simp [hlt]⟩
      · exact absurd ho hr
  obtain ⟨t, ht, hti, y, hy⟩ := ht
  by_cases hf : s.inflight.length < maxInFlight
  · obtain ⟨id, h1, h2⟩ := pipeline_id_available s hf
    cases hs : step s (.writerTake r id) with
    | none => simp [step, hw, hf, h1, h2, ht, hy] at hs
    | some s' => exact ⟨_, s', hs, .inr ⟨id, rfl⟩⟩
  · cases hs : step s (.writerFull r) with
    | none => simp [step, hw, hf, ht] at hs
    | some s' => exact ⟨_, s', hs, .inl rfl⟩

/-! Two callers with the same ID and question, answers out of order, an unsolicited message and a mismatched one. -/
private def q1 : Msg := { id := 7, question := [⟨str "a.", 1, 1⟩] }
private def q2 : Msg := { id := 7, question := [⟨str "b.", 1, 1⟩] }
private def a1 : Msg := { id := 100, response := true, question := [⟨str "A.", 1, 1⟩] }
private def a2 : Msg := { id := 200, response := true, question := [⟨str "b.", 1, 1⟩] }
private def exRun : List Ev := [.call q1, .call q2, .startTake 0, .dialOk, .writerTake 1 200, .writeOk, .writerTake 0 100,
  .recv a2, .readerDone, .recv { a2 with id := 9 }, .writeOk, .recv a1, .readerDone, .ret 0, .ret 1]
example : (run {} exRun).map (fun s => s.reqs.map (·.ph)) =
    some [.returned (.ok { a1 with id := 7 }), .returned (.ok { a2 with id := 7 })] := by decide +kernel
example : (run {} [.call q1, .startTake 0, .dialOk, .writerTake 0 200, .writeOk, .recv a2, .readerDone, .ret 0]).map (fun s => s.reqs.map (·.ph)) =
    some [.returned (.fail "question mismatch")] := by decide +kernel
example : (run {} [.call q1, .startTake 0, .dialOk, .writerTake 0 200, .writeFail "broken", .writerFailed, .readerStop, .drain, .ret 0]).map
    (fun s => s.reqs.map (·.ph)) = some [.returned (.fail "broken")] := by decide +kernel
example : (run {} [.call q1, .startTake 0, .dialOk, .writerTake 0 200, .writeOk, .readerStop, .writerStop, .drain, .ret 0]).map
    (fun s => s.reqs.map (·.ph)) = some [.returned (.fail errClosed)] := by decide +kernel

/-- Finding: a query whose caller gave up while the connection was being made is still sent, and keeps its ID until the server answers or the connection
ends: the caller has returned, and its query is in the table. -/
theorem pipeline_sends_abandoned : ∃ s, run {} [.call q1, .startTake 0, .timeout 0, .dialOk, .writerTake 0 200, .writeOk] = some s ∧
    s.inflight = [(200, 0)] ∧ s.reqs.map (·.ph) = [.returned (.fail errTimeout)] ∧ s.writer = .idle := by
  refine ⟨_, rfl, ?_, ?_, ?_⟩ <;> decide +kernel

end Verif.Props.Pipeline
