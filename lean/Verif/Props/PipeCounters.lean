import Verif.Model.PipeCounters
import Verif.Spec.Counters
/-
C92, continued: the counters of the clients that share a connection (DNS, DoT, DTLS).
-/
namespace Verif.Props.PipeCounters
open Verif Verif.Counters Verif.Pipeline Verif.PipeCounters Verif.Spec.Counters

/-- The caller has got an answer with this code. -/
def gotAnswer (code : Nat) (x : Req) : Bool := match x.ph with
  | .returned ⟨some a, _⟩ => a.rcode = code
  | _ => false

/-- The caller was told that the time is over. -/
def timedOut (x : Req) : Bool := x.ph = .returned (.fail errTimeout)

/-- A message with this code was read. -/
def read (code : Nat) (e : Ev × Option Str) : Bool := match e.1 with
  | .recv a => a.rcode = code
  | _ => false

/-- A message was read. -/
def readAny (e : Ev × Option Str) : Bool := match e.1 with
  | .recv _ => true
  | _ => false

private def doneWith (code : Nat) (x : Req) : Bool := match x.done with
  | some ⟨some a, _⟩ => a.rcode = code
  | _ => false

private def completing (code : Nat) : Reader → Nat
  | .completing _ a => if a.rcode = code then 1 else 0
  | _ => 0

private theorem countP_set {p : Req → Bool} : ∀ {l : List Req} {i : Nat} {x y : Req}, l[i]? = some x →
    (l.set i y).countP p + (if p x then 1 else 0) = l.countP p + (if p y then 1 else 0)
  | [], i, x, y, h => by simp at h
  | z :: l, 0, x, y, h => by
    simp only [List.getElem?_cons_zero, Option.some.injEq] at h
    subst h
    simp only [List.set_cons_zero, List.countP_cons]
    omega
  | z :: l, i + 1, x, y, h => by
    simp only [List.getElem?_cons_succ] at h
    have := countP_set (p := p) (y := y) h
    simp only [List.set_cons_succ, List.countP_cons]
    omega

private theorem mem_set {l : List Req} {i : Nat} {y z : Req} (h : z ∈ l.set i y) : z = y ∨ z ∈ l := by
  rcases List.mem_or_eq_of_mem_set h with h | h
  · exact Or.inr h
  · exact Or.inl h

/-- What the requests say of answers and timeouts -/
private structure Sound (s : Sys) : Prop where
  answers : ∀ x ∈ s.reqs, ∀ a e, x.ph = .returned ⟨some a, e⟩ → ∃ e', x.done = some ⟨some a, e'⟩
  other : ∀ x ∈ s.reqs, ∀ d, x.done = some d → d.err ≠ some errTimeout
  writer : ∀ r e b, s.writer = .failing r e b → e ≠ errTimeout

private theorem get_mem {l : List Req} {i : Nat} {x : Req} (h : l[i]? = some x) : x ∈ l := List.mem_of_getElem? h

/-- Completing a request: what it changes -/
private theorem mark (s : Sys) (r : Nat) (a : Option Msg) (e : Option Err) (he : e ≠ some errTimeout) (hs : Sound s) :
    Sound (s.markDone r a e) ∧ (s.markDone r a e).reqs.countP timedOut = s.reqs.countP timedOut ∧
    (∀ code, (s.markDone r a e).reqs.countP (doneWith code) ≤ s.reqs.countP (doneWith code) + (match a with | some a => if a.rcode = code then 1 else 0 | none => 0)) ∧
    (s.markDone r a e).inflight = s.inflight ∧ (s.markDone r a e).written = s.written ∧ (s.markDone r a e).reader = s.reader ∧ (s.markDone r a e).writer = s.writer := by
  unfold Sys.markDone
  cases hx : s.reqs[r]? with
  | none => exact ⟨hs, rfl, fun _ => Nat.le_add_right _ _, by simp⟩
  | some x =>
    simp only
    cases hd : x.done with
    | some d => exact ⟨⟨hs.answers, hs.other, hs.writer⟩, rfl, fun _ => Nat.le_add_right _ _, rfl, rfl, rfl, rfl⟩
    | none =>
      simp only
      refine ⟨⟨fun y hy b e' hp => ?_, fun y hy d h => ?_, hs.writer⟩, ?_, fun code => ?_, by simp⟩
      · rcases mem_set hy with rfl | hy
        · obtain ⟨e'', h⟩ := hs.answers x (get_mem hx) b e' hp
          rw [hd] at h; cases h
        · exact hs.answers y hy b e' hp
      · rcases mem_set hy with rfl | hy
        · simp only [Option.some.injEq] at h
          subst h
          exact he
        · exact hs.other y hy d h
      · have := countP_set (p := timedOut) (y := { x with done := some ⟨a.map fun m => { m with id := x.q.id }, e⟩ }) hx
        have h' : timedOut { x with done := some ⟨a.map fun m => { m with id := x.q.id }, e⟩ } = timedOut x := rfl
        rw [h'] at this
        omega
      · have := countP_set (p := doneWith code) (y := { x with done := some ⟨a.map fun m => { m with id := x.q.id }, e⟩ }) hx
        have h1 : doneWith code x = false := by unfold doneWith; rw [hd]
        rw [h1] at this
        cases a with
        | none =>
          have h2 : doneWith code { x with done := some ⟨(none : Option Msg).map fun m => { m with id := x.q.id }, e⟩ } = false := rfl
          rw [h2] at this
          simp only [Bool.false_eq_true, if_false] at this
          omega
        | some a =>
          have h2 : doneWith code { x with done := some ⟨(some a).map fun m => { m with id := x.q.id }, e⟩ } = decide (a.rcode = code) := rfl
          rw [h2] at this
          simp only [Bool.false_eq_true, if_false, decide_eq_true_eq] at this ⊢
          omega

private theorem marks (e : Err) (he : e ≠ errTimeout) : ∀ (l : List (Nat × Nat)) (s : Sys), Sound s →
    let t := l.foldl (fun t x => t.markDone x.2 none (some e)) s
    Sound t ∧ t.reqs.countP timedOut = s.reqs.countP timedOut ∧ (∀ code, t.reqs.countP (doneWith code) ≤ s.reqs.countP (doneWith code)) ∧ t.written = s.written ∧ t.reader = s.reader
  | [], s, hs => ⟨hs, rfl, fun _ => Nat.le_refl _, rfl, rfl⟩
  | x :: l, s, hs => by
    obtain ⟨h1, h2, h3, h4, h5, h6, h7⟩ := mark s x.2 none (some e) (by simpa using he) hs
    obtain ⟨i1, i2, i3, i4, i5⟩ := marks e he l _ h1
    refine ⟨i1, i2.trans h2, fun code => Nat.le_trans (i3 code) (by have := h3 code; simpa using this), i4.trans h5, i5.trans h6⟩

/-- The invariant: what was counted, beside the state and the messages read -/
private structure Inv (s : Sys) (cs : List Count) (reads : List (Ev × Option Str)) : Prop where
  sound : Sound s
  query : cs.count .query = s.written.length
  flight : cs.countP isResponse + s.inflight.length ≤ s.written.length
  given : ∀ code, s.reqs.countP (doneWith code) + completing code s.reader ≤ cs.count (.response code)
  got : ∀ code, cs.count (.response code) ≤ reads.countP (read code)
  all : cs.countP isResponse + cs.count (.error (str "unexpected_a")) = reads.countP readAny
  timeouts : cs.count (.error (str "querytimeout")) = s.reqs.countP timedOut

private theorem take_inv {s s' : Sys} {r : Nat} (h : s.take r = some s') (hs : Sound s) :
    Sound s' ∧ s'.reqs.countP timedOut = s.reqs.countP timedOut ∧ (∀ code, s'.reqs.countP (doneWith code) = s.reqs.countP (doneWith code)) ∧
    s'.inflight = s.inflight ∧ s'.written = s.written ∧ s'.reader = s.reader ∧ s'.writer = s.writer := by
  unfold Sys.take at h
  split at h
  · cases h
    exact ⟨⟨hs.answers, hs.other, hs.writer⟩, rfl, fun _ => rfl, rfl, rfl, rfl, rfl⟩
  · cases hx : s.reqs[r]? with
    | none => rw [hx] at h; cases h
    | some x =>
      rw [hx] at h
      simp only at h
      split at h
      · rename_i hq
        cases h
        refine ⟨⟨fun y hy b e' hp => ?_, fun y hy d h => ?_, hs.writer⟩, ?_, fun code => ?_, rfl, rfl, rfl, rfl⟩
        · rcases mem_set hy with rfl | hy
          · cases hp
          · exact hs.answers y hy b e' hp
        · rcases mem_set hy with rfl | hy
          · exact hs.other x (get_mem hx) d h
          · exact hs.other y hy d h
        · have := countP_set (p := timedOut) (y := { x with ph := .waiting }) hx
          have h1 : timedOut x = false := by simp [timedOut, hq]
          have h2 : timedOut { x with ph := .waiting } = false := by simp [timedOut]
          rw [h1, h2] at this
          simpa using this
        · have := countP_set (p := doneWith code) (y := { x with ph := .waiting }) hx
          have h2 : doneWith code { x with ph := .waiting } = doneWith code x := rfl
          rw [h2] at this
          simp only
          omega
      · cases h

/-- A request gets back to its caller with a time-out. -/
private theorem late {s : Sys} {r : Nat} {x : Req} (hx : s.reqs[r]? = some x) (hp : ∀ res, x.ph ≠ .returned res) (hs : Sound s) (fl : List (Nat × Nat)) :
    Sound { s with reqs := s.reqs.set r { x with ph := .returned (.fail errTimeout) }, inflight := fl } ∧
    (s.reqs.set r { x with ph := .returned (.fail errTimeout) }).countP timedOut = s.reqs.countP timedOut + 1 ∧
    ∀ code, (s.reqs.set r { x with ph := .returned (.fail errTimeout) }).countP (doneWith code) = s.reqs.countP (doneWith code) := by
  refine ⟨⟨fun y hy b e' hp => ?_, fun y hy d h => ?_, hs.writer⟩, ?_, fun code => ?_⟩
  · rcases mem_set hy with rfl | hy
    · simp [Res.fail] at hp
    · exact hs.answers y hy b e' hp
  · rcases mem_set hy with rfl | hy
    · exact hs.other x (get_mem hx) d h
    · exact hs.other y hy d h
  · have := countP_set (p := timedOut) (y := { x with ph := .returned (.fail errTimeout) }) hx
    have h1 : timedOut x = false := by simp [timedOut, hp]
    have h2 : timedOut { x with ph := .returned (.fail errTimeout) } = true := by simp [timedOut]
    rw [h1, h2] at this
    simpa using this
  · have := countP_set (p := doneWith code) (y := { x with ph := .returned (.fail errTimeout) }) hx
    have h2 : doneWith code { x with ph := .returned (.fail errTimeout) } = doneWith code x := rfl
    rw [h2] at this
    omega

private theorem filter_lt {l : List (Nat × Nat)} {id r : Nat} (h : l.lookup id = some r) : (l.filter fun x => x.1 ≠ id).length + 1 ≤ l.length := by
  induction l with
  | nil => cases h
  | cons x l ih =>
    obtain ⟨a, b⟩ := x
    rw [List.lookup_cons] at h
    by_cases ha : id = a
    · subst ha
      rw [List.filter_cons_of_neg (by simp), List.length_cons]
      have := List.length_filter_le (fun x : Nat × Nat => decide (x.1 ≠ id)) l
      omega
    · have hb : (id == a) = false := by simpa using ha
      rw [hb] at h
      rw [List.filter_cons_of_pos (by simpa using fun h => ha h.symm), List.length_cons, List.length_cons]
      have := ih h
      omega

private theorem read_append (reads : List (Ev × Option Str)) (e : Ev) (w : Option Str) (p : Ev × Option Str → Bool) :
    (reads ++ [(e, w)]).countP p = reads.countP p + if p (e, w) then 1 else 0 := by
  rw [List.countP_append, List.countP_cons, List.countP_nil]; omega

/-- The errors with which the network fails are not that of a time-out. -/
def Network (e : Ev) : Prop := ∀ w, e = .dialFail w ∨ e = .writeFail w → w ≠ errTimeout

/-- The errors with which reading ends -/
def Ends (why : Option Str) : Prop := ∀ w, why = some w → w ∈ [str "server_term", str "server_eof", str "read"]

private theorem keep {s s' : Sys} {cs add : List Count} {reads : List (Ev × Option Str)} {e : Ev} {w : Option Str} (h : Inv s cs reads) (hr : ∀ a, e ≠ .recv a) (hs : Sound s')
    (h1 : s'.written.length = s.written.length + add.count .query) (h2 : s'.inflight.length ≤ s.inflight.length + add.count .query) (h3 : add.countP isResponse = 0)
    (h4 : ∀ code, s'.reqs.countP (doneWith code) + completing code s'.reader ≤ s.reqs.countP (doneWith code) + completing code s.reader)
    (h5 : s'.reqs.countP timedOut = s.reqs.countP timedOut + add.count (.error (str "querytimeout"))) (h6 : add.count (.error (str "unexpected_a")) = 0) :
    Inv s' (cs ++ add) (reads ++ [(e, w)]) := by
  have hadd : ∀ code, add.count (.response code) = 0 := by
    intro code
    rw [List.countP_eq_zero] at h3
    rw [List.count_eq_zero]
    intro hm
    exact h3 _ hm rfl
  have hn : ∀ code, read code (e, w) = false := by
    intro code
    cases e <;> first | rfl | exact absurd rfl (hr _)
  have hn' : readAny (e, w) = false := by
    cases e <;> first | rfl | exact absurd rfl (hr _)
  refine ⟨hs, ?_, ?_, fun code => ?_, fun code => ?_, ?_, ?_⟩
  · rw [List.count_append, h.query, h1]
  · rw [List.countP_append, h3]; have := h.flight; omega
  · rw [List.count_append, hadd]; have := h.given code; have := h4 code; omega
  · rw [List.count_append, hadd, read_append, hn]; simpa using h.got code
  · rw [List.countP_append, List.count_append, h3, h6, read_append, hn']; simpa using h.all
  · rw [List.count_append, h.timeouts, h5]

private theorem step_inv (s s' : Sys) (e : Ev) (why : Option Str) (cs : List Count) (reads : List (Ev × Option Str)) (hn : Network e) (hw : Ends why) (h : Inv s cs reads)
    (hst : step s e = some s') : Inv s' (cs ++ counts s why e) (reads ++ [(e, why)]) := by
  have snd := h.sound
  cases e with
  | call q =>
    simp only [step, Option.some.injEq] at hst
    subst hst
    refine keep h (by simp) ⟨fun x hx a e hp => ?_, fun x hx d hd => ?_, snd.writer⟩ rfl (by simp [counts]) rfl (fun code => ?_) ?_ rfl
    · rcases List.mem_append.mp hx with hx | hx
      · exact snd.answers x hx a e hp
      · simp only [List.mem_singleton] at hx; subst hx; cases hp
    · rcases List.mem_append.mp hx with hx | hx
      · exact snd.other x hx d hd
      · simp only [List.mem_singleton] at hx; subst hx; cases hd
    · rw [List.countP_append]; simp [doneWith]
    · rw [List.countP_append]; simp [timedOut, counts]
  | queueTimeout r =>
    simp only [step] at hst
    cases hx : s.reqs[r]? with
    | none => rw [hx] at hst; cases hst
    | some x =>
      rw [hx] at hst
      simp only at hst
      split at hst
      · rename_i hq
        cases hst
        obtain ⟨l1, l2, l3⟩ := late hx (by rw [hq]; simp) snd s.inflight
        exact keep h (by simp) l1 rfl (Nat.le_add_right _ _) rfl (fun code => by rw [l3]; exact Nat.le_refl _) l2 (by simp only [counts]; decide)
      · cases hst
  | startTake r =>
    simp only [step] at hst
    split at hst
    · cases ht : s.take r with
      | none => rw [ht] at hst; cases hst
      | some t =>
        rw [ht] at hst
        cases hst
        obtain ⟨t1, t2, t3, t4, t5, t6, t7⟩ := take_inv ht snd
        exact keep h (by simp) ⟨t1.answers, t1.other, t1.writer⟩ (by simp [counts, t5]) (by simp [t4]) rfl (fun code => by simp [t3, t6]) (by simp [counts, t2]) rfl
    · cases hst
  | dialFail w =>
    simp only [step] at hst
    split at hst
    · cases hst
      obtain ⟨m1, m2, m3, m4, m5, m6, m7⟩ := mark s _ none (some w) (by simpa using hn w (Or.inl rfl)) snd
      exact keep h (by simp) ⟨m1.answers, m1.other, m1.writer⟩ (by simp [counts, m5]) (by simp [m4]) rfl (fun code => by have := m3 code; simp only [m6]; simp at this; omega)
        (by simp (decide := true) [counts, m2]) (by simp only [counts]; decide)
    · cases hst
  | dialOk =>
    simp only [step] at hst
    split at hst
    · cases hst
      exact keep h (by simp) ⟨snd.answers, snd.other, by simp⟩ rfl (Nat.le_add_right _ _) rfl (fun code => by simp [completing]) rfl rfl
    · cases hst
  | writerTake r id =>
    simp only [step] at hst
    split at hst
    · split at hst
      · cases hst
      · rename_i t ht
        obtain ⟨t1, t2, t3, t4, t5, t6, t7⟩ := take_inv ht snd
        split at hst
        · cases hst
        · rename_i x hx
          cases hst
          refine keep h (by simp) ⟨fun y hy a e hp => ?_, fun y hy d hd => ?_, by simp⟩ (by simp [counts, t5]) (by simp [counts, t4]) rfl (fun code => ?_) ?_ (by simp only [counts]; decide)
          · rcases mem_set hy with rfl | hy
            · exact t1.answers x (get_mem hx) a e hp
            · exact t1.answers y hy a e hp
          · rcases mem_set hy with rfl | hy
            · exact t1.other x (get_mem hx) d hd
            · exact t1.other y hy d hd
          · have := countP_set (p := doneWith code) (y := { x with id := id }) hx
            have h2 : doneWith code { x with id := id } = doneWith code x := rfl
            rw [h2] at this
            simp only [t6]
            have := t3 code
            omega
          · have := countP_set (p := timedOut) (y := { x with id := id }) hx
            have h2 : timedOut { x with id := id } = timedOut x := rfl
            rw [h2] at this
            simp only [counts]
            have h0 : List.count (Count.error (str "querytimeout")) [Count.query] = 0 := by decide
            rw [h0]
            omega
    · cases hst
  | writerFull r =>
    simp only [step] at hst
    split at hst
    · cases ht : s.take r with
      | none => rw [ht] at hst; cases hst
      | some t =>
        rw [ht] at hst
        cases hst
        obtain ⟨t1, t2, t3, t4, t5, t6, t7⟩ := take_inv ht snd
        refine keep h (by simp) ⟨t1.answers, t1.other, ?_⟩ (by simp [counts, t5]) (by simp [t4]) rfl (fun code => by simp [t3, t6]) (by simp [counts, t2]) rfl
        intro r e b hf
        simp only [Writer.failing.injEq] at hf
        obtain ⟨-, rfl, -⟩ := hf
        decide
    · cases hst
  | writeOk =>
    simp only [step] at hst
    split at hst
    · cases hst
      exact keep h (by simp) ⟨snd.answers, snd.other, by simp⟩ rfl (Nat.le_add_right _ _) rfl (fun code => Nat.le_refl _) rfl rfl
    · cases hst
  | writeFail w =>
    simp only [step] at hst
    cases hwr : s.writer with
    | writing r id =>
      rw [hwr] at hst
      simp only at hst
      cases hl : s.inflight.lookup id with
      | none =>
        rw [hl] at hst
        cases hst
        have hc : counts s why (.writeFail w) = [.error (str "send_query")] := by simp [counts, hwr, hl]
        rw [hc]
        exact keep h (by simp) ⟨snd.answers, snd.other, by simp⟩ (by simp) (by simp) rfl (fun code => Nat.le_refl _) (by simp (decide := true)) (by decide)
      | some r' =>
        rw [hl] at hst
        cases hst
        have hc : counts s why (.writeFail w) = [] := by simp [counts, hwr, hl]
        rw [hc]
        refine keep h (by simp) ⟨snd.answers, snd.other, ?_⟩ (by simp) (by simpa using List.length_filter_le _ _) rfl (fun code => Nat.le_refl _) (by simp) rfl
        intro r e b hf
        simp only [Writer.failing.injEq] at hf
        obtain ⟨-, rfl, -⟩ := hf
        exact hn _ (Or.inr rfl)
    | _ => rw [hwr] at hst; cases hst
  | writerFailed =>
    simp only [step] at hst
    cases hwr : s.writer with
    | failing r e stop =>
      rw [hwr] at hst
      cases hst
      obtain ⟨m1, m2, m3, m4, m5, m6, m7⟩ := mark s r none (some e) (by simpa using snd.writer r e stop hwr) snd
      have hc : counts s why .writerFailed = [.error (if stop then str "send_query" else str "inflight_full")] := by simp [counts, hwr]
      rw [hc]
      refine keep h (by simp) ⟨m1.answers, m1.other, ?_⟩ (by simp [m5]) (by simp [m4]) rfl (fun code => by have := m3 code; simp only [m6]; simp at this; omega) ?_ ?_
      · intro r e b hf
        cases stop <;> cases hf
      · cases stop <;> simp (decide := true) [m2]
      · cases stop <;> decide
    | _ => rw [hwr] at hst; cases hst
  | writerStop =>
    simp only [step] at hst
    split at hst
    · cases hst
      exact keep h (by simp) ⟨snd.answers, snd.other, by simp⟩ rfl (Nat.le_add_right _ _) rfl (fun code => Nat.le_refl _) rfl rfl
    · cases hst
  | recv a =>
    simp only [step] at hst
    cases hr : s.reader with
    | reading =>
      rw [hr] at hst
      simp only at hst
      cases hl : s.inflight.lookup a.id with
      | none =>
        rw [hl] at hst
        cases hst
        have hc : counts s why (.recv a) = [.error (str "unexpected_a")] := by simp [counts, hl]
        rw [hc]
        refine ⟨snd, ?_, ?_, fun code => ?_, fun code => ?_, ?_, ?_⟩
        · rw [List.count_append, h.query]; simp
        · rw [List.countP_append]; have := h.flight; simpa [isResponse] using this
        · rw [List.count_append]; have := h.given code; simp; omega
        · rw [List.count_append, read_append]; have := h.got code; simp; omega
        · rw [List.countP_append, List.count_append, read_append, ← h.all]; simp [isResponse, readAny]; omega
        · rw [List.count_append, h.timeouts]; simp (decide := true)
      | some r =>
        rw [hl] at hst
        cases hst
        have hc : counts s why (.recv a) = [.response a.rcode] := by simp [counts, hl]
        rw [hc]
        refine ⟨⟨snd.answers, snd.other, snd.writer⟩, ?_, ?_, fun code => ?_, fun code => ?_, ?_, ?_⟩
        · rw [List.count_append, h.query]; simp
        · rw [List.countP_append]
          have := h.flight
          have := filter_lt hl
          simp only [List.countP_cons, List.countP_nil, isResponse, if_true]
          omega
        · rw [List.count_append]
          have := h.given code
          rw [hr] at this
          simp only [completing, List.count_cons, List.count_nil, beq_iff_eq, Count.response.injEq] at this ⊢
          omega
        · rw [List.count_append, read_append]
          have := h.got code
          simp only [List.count_cons, List.count_nil, beq_iff_eq, Count.response.injEq, read, decide_eq_true_eq]
          omega
        · rw [List.countP_append, List.count_append, read_append, ← h.all]; simp [isResponse, readAny]; omega
        · rw [List.count_append, h.timeouts]; simp
    | _ => rw [hr] at hst; cases hst
  | readerDone =>
    simp only [step] at hst
    cases hr : s.reader with
    | completing r a =>
      rw [hr] at hst
      cases hst
      obtain ⟨m1, m2, m3, m4, m5, m6, m7⟩ := mark s r (some a) none (by simp) snd
      refine keep h (by simp) ⟨m1.answers, m1.other, m1.writer⟩ (by simp [counts, m5]) (by simp [m4]) rfl (fun code => ?_) (by simp [counts, m2]) rfl
      have := m3 code
      rw [hr]
      simpa [completing] using this
    | _ => rw [hr] at hst; cases hst
  | readerStop =>
    simp only [step] at hst
    cases hr : s.reader with
    | reading =>
      rw [hr] at hst
      cases hst
      have hc : counts s why .readerStop = [] ∨ ∃ w, counts s why .readerStop = [.error w] ∧ w ∈ [str "server_term", str "server_eof", str "read"] := by
        cases hwy : why with
        | none => exact Or.inl rfl
        | some w => exact Or.inr ⟨w, rfl, hw w hwy⟩
      rcases hc with hc | ⟨w, hc, hw⟩
      · rw [hc]
        exact keep h (by simp) ⟨snd.answers, snd.other, snd.writer⟩ rfl (Nat.le_add_right _ _) rfl (fun code => by simp [completing]) rfl rfl
      · rw [hc]
        simp only [List.mem_cons, List.not_mem_nil, or_false] at hw
        rcases hw with rfl | rfl | rfl <;>
        exact keep h (by simp) ⟨snd.answers, snd.other, snd.writer⟩ (by simp) (by simp) rfl (fun code => by simp [completing]) (by simp (decide := true)) (by decide)
    | _ => rw [hr] at hst; cases hst
  | drain =>
    simp only [step] at hst
    split at hst
    · rename_i hc
      cases hst
      obtain ⟨m1, m2, m3, m4, m5⟩ := marks errClosed (by decide) s.inflight s snd
      exact keep h (by simp) ⟨m1.answers, m1.other, m1.writer⟩ (by simp [counts, Sys.drain, m4]) (by simp [Sys.drain]) rfl
        (fun code => by have := m3 code; simp only [Sys.drain, m5]; omega) (by simp only [Sys.drain, counts, m2]; rfl) rfl
    · cases hst
  | timeout r =>
    simp only [step] at hst
    cases hx : s.reqs[r]? with
    | none => rw [hx] at hst; cases hst
    | some x =>
      rw [hx] at hst
      simp only at hst
      split at hst
      · rename_i hq
        cases hst
        obtain ⟨l1, l2, l3⟩ := late hx (by rw [hq]; simp) snd (if s.inflight.lookup x.id = some r then s.inflight.filter (fun y => y.1 ≠ x.id) else s.inflight)
        refine keep h (by simp) l1 rfl ?_ rfl (fun code => by rw [l3]; exact Nat.le_refl _) l2 (by simp only [counts]; decide)
        simp only
        split
        · exact Nat.le_trans (List.length_filter_le _ _) (Nat.le_add_right _ _)
        · exact Nat.le_add_right _ _
      · cases hst
  | ret r =>
    simp only [step] at hst
    cases hx : s.reqs[r]? with
    | none => rw [hx] at hst; cases hst
    | some x =>
      rw [hx] at hst
      simp only at hst
      split at hst
      · rename_i d hp hd
        cases hst
        have hne : (waitFor x.q d).err ≠ some errTimeout := by
          have := snd.other x (get_mem hx) d hd
          unfold waitFor
          split
          · split
            · exact this
            · simp [Res.fail, errTimeout]
          · exact this
        refine keep h (by simp) ⟨fun y hy a e hp => ?_, fun y hy d' hd' => ?_, snd.writer⟩ rfl (Nat.le_add_right _ _) rfl (fun code => ?_) ?_ rfl
        · rcases mem_set hy with rfl | hy
          · simp only [Phase.returned.injEq] at hp
            refine ⟨d.err, ?_⟩
            unfold waitFor at hp
            split at hp
            · split at hp
              · rw [hd, hp]
              · simp [Res.fail] at hp
            · rw [hd, hp]
          · exact snd.answers y hy a e hp
        · rcases mem_set hy with rfl | hy
          · exact snd.other x (get_mem hx) d' hd'
          · exact snd.other y hy d' hd'
        · have := countP_set (p := doneWith code) (y := { x with ph := .returned (waitFor x.q d) }) hx
          have h2 : doneWith code { x with ph := .returned (waitFor x.q d) } = doneWith code x := rfl
          rw [h2] at this
          simp only
          omega
        · have := countP_set (p := timedOut) (y := { x with ph := .returned (waitFor x.q d) }) hx
          have h1 : timedOut x = false := by simp [timedOut, hp]
          have h2 : timedOut { x with ph := .returned (waitFor x.q d) } = false := by
            simp only [timedOut, decide_eq_false_iff_not, Phase.returned.injEq]
            intro hh
            rw [hh] at hne
            exact hne rfl
          rw [h1, h2] at this
          simpa [counts] using this
      · cases hst

private theorem run_inv : ∀ (evs : List (Ev × Option Str)) (s s' : Sys) (cs cs' : List Count) (reads : List (Ev × Option Str)), (∀ e ∈ evs, Network e.1 ∧ Ends e.2) →
    Inv s cs reads → PipeCounters.run (s, cs) evs = some (s', cs') → Inv s' cs' (reads ++ evs)
  | [], s, s', cs, cs', reads, _, h, hr => by
    simp only [PipeCounters.run, Option.some.injEq, Prod.mk.injEq] at hr
    obtain ⟨rfl, rfl⟩ := hr
    simpa using h
  | (e, w) :: evs, s, s', cs, cs', reads, hn, h, hr => by
    simp only [PipeCounters.run] at hr
    cases hst : step s e with
    | none => rw [hst] at hr; cases hr
    | some t =>
      rw [hst] at hr
      obtain ⟨h1, h2⟩ := hn (e, w) (by simp)
      have := run_inv evs t s' _ cs' (reads ++ [(e, w)]) (fun e he => hn e (by simp [he])) (step_inv s t e w cs reads h1 h2 h hst) hr
      simpa using this

/-- C92: for a client whose queries share a connection, with any number of queries at the same time and whatever the network does: `query` is the number of messages it has tried to
write; the responses counted and the queries still in flight are no more than these; every message read is counted, either as a response, under its code, or as an unexpected answer; each caller that was given
an answer is counted among the responses of its code; and `querytimeout` is the number of callers that were told that their time is over. -/
theorem pipeline_counts (evs : List (Ev × Option Str)) (hn : ∀ e ∈ evs, Network e.1 ∧ Ends e.2) (s : Sys) (cs : List Count) (h : PipeCounters.run ({}, []) evs = some (s, cs)) :
    cs.count .query = s.written.length ∧ cs.countP isResponse + s.inflight.length ≤ s.written.length ∧
    cs.countP isResponse + cs.count (.error (str "unexpected_a")) = evs.countP readAny ∧
    (∀ code, s.reqs.countP (gotAnswer code) ≤ cs.count (.response code) ∧ cs.count (.response code) ≤ evs.countP (read code)) ∧
    cs.count (.error (str "querytimeout")) = s.reqs.countP timedOut := by
  have hi : Inv {} [] [] := ⟨⟨fun x hx => absurd hx (by simp), fun x hx => absurd hx (by simp), fun r e b h => by cases h⟩, rfl, by simp, fun _ => by simp [completing], fun _ => by simp, rfl, rfl⟩
  have h := run_inv evs {} s [] cs [] hn hi h
  rw [List.nil_append] at h
  refine ⟨h.query, h.flight, h.all, fun code => ⟨Nat.le_trans ?_ (Nat.le_trans (Nat.le_add_right _ _) (h.given code)), h.got code⟩, h.timeouts⟩
  apply List.countP_mono_left
  intro x hx hg
  unfold gotAnswer at hg
  split at hg
  · rename_i a e hp
    obtain ⟨e', hd⟩ := h.sound.answers x hx a e hp
    unfold doneWith
    rw [hd]
    exact hg
  · cases hg

/-! ### The longest queue -/

/-- At some time during these events, `n` queries were in flight. -/
def Flew (evs : List (Option Ev)) (n : Nat) : Prop :=
  ∃ (pre post : List (Option Ev)) (s : Sys), evs = pre ++ post ∧ Pipeline.run {} (pre.filterMap id) = some s ∧ s.inflight.length = n

private theorem snocRec {α : Type} {motive : List α → Prop} (nil : motive []) (append_singleton : ∀ l a, motive l → motive (l ++ [a])) (l : List α) : motive l := by
  rw [← List.reverse_reverse l]
  induction l.reverse with
  | nil => exact nil
  | cons a l ih => rw [List.reverse_cons]; exact append_singleton _ _ ih

private theorem run_snoc : ∀ (l : List Ev) (s : Sys) (e : Ev), Pipeline.run s (l ++ [e]) = (Pipeline.run s l).bind fun t => step t e
  | [], s, e => by simp only [List.nil_append, Pipeline.run, Option.bind_some]; cases step s e <;> rfl
  | x :: l, s, e => by
    simp only [List.cons_append, Pipeline.run]
    cases step s x with
    | none => rfl
    | some t => exact run_snoc l t e

private theorem queueRun_snoc : ∀ (l : List (Option Ev)) (x : Queue) (e : Option Ev), queueRun x (l ++ [e]) = (queueRun x l).bind fun t => queueStep t e
  | [], x, e => by simp only [List.nil_append, queueRun, Option.bind_some]; cases queueStep x e <;> rfl
  | a :: l, x, e => by
    simp only [List.cons_append, queueRun]
    cases queueStep x a with
    | none => rfl
    | some t => exact queueRun_snoc l t e

private theorem take_inflight {s s' : Sys} {r : Nat} (h : s.take r = some s') : s'.inflight = s.inflight := by
  unfold Sys.take at h
  split at h
  · cases h; rfl
  · split at h
    · split at h
      · cases h; rfl
      · cases h
    · cases h

private theorem mark_inflight (s : Sys) (r : Nat) (a : Option Msg) (e : Option Err) : (s.markDone r a e).inflight = s.inflight := by
  unfold Sys.markDone
  split
  · rfl
  · split <;> rfl

private theorem shrinks {s s' : Sys} {e : Ev} (hne : ∀ r id, e ≠ .writerTake r id) (h : step s e = some s') : s'.inflight.length ≤ s.inflight.length := by
  cases e with
  | writerTake r id => exact absurd rfl (hne r id)
  | startTake r =>
    simp only [step] at h
    split at h
    · cases ht : s.take r with
      | none => rw [ht] at h; cases h
      | some t => rw [ht] at h; cases h; simp [take_inflight ht]
    · cases h
  | writerFull r =>
    simp only [step] at h
    split at h
    · cases ht : s.take r with
      | none => rw [ht] at h; cases h
      | some t => rw [ht] at h; cases h; simp [take_inflight ht]
    · cases h
  | _ =>
    simp only [step] at h
    repeat' split at h
    all_goals first | cases h | skip
    all_goals simp only [mark_inflight, Sys.drain, List.length_nil, Nat.zero_le, Nat.le_refl]
    all_goals first | exact List.length_filter_le _ _ | (split <;> first | exact List.length_filter_le _ _ | exact Nat.le_refl _)

private theorem flew_mono {evs : List (Option Ev)} {n : Nat} (e : Option Ev) (h : Flew evs n) : Flew (evs ++ [e]) n := by
  obtain ⟨pre, post, s, h1, h2, h3⟩ := h
  exact ⟨pre, post ++ [e], s, by rw [h1, List.append_assoc], h2, h3⟩

private theorem flew_snoc {evs : List (Option Ev)} {n : Nat} {e : Option Ev} (h : Flew (evs ++ [e]) n) :
    Flew evs n ∨ ∃ s, Pipeline.run {} ((evs ++ [e]).filterMap id) = some s ∧ s.inflight.length = n := by
  obtain ⟨pre, post, s, h1, h2, h3⟩ := h
  rcases List.eq_nil_or_concat post with rfl | ⟨post', b, rfl⟩
  · rw [List.append_nil] at h1
    exact Or.inr ⟨s, by rw [h1]; exact h2, h3⟩
  · rw [List.concat_eq_append, ← List.append_assoc] at h1
    have := (List.append_inj' h1 rfl).1
    exact Or.inl ⟨pre, post', s, this, h2, h3⟩

private theorem queue_inv (evs : List (Option Ev)) : ∀ (x : Queue), queueRun {} evs = some x →
    Pipeline.run {} (evs.filterMap id) = some x.s ∧ (∀ n, Flew evs n → n ≤ x.peak) ∧ Flew evs x.peak ∧ x.gauge ≤ x.peak ∧ x.s.inflight.length ≤ x.peak := by
  induction evs using snocRec with
  | nil =>
    intro x h
    simp only [queueRun, Option.some.injEq] at h
    subst h
    refine ⟨rfl, fun n hn => ?_, ⟨[], [], {}, rfl, rfl, rfl⟩, Nat.le_refl _, Nat.le_refl _⟩
    obtain ⟨pre, post, s, h1, h2, h3⟩ := hn
    obtain ⟨rfl, rfl⟩ := List.append_eq_nil_iff.mp h1.symm
    simp only [List.filterMap_nil, Pipeline.run, Option.some.injEq] at h2
    subst h2
    simp at h3
    omega
  | append_singleton evs e ih =>
    intro x h
    rw [queueRun_snoc] at h
    cases hy : queueRun {} evs with
    | none => rw [hy] at h; cases h
    | some y =>
      rw [hy] at h
      simp only [Option.bind_some] at h
      obtain ⟨i1, i2, i3, i4, i5⟩ := ih y hy
      cases e with
      | none =>
        simp only [queueStep, Option.some.injEq] at h
        subst h
        have hr : Pipeline.run {} ((evs ++ [none]).filterMap id) = some y.s := by rw [List.filterMap_append]; simpa using i1
        refine ⟨hr, fun n hn => ?_, flew_mono none i3, ?_, i5⟩
        · rcases flew_snoc hn with hn | ⟨s, hs, hn⟩
          · exact i2 n hn
          · rw [hr] at hs; cases hs; rw [← hn]; exact i5
        · simp only; split <;> omega
      | some e =>
        simp only [queueStep] at h
        cases hst : step y.s e with
        | none => rw [hst] at h; cases h
        | some t =>
          rw [hst] at h
          simp only [Option.some.injEq] at h
          have hr : Pipeline.run {} ((evs ++ [some e]).filterMap id) = some t := by
            rw [List.filterMap_append]
            simp only [List.filterMap_cons, List.filterMap_nil, id_eq]
            rw [run_snoc, i1, Option.bind_some, hst]
          have key : x.s = t ∧ x.gauge = y.gauge ∧ y.peak ≤ x.peak ∧ t.inflight.length ≤ x.peak ∧ (x.peak = y.peak ∨ x.peak = t.inflight.length) := by
            subst h
            by_cases hw : ∃ r id, e = .writerTake r id
            · obtain ⟨r, id, rfl⟩ := hw
              simp only
              split
              · exact ⟨trivial, trivial, by omega, Nat.le_refl _, Or.inr rfl⟩
              · exact ⟨trivial, trivial, Nat.le_refl _, by omega, Or.inl rfl⟩
            · have hne : ∀ r id, e ≠ .writerTake r id := fun r id h => hw ⟨r, id, h⟩
              have := shrinks hne hst
              cases e with
              | writerTake r id => exact absurd rfl (hne r id)
              | _ => exact ⟨rfl, rfl, Nat.le_refl _, by simp only; omega, Or.inl rfl⟩
          obtain ⟨k1, k2, k3, k4, k5⟩ := key
          refine ⟨by rw [hr, k1], fun n hn => ?_, ?_, by omega, by rw [k1]; exact k4⟩
          · rcases flew_snoc hn with hn | ⟨s, hs, hn⟩
            · have := i2 n hn; omega
            · rw [hr] at hs; cases hs; rw [← hn]; exact k4
          · rcases k5 with k5 | k5
            · rw [k5]; exact flew_mono _ i3
            · exact ⟨evs ++ [some e], [], t, by simp, hr, k5.symm⟩

/-- C92: whenever the reader has set it, `maxqueue` is the largest number of queries that were in flight at the same time so far. -/
theorem maxqueue (evs : List (Option Ev)) (x : Queue) (h : queueRun {} (evs ++ [none]) = some x) : Flew evs x.gauge ∧ ∀ n, Flew evs n → n ≤ x.gauge := by
  rw [queueRun_snoc] at h
  cases hy : queueRun {} evs with
  | none => rw [hy] at h; cases h
  | some y =>
    rw [hy] at h
    simp only [Option.bind_some, queueStep, Option.some.injEq] at h
    obtain ⟨i1, i2, i3, i4, i5⟩ := queue_inv evs y hy
    have hg : x.gauge = y.peak := by subst h; simp only; split <;> omega
    rw [hg]
    exact ⟨i3, i2⟩

section Examples

private def q1 : Msg := { id := 7, question := [⟨str "a.", 1, 1⟩] }
private def a1 (id : Nat) (n : Str) : Msg := { id := id, rcode := 3, response := true, question := [⟨n, 1, 1⟩] }
private def ev (l : List Ev) : List (Ev × Option Str) := l.map fun e => (e, none)

/-- A connection that cannot be opened; then one on which an answer comes, an answer to another question (which the caller does not get, though it is a response), an
answer that nobody waits for, and a query that times out. -/
example : ∃ s, PipeCounters.run ({}, []) (ev [.call q1, .startTake 0, .dialFail "refused", .ret 0, .call q1, .startTake 1, .dialOk, .writerTake 1 5, .writeOk, .call q1, .writerTake 2 6, .writeOk,
      .call q1, .writerTake 3 8, .writeOk, .recv (a1 5 (str "a.")), .readerDone, .recv (a1 6 (str "b.")), .readerDone, .recv (a1 5 (str "a.")), .ret 1, .ret 2, .timeout 3] ++ [(.readerStop, some (str "server_eof"))]) =
    some (s, [.error (str "open"), .query, .query, .query, .response 3, .response 3, .error (str "unexpected_a"), .error (str "querytimeout"), .error (str "server_eof")]) ∧
    s.reqs.countP (gotAnswer 3) = 1 ∧ s.reqs.countP timedOut = 1 ∧ s.written.length = 3 := by
  refine ⟨_, rfl, ?_, ?_, ?_⟩ <;> decide +kernel

/-- Two queries at the same time, then one -/
example : ∃ x, queueRun {} ([.call q1, .call q1, .startTake 0, .dialOk, .writerTake 0 5, .writeOk, .writerTake 1 6, .writeOk, .recv (a1 5 (str "a.")), .readerDone].map some ++ [none]) = some x ∧
    x.gauge = 2 ∧ x.s.inflight.length = 1 := by
  refine ⟨_, rfl, ?_, ?_⟩ <;> decide +kernel

end Examples

end Verif.Props.PipeCounters
