/-
Histories of the pipelined connection (C24).
-/
import Verif.Lemmas.Pipeline
import Verif.Spec.Pipeline
set_option linter.unusedVariables false
set_option linter.unusedSimpArgs false
namespace Verif.PipelineL
open Verif Verif.Pipeline Verif.Spec.Pipeline

structure Hist (evs : List Ev) (s : Sys) (pl : Nat → Place) : Prop where
  flight : ∀ r id, pl r = .flight id → Outstanding evs r id
  reader : ∀ r a, pl r = .reader a → Answered evs r a
  done : ∀ (r : Nat) (x : Req) (d : Res), s.reqs[r]? = some x → x.done = some d →
    (∃ e, d = .fail e) ∨ ∃ a : Msg, Answered evs r a ∧ d = .ok { a with id := x.q.id }
  ret : ∀ (r : Nat) (x : Req) (res : Res), s.reqs[r]? = some x → x.ph = .returned res →
    res = .fail errTimeout ∨ ∃ d, x.done = some d ∧ res = waitFor x.q d
  calls : ∀ r : Nat, (calls evs)[r]? = s.reqs[r]?.map Req.q
  nohand : ∀ r, pl r ≠ .hand
  written : ∀ m, m ∈ s.written → ∃ (r id : Nat) (q : Msg), .writerTake r id ∈ evs ∧ (Spec.Pipeline.calls evs)[r]? = some q ∧ m = { q with id := id }

theorem hist_init : Hist [] {} (fun _ => .absent) := by
  constructor <;> simp [calls]

theorem out_mono (evs : List Ev) (e : Ev) (r id : Nat) (h : Outstanding evs r id) (h1 : ∀ b, e = .recv b → b.id ≠ id)
    (h0 : ∀ r', e ≠ .writerTake r' id) (h2 : e ≠ .drain) : Outstanding (evs ++ [e]) r id := by
  obtain ⟨pre, post, rfl, h3, h5, h4⟩ := h
  refine ⟨pre, post ++ [e], by simp, ?_, ?_, ?_⟩
  · intro b hb
    rcases List.mem_append.mp hb with hb | hb
    · exact h3 b hb
    · exact h1 b (List.mem_singleton.mp hb).symm
  · intro r' hr
    rcases List.mem_append.mp hr with hb | hb
    · exact h5 r' hb
    · exact h0 r' (List.mem_singleton.mp hb).symm
  · simp only [List.mem_append, List.mem_singleton]
    rintro (h | h)
    · exact h4 h
    · exact h2 h.symm

theorem ans_mono (evs : List Ev) (e : Ev) (r : Nat) (a : Msg) (h : Answered evs r a) : Answered (evs ++ [e]) r a := by
  obtain ⟨pre, post, rfl, h3⟩ := h
  exact ⟨pre, post ++ [e], by simp, h3⟩

theorem out_new (evs : List Ev) (r id : Nat) : Outstanding (evs ++ [.writerTake r id]) r id := ⟨evs, [], by simp, by simp, by simp, by simp⟩

theorem ans_new (evs : List Ev) (r : Nat) (a : Msg) (h : Outstanding evs r a.id) : Answered (evs ++ [.recv a]) r a := ⟨evs, [], by simp, h⟩

theorem calls_snoc (evs : List Ev) (e : Ev) (h : ∀ q, e ≠ .call q) : calls (evs ++ [e]) = calls evs := by
  unfold calls
  rw [List.filterMap_append]
  cases e <;> simp at h ⊢

theorem calls_call (evs : List Ev) (q : Msg) : calls (evs ++ [.call q]) = calls evs ++ [q] := by
  unfold calls
  rw [List.filterMap_append]
  simp


/-- how an event changes a request -/
def ReqStep (pl : Nat → Place) (r : Nat) (x x' : Req) : Prop :=
  x'.q = x.q ∧
  (x'.done = x.done ∨ (x.done = none ∧ ((∃ e, x'.done = some (.fail e)) ∨ ∃ a : Msg, pl r = .reader a ∧ x'.done = some (.ok { a with id := x.q.id })))) ∧
  (x'.ph = x.ph ∨ x'.ph = .waiting ∨ x'.ph = .returned (.fail errTimeout) ∨ ∃ d, x'.done = some d ∧ x'.ph = .returned (waitFor x.q d))

theorem reqStep_refl (pl : Nat → Place) (r : Nat) (x : Req) : ReqStep pl r x x := ⟨rfl, .inl rfl, .inl rfl⟩

theorem set_step (s : Sys) (pl : Nat → Place) (r : Nat) (x y : Req) (hx : s.reqs[r]? = some x) (k : Nat) (x' : Req)
    (hk : (s.reqs.set r y)[k]? = some x') (h : ReqStep pl r x y) : ∃ z, s.reqs[k]? = some z ∧ ReqStep pl k z x' := by
  rw [List.getElem?_set] at hk
  split at hk
  · rename_i e
    subst e
    split at hk
    · simp only [Option.some.injEq] at hk; subst hk; exact ⟨x, hx, h⟩
    · cases hk
  · exact ⟨x', hk, reqStep_refl _ _ _⟩

theorem mark_step (s : Sys) (pl : Nat → Place) (r : Nat) (a : Option Msg) (e : Option Err)
    (hae : (a = none ∧ e ≠ none) ∨ (e = none ∧ ∃ m, a = some m ∧ pl r = .reader m)) (k : Nat) (x' : Req)
    (hk : (s.markDone r a e).reqs[k]? = some x') : ∃ z, s.reqs[k]? = some z ∧ ReqStep pl k z x' := by
  unfold Sys.markDone at hk
  cases hx : s.reqs[r]? with
  | none => rw [hx] at hk; exact ⟨x', hk, reqStep_refl _ _ _⟩
  | some x =>
    rw [hx] at hk
    simp only at hk
    cases hd : x.done with
    | some d => rw [hd] at hk; exact ⟨x', hk, reqStep_refl _ _ _⟩
    | none =>
      rw [hd] at hk
      refine set_step s pl r x _ hx k x' hk ⟨rfl, .inr ⟨hd, ?_⟩, .inl rfl⟩
      rcases hae with ⟨rfl, he⟩ | ⟨rfl, m, rfl, hm⟩
      · cases e with
        | none => exact absurd rfl he
        | some e => exact .inl ⟨e, rfl⟩
      · exact .inr ⟨m, hm, rfl⟩

theorem take_step (s s' : Sys) (pl : Nat → Place) (r : Nat) (ht : s.take r = some s') (k : Nat) (x' : Req)
    (hk : s'.reqs[k]? = some x') : ∃ z, s.reqs[k]? = some z ∧ ReqStep pl k z x' := by
  unfold Sys.take at ht
  split at ht
  · simp only [Option.some.injEq] at ht; subst ht; exact ⟨x', hk, reqStep_refl _ _ _⟩
  · cases hx : s.reqs[r]? with
    | none => simp [hx] at ht
    | some x =>
      simp only [hx] at ht
      split at ht
      · simp only [Option.some.injEq] at ht
        subst ht
        exact set_step s pl r x _ hx k x' hk ⟨rfl, .inl rfl, .inr (.inl rfl)⟩
      · cases ht

theorem step_req (s s' : Sys) (pl : Nat → Place) (e : Ev) (h : Inv s pl) (hs : step s e = some s') (hnc : ∀ q, e ≠ .call q) (k : Nat) (x' : Req)
    (hk : s'.reqs[k]? = some x') : ∃ z, s.reqs[k]? = some z ∧ ReqStep pl k z x' := by
  cases e with
  | call q => exact absurd rfl (hnc q)
  | queueTimeout r =>
    simp only [step] at hs
    split at hs
    · rename_i x hx
      split at hs
      · simp only [Option.some.injEq] at hs
        subst hs
        exact set_step s pl r x _ hx k x' hk ⟨rfl, .inl rfl, .inr (.inr (.inl rfl))⟩
      · cases hs
    · cases hs
  | startTake r =>
    simp only [step] at hs
    split at hs
    · cases ht : s.take r with
      | none => rw [ht] at hs; cases hs
      | some t =>
        rw [ht] at hs
        simp only [Option.map_some, Option.some.injEq] at hs
        subst hs
        exact take_step s t pl r ht k x' hk
    · cases hs
  | dialFail e =>
    simp only [step] at hs
    split at hs
    · simp only [Option.some.injEq] at hs
      subst hs
      exact mark_step s pl _ _ _ (.inl ⟨rfl, by simp⟩) k x' hk
    · cases hs
  | dialOk =>
    simp only [step] at hs
    split at hs
    · simp only [Option.some.injEq] at hs
      subst hs
      exact ⟨x', hk, reqStep_refl _ _ _⟩
    · cases hs
  | writerTake r id =>
    simp only [step] at hs
    split at hs
    · cases ht : s.take r with
      | none => rw [ht] at hs; cases hs
      | some t =>
        rw [ht] at hs
        simp only at hs
        cases hx : t.reqs[r]? with
        | none => rw [hx] at hs; cases hs
        | some x =>
          rw [hx] at hs
          simp only [Option.some.injEq] at hs
          subst hs
          obtain ⟨z, hz, hzs⟩ := set_step t pl r x { x with id := id } hx k x' hk ⟨rfl, .inl rfl, .inl rfl⟩
          obtain ⟨y, hy, hys⟩ := take_step s t pl r ht k z hz
          refine ⟨y, hy, ?_⟩
          have hx2 : x'.q = z.q ∧ x'.done = z.done ∧ x'.ph = z.ph := by
            simp only [List.getElem?_set] at hk
            grind
          unfold ReqStep at hys ⊢
          rw [hx2.1, hx2.2.1, hx2.2.2]
          exact hys
    · cases hs
  | writerFull r =>
    simp only [step] at hs
    split at hs
    · cases ht : s.take r with
      | none => rw [ht] at hs; cases hs
      | some t =>
        rw [ht] at hs
        simp only [Option.map_some, Option.some.injEq] at hs
        subst hs
        exact take_step s t pl r ht k x' hk
    · cases hs
  | writeOk =>
    simp only [step] at hs
    split at hs
    · simp only [Option.some.injEq] at hs
      subst hs
      exact ⟨x', hk, reqStep_refl _ _ _⟩
    · cases hs
  | writeFail e =>
    simp only [step] at hs
    split at hs
    · split at hs
      · simp only [Option.some.injEq] at hs
        subst hs
        exact ⟨x', hk, reqStep_refl _ _ _⟩
      · simp only [Option.some.injEq] at hs
        subst hs
        exact ⟨x', hk, reqStep_refl _ _ _⟩
    · cases hs
  | writerFailed =>
    simp only [step] at hs
    split at hs
    · simp only [Option.some.injEq] at hs
      subst hs
      exact mark_step s pl _ _ _ (.inl ⟨rfl, by simp⟩) k x' hk
    · cases hs
  | writerStop =>
    simp only [step] at hs
    split at hs
    · simp only [Option.some.injEq] at hs
      subst hs
      exact ⟨x', hk, reqStep_refl _ _ _⟩
    · cases hs
  | recv a =>
    simp only [step] at hs
    split at hs
    · split at hs
      · simp only [Option.some.injEq] at hs
        subst hs
        exact ⟨x', hk, reqStep_refl _ _ _⟩
      · simp only [Option.some.injEq] at hs
        subst hs
        exact ⟨x', hk, reqStep_refl _ _ _⟩
    · cases hs
  | readerDone =>
    simp only [step] at hs
    split at hs
    · rename_i r a hr
      simp only [Option.some.injEq] at hs
      subst hs
      exact mark_step s pl _ _ _ (.inr ⟨rfl, a, rfl, (h.reader r a).mpr hr⟩) k x' hk
    · cases hs
  | readerStop =>
    simp only [step] at hs
    split at hs
    · simp only [Option.some.injEq] at hs
      subst hs
      exact ⟨x', hk, reqStep_refl _ _ _⟩
    · cases hs
  | drain =>
    simp only [step] at hs
    split at hs
    · simp only [Option.some.injEq] at hs
      subst hs
      simp only [Sys.drain] at hk
      have gen : ∀ (l : List (Nat × Nat)) (t : Sys),
          (∀ (k : Nat) (x' : Req), t.reqs[k]? = some x' → ∃ z, s.reqs[k]? = some z ∧ (x' = z ∨ (z.done = none ∧ x' = { z with done := some (.fail errClosed) }))) →
          ∀ (k : Nat) (x' : Req), (l.foldl (fun t x => t.markDone x.2 none (some errClosed)) t).reqs[k]? = some x' →
            ∃ z, s.reqs[k]? = some z ∧ (x' = z ∨ (z.done = none ∧ x' = { z with done := some (.fail errClosed) })) := by
        intro l
        induction l with
        | nil => intro t ht; exact ht
        | cons y l ih =>
          intro t ht
          simp only [List.foldl_cons]
          apply ih
          intro k x' hk
          unfold Sys.markDone at hk
          cases hx : t.reqs[y.2]? with
          | none => rw [hx] at hk; exact ht k x' hk
          | some x =>
            rw [hx] at hk
            simp only at hk
            cases hd : x.done with
            | some d => rw [hd] at hk; exact ht k x' hk
            | none =>
              rw [hd] at hk
              simp only [List.getElem?_set] at hk
              split at hk
              · rename_i e
                subst e
                obtain ⟨z, hz, hzz⟩ := ht y.2 x hx
                split at hk
                · simp only [Option.some.injEq] at hk
                  refine ⟨z, hz, .inr ?_⟩
                  rcases hzz with rfl | ⟨_, h2⟩
                  · exact ⟨hd, hk.symm⟩
                  · rw [h2] at hd; cases hd
                · cases hk
              · exact ht k x' hk
      obtain ⟨z, hz, hzz⟩ := gen s.inflight s (fun k x' hx => ⟨x', hx, .inl rfl⟩) k x' hk
      refine ⟨z, hz, ?_⟩
      rcases hzz with rfl | ⟨h1, h2⟩
      · exact reqStep_refl _ _ _
      · subst h2; exact ⟨rfl, .inr ⟨h1, .inl ⟨_, rfl⟩⟩, .inl rfl⟩
    · cases hs
  | timeout r =>
    simp only [step] at hs
    cases hx : s.reqs[r]? with
    | none => rw [hx] at hs; cases hs
    | some x =>
      rw [hx] at hs
      simp only at hs
      split at hs
      · simp only [Option.some.injEq] at hs
        subst hs
        exact set_step s pl r x _ hx k x' hk ⟨rfl, .inl rfl, .inr (.inr (.inl rfl))⟩
      · cases hs
  | ret r =>
    simp only [step] at hs
    split at hs
    · rename_i x hx
      split at hs
      · rename_i d hp hd
        simp only [Option.some.injEq] at hs
        subst hs
        exact set_step s pl r x _ hx k x' hk ⟨rfl, .inl rfl, .inr (.inr (.inr ⟨_, by assumption, rfl⟩))⟩
      · cases hs
    · cases hs

theorem next_flight (s s' : Sys) (pl : Nat → Place) (e : Ev) (h : Inv s pl) (hs : step s e = some s') (r id : Nat) (hf : nextPl s pl e r = .flight id) :
    (pl r = .flight id ∧ (∀ b, e = .recv b → b.id ≠ id) ∧ (∀ r', e ≠ .writerTake r' id) ∧ e ≠ .drain) ∨ e = .writerTake r id := by
  obtain ⟨h1, h2, h3, h4, h5, h6, h7, h8, h9, h10, h11, h12, h13, h14, h15, h16⟩ := h
  cases e with
  | recv a =>
    left
    simp only [nextPl] at hf
    cases hl : s.inflight.lookup a.id with
    | none =>
      rw [hl] at hf
      refine ⟨hf, ?_, by simp, by simp⟩
      intro b hb
      simp only [Ev.recv.injEq] at hb
      subst hb
      intro he
      exact lookup_none _ _ hl r (by rw [he]; exact (h7 _ _).mp hf)
    | some r' =>
      rw [hl] at hf
      have hm := lookup_mem _ _ _ hl
      simp only [upd] at hf
      split at hf
      · cases hf
      · rename_i hne
        refine ⟨hf, ?_, by simp, by simp⟩
        intro b hb
        simp only [Ev.recv.injEq] at hb
        subst hb
        intro he
        rw [h7, ← he] at hf
        exact hne (h8 _ _ _ hf hm)
  | writerTake r' id' =>
    simp only [nextPl, upd] at hf
    split at hf
    · rename_i e; simp only [Place.flight.injEq] at hf; right; rw [e, hf]
    · left
      refine ⟨hf, by simp, ?_, by simp⟩
      intro r'' he
      simp only [Ev.writerTake.injEq] at he
      have hm := (h7 _ _).mp hf
      simp only [step] at hs
      split at hs
      · rename_i hc
        exact lookup_none _ _ hc.2.2.2 r (by rw [he.2]; exact hm)
      · cases hs
  | drain =>
    simp only [nextPl] at hf
    cases hp : pl r <;> simp [hp] at hf
  | writeFail e =>
    left
    simp only [nextPl] at hf
    refine ⟨?_, by simp, by simp, by simp⟩
    cases hw : s.writer with
    | writing r' id' =>
      rw [hw] at hf
      simp only at hf
      cases hl : s.inflight.lookup id' with
      | none => rw [hl] at hf; exact hf
      | some v => rw [hl] at hf; simp only [upd] at hf; grind
    | _ => rw [hw] at hf; exact hf
  | timeout r' =>
    left
    simp only [nextPl] at hf
    refine ⟨?_, by simp, by simp, by simp⟩
    cases hx : s.reqs[r']? with
    | none => rw [hx] at hf; exact hf
    | some x =>
      rw [hx] at hf
      simp only at hf
      by_cases hl : s.inflight.lookup x.id = some r'
      · rw [if_pos hl] at hf; simp only [upd] at hf; grind
      · rw [if_neg hl] at hf; exact hf
  | _ =>
    left
    simp only [nextPl] at hf
    refine ⟨?_, by simp, by simp, by simp⟩
    first
    | exact hf
    | (simp only [upd] at hf; split at hf
       · cases hf
       · exact hf)
    | (cases hw : s.manager <;> rw [hw] at hf <;> simp only [upd] at hf <;> grind)
    | (cases hw : s.writer <;> rw [hw] at hf <;> simp only [upd] at hf <;> grind)
    | (cases hw : s.reader <;> rw [hw] at hf <;> simp only [upd] at hf <;> grind)

theorem next_reader (s s' : Sys) (pl : Nat → Place) (e : Ev) (h : Inv s pl) (hs : step s e = some s') (r : Nat) (a : Msg)
    (hf : nextPl s pl e r = .reader a) : pl r = .reader a ∨ (e = .recv a ∧ pl r = .flight a.id) := by
  obtain ⟨h1, h2, h3, h4, h5, h6, h7, h8, h9, h10, h11, h12, h13, h14, h15, h16⟩ := h
  cases e with
  | recv b =>
    simp only [nextPl] at hf
    cases hl : s.inflight.lookup b.id with
    | none => rw [hl] at hf; exact .inl hf
    | some r' =>
      rw [hl] at hf
      have hm := lookup_mem _ _ _ hl
      simp only [upd] at hf
      split at hf
      · rename_i e
        simp only [Place.reader.injEq] at hf
        subst hf; subst e
        exact .inr ⟨rfl, (h7 _ _).mpr hm⟩
      · exact .inl hf
  | drain =>
    simp only [nextPl] at hf
    cases hp : pl r <;> simp [hp] at hf
    exact .inl (by rw [hf])
  | writeFail e =>
    left
    simp only [nextPl] at hf
    cases hw : s.writer with
    | writing r' id' =>
      rw [hw] at hf
      simp only at hf
      cases hl : s.inflight.lookup id' with
      | none => rw [hl] at hf; exact hf
      | some v => rw [hl] at hf; simp only [upd] at hf; grind
    | _ => rw [hw] at hf; exact hf
  | timeout r' =>
    left
    simp only [nextPl] at hf
    cases hx : s.reqs[r']? with
    | none => rw [hx] at hf; exact hf
    | some x =>
      rw [hx] at hf
      simp only at hf
      by_cases hl : s.inflight.lookup x.id = some r'
      · rw [if_pos hl] at hf; simp only [upd] at hf; grind
      · rw [if_neg hl] at hf; exact hf
  | _ =>
    left
    simp only [nextPl] at hf
    first
    | exact hf
    | (simp only [upd] at hf; split at hf
       · cases hf
       · exact hf)
    | (cases hw : s.manager <;> rw [hw] at hf <;> simp only [upd] at hf <;> grind)
    | (cases hw : s.writer <;> rw [hw] at hf <;> simp only [upd] at hf <;> grind)
    | (cases hw : s.reader <;> rw [hw] at hf <;> simp only [upd] at hf <;> grind)

theorem next_hand (s s' : Sys) (pl : Nat → Place) (e : Ev) (h : Inv s pl) (hs : step s e = some s') (r : Nat)
    (hf : nextPl s pl e r = .hand) : pl r = .hand := by
  obtain ⟨h1, h2, h3, h4, h5, h6, h7, h8, h9, h10, h11, h12, h13, h14, h15, h16⟩ := h
  cases e with
  | recv b =>
    simp only [nextPl] at hf
    cases hl : s.inflight.lookup b.id with
    | none => rw [hl] at hf; exact hf
    | some r' =>
      rw [hl] at hf
      have hm := lookup_mem _ _ _ hl
      simp only [upd] at hf
      split at hf
      · cases hf
      · exact hf
  | drain =>
    simp only [nextPl] at hf
    cases hp : pl r <;> simp [hp] at hf
    rfl
  | writeFail e =>
    simp only [nextPl] at hf
    cases hw : s.writer with
    | writing r' id' =>
      rw [hw] at hf
      simp only at hf
      cases hl : s.inflight.lookup id' with
      | none => rw [hl] at hf; exact hf
      | some v => rw [hl] at hf; simp only [upd] at hf; grind
    | _ => rw [hw] at hf; exact hf
  | timeout r' =>
    simp only [nextPl] at hf
    cases hx : s.reqs[r']? with
    | none => rw [hx] at hf; exact hf
    | some x =>
      rw [hx] at hf
      simp only at hf
      by_cases hl : s.inflight.lookup x.id = some r'
      · rw [if_pos hl] at hf; simp only [upd] at hf; grind
      · rw [if_neg hl] at hf; exact hf
  | _ =>
    simp only [nextPl] at hf
    first
    | exact hf
    | (simp only [upd] at hf; split at hf
       · cases hf
       · exact hf)
    | (cases hw : s.manager <;> rw [hw] at hf <;> simp only [upd] at hf <;> grind)
    | (cases hw : s.writer <;> rw [hw] at hf <;> simp only [upd] at hf <;> grind)
    | (cases hw : s.reader <;> rw [hw] at hf <;> simp only [upd] at hf <;> grind)

theorem step_fwd (s s' : Sys) (e : Ev) (hs : step s e = some s') : s.reqs.length ≤ s'.reqs.length := by
  have hm : ∀ (s : Sys) r a e, (s.markDone r a e).reqs.length = s.reqs.length := by
    intro s r a e
    unfold Sys.markDone
    cases s.reqs[r]? with
    | none => rfl
    | some x => cases h : x.done <;> simp [h]
  have ht : ∀ (s t : Sys) r, s.take r = some t → t.reqs.length = s.reqs.length := by
    intro s t r h
    unfold Sys.take at h
    split at h
    · simp only [Option.some.injEq] at h; subst h; rfl
    · split at h
      · split at h
        · simp only [Option.some.injEq] at h; subst h; simp
        · cases h
      · cases h
  have hfold : ∀ (l : List (Nat × Nat)) (s : Sys), (l.foldl (fun t x => t.markDone x.2 none (some errClosed)) s).reqs.length = s.reqs.length := by
    intro l
    induction l with
    | nil => intro s; rfl
    | cons x l ih => intro s; simp only [List.foldl_cons, ih, hm]
  cases e <;> simp only [step, Sys.drain] at hs <;> grind [Option.map_eq_some_iff]

theorem step_written (s s' : Sys) (e : Ev) (hs : step s e = some s') :
    s'.written = s.written ∨ ∃ (r id : Nat) (x : Req), e = .writerTake r id ∧ s'.reqs[r]? = some x ∧ s'.written = s.written ++ [{ x.q with id := id }] := by
  have hm : ∀ (s : Sys) r a e, (s.markDone r a e).written = s.written := by
    intro s r a e
    unfold Sys.markDone
    cases s.reqs[r]? with
    | none => rfl
    | some x => cases h : x.done <;> simp [h]
  have ht : ∀ (s t : Sys) r, s.take r = some t → t.written = s.written := by
    intro s t r h
    unfold Sys.take at h
    split at h
    · simp only [Option.some.injEq] at h; subst h; rfl
    · split at h
      · split at h
        · simp only [Option.some.injEq] at h; subst h; simp
        · cases h
      · cases h
  have hfold : ∀ (l : List (Nat × Nat)) (s : Sys), (l.foldl (fun t x => t.markDone x.2 none (some errClosed)) s).written = s.written := by
    intro l
    induction l with
    | nil => intro s; rfl
    | cons x l ih => intro s; simp only [List.foldl_cons, ih, hm]
  cases e with
  | writerTake r id =>
    simp only [step] at hs
    split at hs
    · cases hk : s.take r with
      | none => rw [hk] at hs; cases hs
      | some t =>
        rw [hk] at hs
        simp only at hs
        cases hx : t.reqs[r]? with
        | none => rw [hx] at hs; cases hs
        | some x =>
          rw [hx] at hs
          simp only [Option.some.injEq] at hs
          subst hs
          refine .inr ⟨r, id, { x with id := id }, rfl, ?_, ?_⟩
          · simp only
            rw [List.getElem?_set_self ((List.getElem?_eq_some_iff.mp hx).1)]
          · simp [ht s t r hk]
    · cases hs
  | _ => left; simp only [step, Sys.drain] at hs; grind [Option.map_eq_some_iff]

theorem hist_step (evs : List Ev) (s s' : Sys) (pl : Nat → Place) (e : Ev) (h : Inv s pl) (hh : Hist evs s pl) (hs : step s e = some s') :
    Hist (evs ++ [e]) s' (nextPl s pl e) := by
  obtain ⟨g1, g2, g3, g4, g5, g7, g6⟩ := hh
  by_cases hcall : ∃ q, e = .call q
  · obtain ⟨q, rfl⟩ := hcall
    simp only [step, Option.some.injEq] at hs
    subst hs
    have hlen : ∀ r : Nat, (calls evs)[r]? = none ↔ s.reqs[r]? = none := by intro r; rw [g5]; simp
    have hg : ∀ (r : Nat) (x : Req), (s.reqs ++ [{ q := q }])[r]? = some x → s.reqs[r]? = some x ∨ x = { q := q } := by
      intro r x hx
      grind
    have hcl : (calls evs).length = s.reqs.length := by
      apply Nat.le_antisymm
      · have := (hlen s.reqs.length).mpr (by simp); simpa using this
      · have := (hlen (calls evs).length).mp (by simp); simpa using this
    constructor
    · intro r id hp
      simp only [nextPl, upd] at hp
      split at hp
      · cases hp
      · exact out_mono _ _ _ _ (g1 r id hp) (by simp) (by simp) (by simp)
    · intro r a hp
      simp only [nextPl, upd] at hp
      split at hp
      · cases hp
      · exact ans_mono _ _ _ _ (g2 r a hp)
    · intro r x d hx hd
      rcases hg r x hx with hx | rfl
      · rcases g3 r x d hx hd with h | ⟨a, h, h'⟩
        · exact .inl h
        · exact .inr ⟨a, ans_mono _ _ _ _ h, h'⟩
      · cases hd
    · intro r x res hx hp
      rcases hg r x hx with hx | rfl
      · exact g4 r x res hx hp
      · cases hp
    · intro r
      rw [calls_call]
      rcases Nat.lt_trichotomy r s.reqs.length with h | h | h
      · rw [List.getElem?_append_left (by omega), List.getElem?_append_left h]; exact g5 r
      · subst h
        rw [List.getElem?_append_right (by omega), List.getElem?_append_right (by omega)]
        simp [hcl]
      · rw [List.getElem?_eq_none (by simp; omega), List.getElem?_eq_none (by simp; omega)]; rfl
    · intro r hp
      simp only [nextPl, upd] at hp
      split at hp
      · cases hp
      · exact g7 r hp
    · intro m hm
      obtain ⟨r, id, q', h1, h2, h3⟩ := g6 m hm
      refine ⟨r, id, q', by simp [h1], ?_, h3⟩
      rw [calls_call, List.getElem?_append_left ((List.getElem?_eq_some_iff.mp h2).1)]
      exact h2
  · have hnc : ∀ q, e ≠ .call q := fun q hq => hcall ⟨q, hq⟩
    have hreq := step_req s s' pl e h hs hnc
    have hfwd := step_fwd s s' e hs
    constructor
    · intro r id hp
      rcases next_flight s s' pl e h hs r id hp with ⟨h1, h2, h3, h4⟩ | rfl
      · exact out_mono _ _ _ _ (g1 r id h1) h2 h3 h4
      · exact out_new _ _ _
    · intro r a hp
      rcases next_reader s s' pl e h hs r a hp with h1 | ⟨rfl, h1⟩
      · exact ans_mono _ _ _ _ (g2 r a h1)
      · exact ans_new _ _ _ (g1 r _ h1)
    · intro r x d hx hd
      obtain ⟨z, hz, hq, hdone, hph⟩ := hreq r x hx
      rcases hdone with h1 | ⟨h1, ⟨e', h2⟩ | ⟨a, h2, h3⟩⟩
      · rw [h1] at hd
        rcases g3 r z d hz hd with h | ⟨a, h, h'⟩
        · exact .inl h
        · exact .inr ⟨a, ans_mono _ _ _ _ h, by rw [hq]; exact h'⟩
      · rw [h2] at hd
        simp only [Option.some.injEq] at hd
        exact .inl ⟨e', hd.symm⟩
      · rw [h3] at hd
        simp only [Option.some.injEq] at hd
        exact .inr ⟨a, ans_mono _ _ _ _ (g2 r a h2), by rw [hq]; exact hd.symm⟩
    · intro r x res hx hp
      obtain ⟨z, hz, hq, hdone, hph⟩ := hreq r x hx
      rcases hph with h1 | h1 | h1 | ⟨d, h1, h2⟩
      · rw [h1] at hp
        rcases g4 r z res hz hp with h | ⟨d, h, h'⟩
        · exact .inl h
        · refine .inr ⟨d, ?_, by rw [hq]; exact h'⟩
          rcases hdone with h2 | ⟨h2, _⟩
          · rw [h2]; exact h
          · rw [h2] at h; cases h
      · rw [h1] at hp; cases hp
      · rw [h1] at hp; simp only [Phase.returned.injEq] at hp; exact .inl hp.symm
      · rw [h2] at hp; simp only [Phase.returned.injEq] at hp; exact .inr ⟨d, h1, by rw [hq]; exact hp.symm⟩
    · intro r
      rw [calls_snoc _ _ hnc, g5]
      cases hx : s'.reqs[r]? with
      | none =>
        have h1 : s'.reqs.length ≤ r := by simpa using hx
        rw [List.getElem?_eq_none (by omega)]
      | some x =>
        obtain ⟨z, hz, hq, _⟩ := hreq r x hx
        rw [hz]; simp [hq]
    · intro r hp
      exact g7 r (next_hand s s' pl e h hs r hp)
    · intro m hm
      have old : m ∈ s.written → ∃ (r id : Nat) (q : Msg), .writerTake r id ∈ evs ++ [e] ∧ (calls (evs ++ [e]))[r]? = some q ∧ m = { q with id := id } := by
        intro hm
        obtain ⟨r, id, q', h1, h2, h3⟩ := g6 m hm
        exact ⟨r, id, q', by simp [h1], by rw [calls_snoc _ _ hnc]; exact h2, h3⟩
      rcases step_written s s' e hs with h1 | ⟨r, id, x, rfl, hx, h1⟩
      · exact old (by rw [← h1]; exact hm)
      · rw [h1] at hm
        rcases List.mem_append.mp hm with hm | hm
        · exact old hm
        · refine ⟨r, id, x.q, by simp, ?_, List.mem_singleton.mp hm⟩
          obtain ⟨z, hz, hq, _⟩ := hreq r x hx
          rw [calls_snoc _ _ hnc, g5, hz]
          simp [hq]

theorem run_snoc : ∀ (evs : List Ev) (e : Ev) (s : Sys), run s (evs ++ [e]) = (run s evs).bind (step · e)
  | [], e, s => by simp only [List.nil_append, run, Option.bind_some]; cases step s e <;> simp
  | x :: evs, e, s => by
    simp only [List.cons_append, run]
    cases step s x with
    | none => rfl
    | some t => exact run_snoc evs e t

theorem run_inv (evs : List Ev) (s : Sys) (h : run {} evs = some s) : ∃ pl, Inv s pl ∧ Hist evs s pl := by
  suffices gen : ∀ (evs done : List Ev) (t : Sys) (pl : Nat → Place), Inv t pl → Hist done t pl → ∀ s, run t evs = some s →
      ∃ pl, Inv s pl ∧ Hist (done ++ evs) s pl from gen evs [] {} _ inv_init hist_init s h
  intro evs
  induction evs with
  | nil =>
    intro done t pl h1 h2 s hr
    simp only [run, Option.some.injEq] at hr
    subst hr
    exact ⟨pl, h1, by simpa using h2⟩
  | cons e evs ih =>
    intro done t pl h1 h2 s hr
    simp only [run] at hr
    cases hs : step t e with
    | none => rw [hs] at hr; cases hr
    | some t' =>
      rw [hs] at hr
      obtain ⟨pl', h3, h4⟩ := ih (done ++ [e]) t' _ (inv_step t t' pl e h1 hs) (hist_step done t t' pl e h1 h2 hs) s hr
      exact ⟨pl', h3, by simpa using h4⟩

end Verif.PipelineL
