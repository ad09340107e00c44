/-
C22, C23: request de-duplication.
-/
import Verif.Model.Dedup
import Verif.Spec.Dedup
import Verif.Lemmas.Net
set_option linter.unusedVariables false
set_option linter.unusedSimpArgs false
namespace Verif.Props.Dedup
open Verif Verif.Net Verif.Dedup Verif.Spec.Dedup

private theorem lookup_mem {α β} [BEq α] [LawfulBEq α] : ∀ (m : List (α × β)) (k : α) (v : β), m.lookup k = some v → (k, v) ∈ m
  | [], _, _, h => by simp at h
  | (a, b) :: m, k, v, h => by
    rw [List.lookup_cons] at h
    cases hk : k == a with
    | true =>
      rw [hk] at h
      simp only [Option.some.injEq] at h
      have := eq_of_beq hk
      subst this; subst h; simp
    | false =>
      rw [hk] at h
      exact List.mem_cons_of_mem _ (lookup_mem m k v h)

private theorem lookup_none {α β} [BEq α] [LawfulBEq α] : ∀ (m : List (α × β)) (k : α), m.lookup k = none → ∀ v, (k, v) ∉ m
  | [], _, _, _ => by simp
  | (a, b) :: m, k, h, v => by
    rw [List.lookup_cons] at h
    cases hk : k == a with
    | true => rw [hk] at h; simp at h
    | false =>
      rw [hk] at h
      have h1 := lookup_none m k h v
      have h2 : k ≠ a := by intro e; subst e; simp at hk
      simp [h1, h2]

/-- a caller that made an upstream call and has not returned -/
private def active (x : Caller) : Prop := x.ph = .calling ∨ x.ph = .closing

private structure Inv (s : Sys) : Prop where
  reg : ∀ k l, (k, l) ∈ s.inflight → ∃ x : Caller, s.callers[l]? = some x ∧ active x ∧ key x.q = some k
  uniq : ∀ k l l', (k, l) ∈ s.inflight → (k, l') ∈ s.inflight → l = l'
  act : ∀ (c : Nat) (x : Caller), s.callers[c]? = some x → active x → ∃ k, key x.q = some k ∧ (k, c) ∈ s.inflight
  call : ∀ (c : Nat) (x : Caller), s.callers[c]? = some x → x.ph = .calling → x.answer = none
  clos : ∀ (c : Nat) (x : Caller), s.callers[c]? = some x → x.ph = .closing → ∃ r, x.answer = some r
  wait : ∀ (c : Nat) (x : Caller) (l : Nat), s.callers[c]? = some x → x.ph = .waiting l →
    ∃ y : Caller, s.callers[l]? = some y ∧ key y.q = key x.q ∧ (y.answer = none → y.ph = .calling)

private theorem inv_init : Inv {} := ⟨by simp, by simp, by simp, by simp, by simp, by simp⟩

private theorem get_append {α} (l : List α) (a : α) (c : Nat) (x : α) :
    (l ++ [a])[c]? = some x ↔ l[c]? = some x ∨ (c = l.length ∧ x = a) := by
  rcases Nat.lt_trichotomy c l.length with h | h | h
  · rw [List.getElem?_append_left h]
    constructor
    · exact .inl
    · rintro (h1 | h1)
      · exact h1
      · omega
  · subst h; simp; exact eq_comm
  · rw [List.getElem?_eq_none (by simp; omega), List.getElem?_eq_none (by omega)]
    simp; omega

private theorem get_set {α} (l : List α) (a : α) (c i : Nat) (x y : α) (hc : l[c]? = some y) :
    (l.set c a)[i]? = some x ↔ (i = c ∧ x = a) ∨ (i ≠ c ∧ l[i]? = some x) := by
  have hlt : c < l.length := by
    rcases Nat.lt_or_ge c l.length with h | h
    · exact h
    · rw [List.getElem?_eq_none h] at hc; cases hc
  by_cases h : i = c
  · subst h; simp [List.getElem?_set, hlt]; exact eq_comm
  · have : c ≠ i := fun e => h e.symm
    simp [List.getElem?_set, this, h]

/-- what each event requires and does -/
private theorem step_arrive {s s' : Sys} {q : Msg} (h : step s (.arrive q) = some s') :
    ∃ k, key q = some k ∧
      ((∃ l, (k, l) ∈ s.inflight ∧ s' = { s with callers := s.callers ++ [{ q := q, ph := .waiting l }] }) ∨
       ((∀ l, (k, l) ∉ s.inflight) ∧
        s' = { inflight := (k, s.callers.length) :: s.inflight, callers := s.callers ++ [{ q := q, ph := .calling }] })) := by
  simp only [step] at h
  cases hk : key q with
  | none => rw [hk] at h; cases h
  | some k =>
    rw [hk] at h
    simp only at h
    refine ⟨k, rfl, ?_⟩
    cases hl : s.inflight.lookup k with
    | some l =>
      rw [hl] at h; simp only [Option.some.injEq] at h
      exact .inl ⟨l, lookup_mem _ _ _ hl, h.symm⟩
    | none =>
      rw [hl] at h; simp only [Option.some.injEq] at h
      exact .inr ⟨lookup_none _ _ hl, h.symm⟩

private theorem step_reply {s s' : Sys} {c : Nat} {r : Res} (h : step s (.reply c r) = some s') :
    ∃ x, s.callers[c]? = some x ∧ x.ph = .calling ∧ s' = s.setCaller c { x with ph := .closing, answer := some r } := by
  simp only [step] at h
  cases hx : s.callers[c]? with
  | none => rw [hx] at h; cases h
  | some x =>
    rw [hx] at h
    simp only at h
    split at h
    · next hp => exact ⟨x, rfl, hp, by simpa using h.symm⟩
    · cases h

private theorem step_finish {s s' : Sys} {c : Nat} (h : step s (.finish c) = some s') :
    ∃ x k r, s.callers[c]? = some x ∧ x.ph = .closing ∧ key x.q = some k ∧ x.answer = some r ∧
      s' = { inflight := s.inflight.filter (fun e => e.1 ≠ k),
             callers := s.callers.set c { x with ph := .returned (restore x.q r) } } := by
  simp only [step] at h
  cases hx : s.callers[c]? with
  | none => rw [hx] at h; cases h
  | some x =>
    rw [hx] at h
    simp only at h
    split at h
    · next k r h1 h2 h3 => exact ⟨x, k, r, rfl, h1, h2, h3, by simpa using h.symm⟩
    · cases h

private theorem step_wake {s s' : Sys} {c : Nat} (h : step s (.wake c) = some s') :
    ∃ x l y r, s.callers[c]? = some x ∧ x.ph = .waiting l ∧ s.callers[l]? = some y ∧ y.answer = some r ∧
      s' = s.setCaller c { x with ph := .returned (restore x.q r) } := by
  simp only [step] at h
  cases hx : s.callers[c]? with
  | none => rw [hx] at h; cases h
  | some x =>
    rw [hx] at h
    simp only at h
    split at h
    · next l hl =>
      cases hy : s.callers[l]? with
      | none => rw [hy] at h; cases h
      | some y =>
        rw [hy] at h
        simp only [Option.bind_some] at h
        cases hr : y.answer with
        | none => rw [hr] at h; cases h
        | some r => rw [hr] at h; exact ⟨x, l, y, r, rfl, hl, hy, hr, by simpa using h.symm⟩
    · cases h

private theorem inv_step {s s' : Sys} {e : Ev} (hi : Inv s) (h : step s e = some s') : Inv s' := by
  cases e with
  | arrive q =>
    obtain ⟨k, hk, ⟨l, hl, rfl⟩ | ⟨hn, rfl⟩⟩ := step_arrive h
    · obtain ⟨y, hy, hya, hyk⟩ := hi.reg k l hl
      refine ⟨?_, hi.uniq, ?_, ?_, ?_, ?_⟩
      · intro k' l' h'
        obtain ⟨x, h1, h2⟩ := hi.reg k' l' h'
        exact ⟨x, (get_append _ _ _ _).mpr (.inl h1), h2⟩
      · intro c x hx ha
        rcases (get_append _ _ _ _).mp hx with hx | ⟨_, rfl⟩
        · exact hi.act c x hx ha
        · rcases ha with ha | ha <;> cases ha
      · intro c x hx ha
        rcases (get_append _ _ _ _).mp hx with hx | ⟨_, rfl⟩
        · exact hi.call c x hx ha
        · rfl
      · intro c x hx ha
        rcases (get_append _ _ _ _).mp hx with hx | ⟨_, rfl⟩
        · exact hi.clos c x hx ha
        · cases ha
      · intro c x l' hx ha
        rcases (get_append _ _ _ _).mp hx with hx | ⟨_, rfl⟩
        · obtain ⟨z, h1, h2⟩ := hi.wait c x l' hx ha
          exact ⟨z, (get_append _ _ _ _).mpr (.inl h1), h2⟩
        · cases ha
          refine ⟨y, (get_append _ _ _ _).mpr (.inl hy), by rw [hyk, hk], ?_⟩
          intro hnone
          rcases hya with h1 | h1
          · exact h1
          · obtain ⟨r, hr⟩ := hi.clos _ _ hy h1
            rw [hr] at hnone; cases hnone
    · refine ⟨?_, ?_, ?_, ?_, ?_, ?_⟩
      · intro k' l' h'
        rcases List.mem_cons.mp h' with h' | h'
        · cases h'
          exact ⟨_, (get_append _ _ _ _).mpr (.inr ⟨rfl, rfl⟩), .inl rfl, hk⟩
        · obtain ⟨x, h1, h2⟩ := hi.reg k' l' h'
          exact ⟨x, (get_append _ _ _ _).mpr (.inl h1), h2⟩
      · intro k' l1 l2 h1 h2
        rcases List.mem_cons.mp h1 with h1 | h1 <;> rcases List.mem_cons.mp h2 with h2 | h2
        · cases h1; cases h2; rfl
        · cases h1; exact absurd h2 (hn _)
        · cases h2; exact absurd h1 (hn _)
        · exact hi.uniq _ _ _ h1 h2
      · intro c x hx ha
        rcases (get_append _ _ _ _).mp hx with hx | ⟨rfl, rfl⟩
        · obtain ⟨k', h1, h2⟩ := hi.act c x hx ha
          exact ⟨k', h1, List.mem_cons_of_mem _ h2⟩
        · exact ⟨k, hk, by simp⟩
      · intro c x hx ha
        rcases (get_append _ _ _ _).mp hx with hx | ⟨_, rfl⟩
        · exact hi.call c x hx ha
        · rfl
      · intro c x hx ha
        rcases (get_append _ _ _ _).mp hx with hx | ⟨_, rfl⟩
        · exact hi.clos c x hx ha
        · cases ha
      · intro c x l' hx ha
        rcases (get_append _ _ _ _).mp hx with hx | ⟨_, rfl⟩
        · obtain ⟨z, h1, h2⟩ := hi.wait c x l' hx ha
          exact ⟨z, (get_append _ _ _ _).mpr (.inl h1), h2⟩
        · cases ha
  | reply c r =>
    obtain ⟨x, hx, hp, rfl⟩ := step_reply h
    have G := fun i z => get_set s.callers { x with ph := Phase.closing, answer := some r } c i z x hx
    simp only [Sys.setCaller]
    refine ⟨?_, hi.uniq, ?_, ?_, ?_, ?_⟩
    · intro k l hl
      obtain ⟨y, h1, h2, h3⟩ := hi.reg k l hl
      by_cases e : l = c
      · subst e; rw [hx] at h1; cases h1
        exact ⟨_, (G _ _).mpr (.inl ⟨rfl, rfl⟩), .inr rfl, h3⟩
      · exact ⟨y, (G _ _).mpr (.inr ⟨e, h1⟩), h2, h3⟩
    · intro i z hz ha
      rcases (G _ _).mp hz with ⟨rfl, rfl⟩ | ⟨_, hz⟩
      · exact hi.act _ x hx (.inl hp)
      · exact hi.act _ z hz ha
    · intro i z hz ha
      rcases (G _ _).mp hz with ⟨rfl, rfl⟩ | ⟨_, hz⟩
      · cases ha
      · exact hi.call _ z hz ha
    · intro i z hz ha
      rcases (G _ _).mp hz with ⟨rfl, rfl⟩ | ⟨_, hz⟩
      · exact ⟨r, rfl⟩
      · exact hi.clos _ z hz ha
    · intro i z l hz ha
      rcases (G _ _).mp hz with ⟨rfl, rfl⟩ | ⟨_, hz⟩
      · cases ha
      · obtain ⟨y, h1, h2, h3⟩ := hi.wait _ z l hz ha
        by_cases e : l = c
        · subst e; rw [hx] at h1; cases h1
          exact ⟨_, (G _ _).mpr (.inl ⟨rfl, rfl⟩), h2, by simp⟩
        · exact ⟨y, (G _ _).mpr (.inr ⟨e, h1⟩), h2, h3⟩
  | finish c =>
    obtain ⟨x, k, r, hx, hp, hk, hr, rfl⟩ := step_finish h
    have G := fun i z => get_set s.callers { x with ph := Phase.returned (restore x.q r) } c i z x hx
    obtain ⟨k0, hk0, hmem⟩ := hi.act c x hx (.inr hp)
    rw [hk] at hk0; cases hk0
    refine ⟨?_, ?_, ?_, ?_, ?_, ?_⟩
    · intro k' l hl
      rw [List.mem_filter] at hl
      obtain ⟨y, h1, h2, h3⟩ := hi.reg k' l hl.1
      by_cases e : l = c
      · subst e; rw [hx] at h1; cases h1
        rw [hk] at h3; cases h3
        simp at hl
      · exact ⟨y, (G _ _).mpr (.inr ⟨e, h1⟩), h2, h3⟩
    · intro k' l l' h1 h2
      exact hi.uniq k' l l' (List.mem_filter.mp h1).1 (List.mem_filter.mp h2).1
    · intro i z hz ha
      rcases (G _ _).mp hz with ⟨rfl, rfl⟩ | ⟨hne, hz⟩
      · rcases ha with ha | ha <;> cases ha
      · obtain ⟨k', h1, h2⟩ := hi.act _ z hz ha
        refine ⟨k', h1, List.mem_filter.mpr ⟨h2, ?_⟩⟩
        have : k' ≠ k := by
          intro e; subst e
          exact hne (hi.uniq _ _ _ h2 hmem)
        simpa using this
    · intro i z hz ha
      rcases (G _ _).mp hz with ⟨rfl, rfl⟩ | ⟨_, hz⟩
      · cases ha
      · exact hi.call _ z hz ha
    · intro i z hz ha
      rcases (G _ _).mp hz with ⟨rfl, rfl⟩ | ⟨_, hz⟩
      · cases ha
      · exact hi.clos _ z hz ha
    · intro i z l hz ha
      rcases (G _ _).mp hz with ⟨rfl, rfl⟩ | ⟨_, hz⟩
      · cases ha
      · obtain ⟨y, h1, h2, h3⟩ := hi.wait _ z l hz ha
        by_cases e : l = c
        · subst e; rw [hx] at h1; cases h1
          exact ⟨_, (G _ _).mpr (.inl ⟨rfl, rfl⟩), h2, by simp [hr]⟩
        · exact ⟨y, (G _ _).mpr (.inr ⟨e, h1⟩), h2, h3⟩
  | wake c =>
    obtain ⟨x, l, y, r, hx, hp, hy, hr, rfl⟩ := step_wake h
    have G := fun i z => get_set s.callers { x with ph := Phase.returned (restore x.q r) } c i z x hx
    have hna : ¬ active x := by rintro (h | h) <;> rw [hp] at h <;> cases h
    simp only [Sys.setCaller]
    refine ⟨?_, hi.uniq, ?_, ?_, ?_, ?_⟩
    · intro k' l' hl
      obtain ⟨z, h1, h2, h3⟩ := hi.reg k' l' hl
      by_cases e : l' = c
      · subst e; rw [hx] at h1; cases h1; exact absurd h2 hna
      · exact ⟨z, (G _ _).mpr (.inr ⟨e, h1⟩), h2, h3⟩
    · intro i z hz ha
      rcases (G _ _).mp hz with ⟨rfl, rfl⟩ | ⟨hne, hz⟩
      · rcases ha with ha | ha <;> cases ha
      · exact hi.act _ z hz ha
    · intro i z hz ha
      rcases (G _ _).mp hz with ⟨rfl, rfl⟩ | ⟨_, hz⟩
      · cases ha
      · exact hi.call _ z hz ha
    · intro i z hz ha
      rcases (G _ _).mp hz with ⟨rfl, rfl⟩ | ⟨_, hz⟩
      · cases ha
      · exact hi.clos _ z hz ha
    · intro i z l' hz ha
      rcases (G _ _).mp hz with ⟨rfl, rfl⟩ | ⟨_, hz⟩
      · cases ha
      · obtain ⟨w, h1, h2, h3⟩ := hi.wait _ z l' hz ha
        by_cases e : l' = c
        · subst e; rw [hx] at h1; cases h1
          refine ⟨_, (G _ _).mpr (.inl ⟨rfl, rfl⟩), h2, ?_⟩
          intro hn
          have := h3 hn
          rw [hp] at this; cases this
        · exact ⟨w, (G _ _).mpr (.inr ⟨e, h1⟩), h2, h3⟩

private theorem run_append (s : Sys) (a b : List Ev) : run s (a ++ b) = (run s a).bind (fun s' => run s' b) := by
  induction a generalizing s with
  | nil => rfl
  | cons e a ih =>
    simp only [List.cons_append, run]
    cases step s e with
    | none => rfl
    | some s' => exact ih s'

/-- induction over a history from its end -/
private theorem run_snoc {s : Sys} {evs : List Ev} {P : List Ev → Sys → Prop} (h0 : P [] {})
    (hs : ∀ evs s e s', P evs s → Inv s → step s e = some s' → P (evs ++ [e]) s') (h : run {} evs = some s) : P evs s ∧ Inv s := by
  have key : ∀ (b a : List Ev) (t s : Sys), P a t → Inv t → run t b = some s → P (a ++ b) s ∧ Inv s := by
    intro b
    induction b with
    | nil =>
      intro a t s hp hi hr
      simp only [run, Option.some.injEq] at hr; subst hr; simpa using ⟨hp, hi⟩
    | cons e b ih =>
      intro a t s hp hi hr
      simp only [run] at hr
      cases hst : step t e with
      | none => rw [hst] at hr; cases hr
      | some t' =>
        rw [hst] at hr
        have := ih (a ++ [e]) t' s (hs _ _ _ _ hp hi hst) (inv_step hi hst) hr
        simpa using this
  simpa using key evs [] {} s h0 inv_init h

private theorem inv_run {evs : List Ev} {s : Sys} (h : run {} evs = some s) : Inv s :=
  (run_snoc (P := fun _ _ => True) trivial (fun _ _ _ _ _ _ _ => trivial) h).2

/-- the queries, the replies and the returns are those of the history -/
private structure Hist (evs : List Ev) (s : Sys) : Prop where
  qs : s.callers.map (·.q) = arrivals evs
  rep : ∀ (c : Nat) (x : Caller) (r : Res), s.callers[c]? = some x → x.answer = some r → .reply c r ∈ evs
  fin : ∀ c, Ev.finish c ∈ evs → ∃ x res, s.callers[c]? = some x ∧ x.ph = .returned res

private theorem map_set_same {α β} (f : α → β) (l : List α) (i : Nat) (a b : α) (h : l[i]? = some b) (e : f a = f b) :
    (l.set i a).map f = l.map f := by
  apply List.ext_getElem?
  intro j
  simp only [List.getElem?_map, List.getElem?_set]
  by_cases hij : i = j
  · subst hij
    rw [if_pos rfl, h]
    split <;> simp [e]
    next hn => rw [List.getElem?_eq_none (by omega)] at h; cases h
  · rw [if_neg hij]

private theorem hist_run {evs : List Ev} {s : Sys} (h : run {} evs = some s) : Hist evs s := by
  refine (run_snoc (P := Hist) ⟨rfl, by simp, by simp⟩ ?_ h).1
  intro evs s e s' hh hi hst
  have harr : ∀ e, (∀ q, e ≠ Ev.arrive q) → arrivals (evs ++ [e]) = arrivals evs := by
    intro e he
    unfold arrivals
    rw [List.filterMap_append]
    cases e with
    | arrive q => exact absurd rfl (he q)
    | _ => simp
  cases e with
  | arrive q =>
    have hq : arrivals (evs ++ [.arrive q]) = arrivals evs ++ [q] := by
      unfold arrivals; rw [List.filterMap_append]; rfl
    have main : ∀ ph, Hist (evs ++ [.arrive q]) { inflight := s'.inflight, callers := s.callers ++ [{ q := q, ph := ph }] } := by
      intro ph
      refine ⟨by rw [hq, ← hh.qs]; simp, ?_, ?_⟩
      · intro c x r hx hr
        rcases (get_append _ _ _ _).mp hx with hx | ⟨_, rfl⟩
        · exact List.mem_append_left _ (hh.rep c x r hx hr)
        · cases hr
      · intro c hc
        have hc : Ev.finish c ∈ evs := by simpa using hc
        obtain ⟨x, res, h1, h2⟩ := hh.fin c hc
        exact ⟨x, res, (get_append _ _ _ _).mpr (.inl h1), h2⟩
    obtain ⟨k, hk, ⟨l, hl, rfl⟩ | ⟨hn, rfl⟩⟩ := step_arrive hst
    · exact main _
    · exact main _
  | reply c r =>
    obtain ⟨x, hx, hp, rfl⟩ := step_reply hst
    have G := fun i z => get_set s.callers { x with ph := Phase.closing, answer := some r } c i z x hx
    refine ⟨?_, ?_, ?_⟩
    · rw [harr _ (by intro q; simp), ← hh.qs]; exact map_set_same _ _ _ _ _ hx rfl
    · intro i z r' hz hr
      rcases (G _ _).mp hz with ⟨rfl, rfl⟩ | ⟨_, hz⟩
      · cases hr; simp
      · exact List.mem_append_left _ (hh.rep i z r' hz hr)
    · intro i hc
      have hc : Ev.finish i ∈ evs := by simpa using hc
      obtain ⟨z, res, h1, h2⟩ := hh.fin i hc
      have : i ≠ c := by intro e; subst e; rw [hx] at h1; cases h1; rw [hp] at h2; cases h2
      exact ⟨z, res, (G _ _).mpr (.inr ⟨this, h1⟩), h2⟩
  | finish c =>
    obtain ⟨x, k, r, hx, hp, hk, hr, rfl⟩ := step_finish hst
    have G := fun i z => get_set s.callers { x with ph := Phase.returned (restore x.q r) } c i z x hx
    refine ⟨?_, ?_, ?_⟩
    · rw [harr _ (by intro q; simp), ← hh.qs]; exact map_set_same _ _ _ _ _ hx rfl
    · intro i z r' hz hr'
      rcases (G _ _).mp hz with ⟨rfl, rfl⟩ | ⟨_, hz⟩
      · exact List.mem_append_left _ (hh.rep i x r' hx hr')
      · exact List.mem_append_left _ (hh.rep i z r' hz hr')
    · intro i hc
      by_cases e : i = c
      · subst e; exact ⟨_, _, (G _ _).mpr (.inl ⟨rfl, rfl⟩), rfl⟩
      · have hc : Ev.finish i ∈ evs := by simpa [e] using hc
        obtain ⟨z, res, h1, h2⟩ := hh.fin i hc
        exact ⟨z, res, (G _ _).mpr (.inr ⟨e, h1⟩), h2⟩
  | wake c =>
    obtain ⟨x, l, y, r, hx, hp, hy, hr, rfl⟩ := step_wake hst
    have G := fun i z => get_set s.callers { x with ph := Phase.returned (restore x.q r) } c i z x hx
    refine ⟨?_, ?_, ?_⟩
    · rw [harr _ (by intro q; simp), ← hh.qs]; exact map_set_same _ _ _ _ _ hx rfl
    · intro i z r' hz hr'
      rcases (G _ _).mp hz with ⟨rfl, rfl⟩ | ⟨_, hz⟩
      · exact List.mem_append_left _ (hh.rep i x r' hx hr')
      · exact List.mem_append_left _ (hh.rep i z r' hz hr')
    · intro i hc
      have hc : Ev.finish i ∈ evs := by simpa using hc
      obtain ⟨z, res, h1, h2⟩ := hh.fin i hc
      have : i ≠ c := by intro e; subst e; rw [hx] at h1; cases h1; rw [hp] at h2; cases h2
      exact ⟨z, res, (G _ _).mpr (.inr ⟨this, h1⟩), h2⟩

/-- what becomes of caller `c`, which depends on the upstream call of caller `l` -/
private def Fate (q : Msg) (c l : Nat) (s : Sys) : Prop :=
  ∃ x, s.callers[c]? = some x ∧ x.q = q ∧
    match x.ph with
    | .calling => l = c
    | .closing => l = c
    | .waiting l' => l' = l
    | .returned res => ∃ y r, s.callers[l]? = some y ∧ y.answer = some r ∧ res = restore q r

private theorem fate_step {q : Msg} {c l : Nat} {s s' : Sys} {e : Ev} (hi : Inv s) (hf : Fate q c l s) (h : step s e = some s') :
    Fate q c l s' := by
  obtain ⟨x, hx, hq, hph⟩ := hf
  cases e with
  | arrive q' =>
    have main : ∀ m ph, Fate q c l { inflight := m, callers := s.callers ++ [{ q := q', ph := ph }] } := by
      intro m ph
      refine ⟨x, (get_append _ _ _ _).mpr (.inl hx), hq, ?_⟩
      cases hp : x.ph with
      | returned res =>
        rw [hp] at hph
        obtain ⟨y, r, h1, h2⟩ := hph
        exact ⟨y, r, (get_append _ _ _ _).mpr (.inl h1), h2⟩
      | _ => rw [hp] at hph; exact hph
    obtain ⟨k, hk, ⟨l', hl, rfl⟩ | ⟨hn, rfl⟩⟩ := step_arrive h
    · exact main _ _
    · exact main _ _
  | reply c' r =>
    obtain ⟨z, hz, hp, rfl⟩ := step_reply h
    have G := fun i w => get_set s.callers { z with ph := Phase.closing, answer := some r } c' i w z hz
    by_cases e : c = c'
    · subst e; rw [hx] at hz; cases hz
      rw [hp] at hph
      exact ⟨_, (G _ _).mpr (.inl ⟨rfl, rfl⟩), hq, hph⟩
    · refine ⟨x, (G _ _).mpr (.inr ⟨e, hx⟩), hq, ?_⟩
      cases hxp : x.ph with
      | returned res =>
        rw [hxp] at hph
        obtain ⟨y, r', h1, h2, h3⟩ := hph
        have : l ≠ c' := by
          intro e'; subst e'; rw [h1] at hz; cases hz
          rw [hi.call _ _ h1 hp] at h2; cases h2
        exact ⟨y, r', (G _ _).mpr (.inr ⟨this, h1⟩), h2, h3⟩
      | _ => rw [hxp] at hph; exact hph
  | finish c' =>
    obtain ⟨z, k, r, hz, hp, hk, hr, rfl⟩ := step_finish h
    have G := fun i w => get_set s.callers { z with ph := Phase.returned (restore z.q r) } c' i w z hz
    by_cases e : c = c'
    · subst e; rw [hx] at hz; cases hz
      rw [hp] at hph
      subst hph
      exact ⟨_, (G _ _).mpr (.inl ⟨rfl, rfl⟩), hq, _, r, (G _ _).mpr (.inl ⟨rfl, rfl⟩), hr, by rw [hq]⟩
    · refine ⟨x, (G _ _).mpr (.inr ⟨e, hx⟩), hq, ?_⟩
      cases hxp : x.ph with
      | returned res =>
        rw [hxp] at hph
        obtain ⟨y, r', h1, h2, h3⟩ := hph
        by_cases e' : l = c'
        · subst e'; rw [h1] at hz; cases hz
          exact ⟨_, r', (G _ _).mpr (.inl ⟨rfl, rfl⟩), h2, h3⟩
        · exact ⟨y, r', (G _ _).mpr (.inr ⟨e', h1⟩), h2, h3⟩
      | _ => rw [hxp] at hph; exact hph
  | wake c' =>
    obtain ⟨z, l', y', r, hz, hp, hy, hr, rfl⟩ := step_wake h
    have G := fun i w => get_set s.callers { z with ph := Phase.returned (restore z.q r) } c' i w z hz
    have keep : ∀ (y : Caller) (r' : Res), s.callers[l]? = some y → y.answer = some r' →
        ∃ y', (s.callers.set c' { z with ph := Phase.returned (restore z.q r) })[l]? = some y' ∧ y'.answer = some r' := by
      intro y r' h1 h2
      by_cases e' : l = c'
      · subst e'; rw [h1] at hz; cases hz
        exact ⟨_, (G _ _).mpr (.inl ⟨rfl, rfl⟩), h2⟩
      · exact ⟨y, (G _ _).mpr (.inr ⟨e', h1⟩), h2⟩
    by_cases e : c = c'
    · subst e; rw [hx] at hz; cases hz
      rw [hp] at hph
      simp only at hph
      subst hph
      obtain ⟨y2, h1, h2⟩ := keep y' r hy hr
      exact ⟨_, (G _ _).mpr (.inl ⟨rfl, rfl⟩), hq, y2, r, h1, h2, by rw [hq]⟩
    · refine ⟨x, (G _ _).mpr (.inr ⟨e, hx⟩), hq, ?_⟩
      cases hxp : x.ph with
      | returned res =>
        rw [hxp] at hph
        obtain ⟨y, r', h1, h2, h3⟩ := hph
        obtain ⟨y2, h4, h5⟩ := keep y r' h1 h2
        exact ⟨y2, r', h4, h5, h3⟩
      | _ => rw [hxp] at hph; exact hph

private theorem fate_run {q : Msg} {c l : Nat} : ∀ {evs : List Ev} {s s' : Sys}, Inv s → Fate q c l s → run s evs = some s' → Fate q c l s'
  | [], s, s', _, hf, h => by simp only [run, Option.some.injEq] at h; subst h; exact hf
  | e :: evs, s, s', hi, hf, h => by
    simp only [run] at h
    cases hst : step s e with
    | none => rw [hst] at h; cases h
    | some t => rw [hst] at h; exact fate_run (inv_step hi hst) (fate_step hi hf hst) h

private theorem madeOut (q : Msg) (r : Res) : MadeOutTo q r (restore q r) := by
  obtain ⟨m, e⟩ := r
  cases m with
  | none => exact ⟨rfl, trivial⟩
  | some a => exact ⟨rfl, rfl, rfl, rfl⟩

/-- C22: in every interleaving, whatever a caller gets is the result of one upstream call, made out to the caller: the caller's own call, or that of an
earlier caller with the same key who had not finished when this caller arrived. -/
theorem dedup_answer (pre post : List Ev) (q : Msg) (s : Sys) (x : Caller) (res : Res)
    (h : run {} (pre ++ .arrive q :: post) = some s)
    (hx : s.callers[(arrivals pre).length]? = some x) (hr : x.ph = .returned res) :
    ∃ (l : Nat) (ql : Msg) (r : Res),
      ((l = (arrivals pre).length ∧ ql = q) ∨ ((arrivals pre)[l]? = some ql ∧ .finish l ∉ pre)) ∧
      key ql = key q ∧ .reply l r ∈ pre ++ post ∧ MadeOutTo q r res := by
  have hall := hist_run h
  rw [run_append] at h
  cases h1 : run {} pre with
  | none => rw [h1] at h; cases h
  | some s1 =>
    rw [h1] at h
    simp only [Option.bind_some, run] at h
    cases h2 : step s1 (.arrive q) with
    | none => rw [h2] at h; cases h
    | some s2 =>
      rw [h2] at h
      simp only at h
      have hi1 := inv_run h1
      have hh1 := hist_run h1
      have hi2 := inv_step hi1 h2
      have hlen : s1.callers.length = (arrivals pre).length := by rw [← hh1.qs, List.length_map]
      have fin : ∀ l, Fate q (arrivals pre).length l s → ∃ r, .reply l r ∈ pre ++ post ∧ MadeOutTo q r res := by
        intro l hf
        obtain ⟨x', hx', hq, hph⟩ := hf
        rw [hx] at hx'; cases hx'
        rw [hr] at hph
        obtain ⟨y, r, h3, h4, h5⟩ := hph
        have h6 := hall.rep l y r h3 h4
        exact ⟨r, by simpa using h6, by rw [h5]; exact madeOut q r⟩
      obtain ⟨k, hk, ⟨l, hl, rfl⟩ | ⟨hn, rfl⟩⟩ := step_arrive h2
      · obtain ⟨y, hy, hya, hyk⟩ := hi1.reg k l hl
        have hf : Fate q (arrivals pre).length l { s1 with callers := s1.callers ++ [{ q := q, ph := .waiting l }] } :=
          ⟨_, (get_append _ _ _ _).mpr (.inr ⟨hlen.symm, rfl⟩), rfl, rfl⟩
        obtain ⟨r, h3, h4⟩ := fin l (fate_run hi2 hf h)
        refine ⟨l, y.q, r, .inr ⟨?_, ?_⟩, by rw [hyk, hk], h3, h4⟩
        · rw [← hh1.qs, List.getElem?_map, hy]; rfl
        · intro hc
          obtain ⟨z, res', h5, h6⟩ := hh1.fin l hc
          rw [hy] at h5; cases h5
          rcases hya with h7 | h7 <;> rw [h6] at h7 <;> cases h7
      · have hf : Fate q (arrivals pre).length (arrivals pre).length
            { inflight := (k, s1.callers.length) :: s1.inflight, callers := s1.callers ++ [{ q := q, ph := .calling }] } :=
          ⟨_, (get_append _ _ _ _).mpr (.inr ⟨hlen.symm, rfl⟩), rfl, rfl⟩
        obtain ⟨r, h3, h4⟩ := fin _ (fate_run hi2 hf h)
        exact ⟨_, q, r, .inl ⟨rfl, rfl⟩, rfl, h3, h4⟩

/-- C22: at any moment at most one upstream call per key is outstanding. -/
theorem dedup_one_upstream (evs : List Ev) (s : Sys) (h : run {} evs = some s) (c c' : Nat) (q q' : Msg)
    (hc : outstanding s c) (hc' : outstanding s c') (hq : (arrivals evs)[c]? = some q) (hq' : (arrivals evs)[c']? = some q')
    (hk : key q = key q') : c = c' := by
  have hi := inv_run h
  have hh := hist_run h
  obtain ⟨x, hx, hp⟩ := hc
  obtain ⟨x', hx', hp'⟩ := hc'
  rw [← hh.qs, List.getElem?_map, hx] at hq
  rw [← hh.qs, List.getElem?_map, hx'] at hq'
  simp only [Option.map_some, Option.some.injEq] at hq hq'
  obtain ⟨k, h1, h2⟩ := hi.act _ _ hx (.inl hp)
  obtain ⟨k', h1', h2'⟩ := hi.act _ _ hx' (.inl hp')
  rw [hq] at h1; rw [hq'] at h1'
  rw [hk, h1'] at h1; cases h1
  exact hi.uniq _ _ _ h2 h2'

/-- C22: nobody is stuck: a caller that has not returned can take its next step, or an upstream call is outstanding for it. -/
theorem dedup_progress (evs : List Ev) (s : Sys) (h : run {} evs = some s) (c : Nat) (x : Caller) (hx : s.callers[c]? = some x)
    (hnr : ∀ res, x.ph ≠ .returned res) :
    (∃ s', step s (.finish c) = some s') ∨ (∃ s', step s (.wake c) = some s') ∨ outstanding s c ∨
    ∃ l, x.ph = .waiting l ∧ outstanding s l := by
  have hi := inv_run h
  cases hp : x.ph with
  | calling => exact .inr (.inr (.inl ⟨x, hx, hp⟩))
  | closing =>
    obtain ⟨r, hr⟩ := hi.clos _ _ hx hp
    obtain ⟨k, hk, _⟩ := hi.act _ _ hx (.inr hp)
    cases hst : step s (.finish c) with
    | some s' => exact .inl ⟨s', rfl⟩
    | none => simp [step, hx, hp, hk, hr] at hst
  | waiting l =>
    obtain ⟨y, h1, h2, h3⟩ := hi.wait _ _ _ hx hp
    cases hr : y.answer with
    | none => exact .inr (.inr (.inr ⟨l, rfl, y, h1, h3 hr⟩))
    | some r =>
      cases hst : step s (.wake c) with
      | some s' => exact .inr (.inl ⟨s', rfl⟩)
      | none => simp [step, hx, hp, h1, hr] at hst
  | returned res => exact absurd hp (hnr res)

/-- callers that have not returned -/
private def pending (s : Sys) : Nat := s.callers.countP fun x => match x.ph with
  | .returned _ => false
  | _ => true

private theorem countP_set {α} (p : α → Bool) (l : List α) (i : Nat) (a b : α) (h : l[i]? = some b) (hb : p b = true) (ha : p a = false) :
    (l.set i a).countP p + 1 = l.countP p := by
  induction l generalizing i with
  | nil => simp at h
  | cons x l ih =>
    cases i with
    | zero => simp at h; subst h; simp [hb, ha, List.countP_cons]
    | succ i =>
      simp only [List.getElem?_cons_succ] at h
      have := ih i h
      simp only [List.set_cons_succ, List.countP_cons]
      omega

/-- C22: once the upstream calls have returned, letting the callers run makes every one of them return, whatever the history; and then no request is
left registered. -/
theorem dedup_all_return (evs : List Ev) (s : Sys) (h : run {} evs = some s) (hno : ∀ c, ¬ outstanding s c) :
    ∃ (more : List Ev) (s' : Sys), run {} (evs ++ more) = some s' ∧ (∀ e, e ∈ more → ∃ c, e = .finish c ∨ e = .wake c) ∧
      (∀ (c : Nat) (x : Caller), s'.callers[c]? = some x → ∃ res, x.ph = .returned res) ∧ s'.inflight = [] := by
  obtain ⟨n, hn⟩ : ∃ n, pending s = n := ⟨_, rfl⟩
  induction n using Nat.strongRecOn generalizing evs s with
  | ind n ih =>
    by_cases hall : ∀ (c : Nat) (x : Caller), s.callers[c]? = some x → ∃ res, x.ph = .returned res
    · refine ⟨[], s, by simpa using h, by simp, hall, ?_⟩
      cases hf : s.inflight with
      | nil => rfl
      | cons e m =>
        obtain ⟨k, l⟩ := e
        obtain ⟨x, h1, h2, _⟩ := (inv_run h).reg k l (by rw [hf]; simp)
        obtain ⟨res, h3⟩ := hall l x h1
        rcases h2 with h2 | h2 <;> rw [h3] at h2 <;> cases h2
    · have : ∃ (c : Nat) (x : Caller), s.callers[c]? = some x ∧ ∀ res, x.ph ≠ .returned res := by
        refine Classical.byContradiction fun hc => hall ?_
        intro c x hx
        refine Classical.byContradiction fun hr => hc ⟨c, x, hx, ?_⟩
        intro res hres
        exact hr ⟨res, hres⟩
      obtain ⟨c, x, hx, hnr⟩ := this
      have cont : ∀ e s', (∃ c, e = Ev.finish c ∨ e = Ev.wake c) → step s e = some s' →
          (∀ c, ¬ outstanding s' c) → pending s' + 1 = pending s →
          ∃ (more : List Ev) (s' : Sys), run {} (evs ++ more) = some s' ∧ (∀ e, e ∈ more → ∃ c, e = .finish c ∨ e = .wake c) ∧
            (∀ (c : Nat) (x : Caller), s'.callers[c]? = some x → ∃ res, x.ph = .returned res) ∧ s'.inflight = [] := by
        intro e s' he hst hno' hp
        have hrun : run {} (evs ++ [e]) = some s' := by
          rw [run_append, h]; simp [run, hst]
        obtain ⟨more, s2, h1, h2, h3⟩ := ih (pending s') (by omega) (evs ++ [e]) s' hrun hno' rfl
        refine ⟨e :: more, s2, by simpa using h1, ?_, h3⟩
        intro e' he'
        rcases List.mem_cons.mp he' with rfl | he'
        · exact he
        · exact h2 _ he'
      have out : ∀ (z : Caller) (res : Res), s.callers[c]? = some z → ∀ m,
          ∀ c', ¬ outstanding { inflight := m, callers := s.callers.set c { z with ph := .returned res } } c' := by
        intro z res hz m c' ⟨w, hw, hwp⟩
        rcases (get_set _ _ _ _ _ _ hz).mp hw with ⟨_, rfl⟩ | ⟨_, hw⟩
        · cases hwp
        · exact hno c' ⟨w, hw, hwp⟩
      rcases dedup_progress evs s h c x hx hnr with ⟨s', hst⟩ | ⟨s', hst⟩ | ho | ⟨l, _, ho⟩
      · obtain ⟨z, k, r, hz, hp, hk, hr, rfl⟩ := step_finish hst
        exact cont _ _ ⟨c, .inl rfl⟩ hst (out z _ hz _) (countP_set _ _ _ _ _ hz (by simp [hp]) (by simp))
      · obtain ⟨z, l, y, r, hz, hp, hy, hr, rfl⟩ := step_wake hst
        exact cont _ _ ⟨c, .inr rfl⟩ hst (out z _ hz _) (countP_set _ _ _ _ _ hz (by simp [hp]) (by simp))
      · exact absurd ho (hno c)
      · exact absurd ho (hno l)

private def qa (id : Nat) : Msg := { id := id, question := [⟨str "a.", 1, 1⟩] }
private def qA (id : Nat) : Msg := { id := id, question := [⟨str "A.", 1, 1⟩] }

/-- Two callers, the second (asking in upper case) joins; the first's reply serves both, each with its own ID and question. -/
example : (run {} [.arrive (qa 1), .arrive (qA 2), .reply 0 (.ok { id := 1, rcode := 3, question := [⟨str "a.", 1, 1⟩] }), .finish 0, .wake 1]).map
    (fun s => s.callers.map (·.ph))
    = some [.returned (.ok { id := 1, rcode := 3, question := [⟨str "a.", 1, 1⟩] }),
            .returned (.ok { id := 2, rcode := 3, question := [⟨str "A.", 1, 1⟩] })] := by decide

/-- A caller who arrives between the reply and its removal still gets that reply. -/
example : (run {} [.arrive (qa 1), .reply 0 (.fail "down"), .arrive (qA 2), .wake 1, .finish 0, .arrive (qa 3)]).map
    (fun s => s.callers.map (·.ph)) = some [.returned (.fail "down"), .returned (.fail "down"), .calling] := by decide

/-! ### C23: the key -/

private theorem beNat_acc : ∀ (b : Str) (n : Nat), b.foldl (fun n x => n * 256 + x.toNat) n = n * 256 ^ b.length + beNat b
  | [], n => by simp [beNat]
  | x :: b, n => by
    have h1 := beNat_acc b (n * 256 + x.toNat)
    have h2 := beNat_acc b (0 * 256 + x.toNat)
    simp only [beNat, List.foldl_cons, List.length_cons] at *
    rw [h1, h2, Nat.pow_succ, Nat.add_mul, Nat.add_mul, Nat.mul_assoc, Nat.mul_comm 256]
    omega

private theorem beNat_cons (x : UInt8) (b : Str) : beNat (x :: b) = x.toNat * 256 ^ b.length + beNat b := by
  have := beNat_acc b (0 * 256 + x.toNat)
  simpa [beNat] using this

private theorem beNat_lt : ∀ b : Str, beNat b < 256 ^ b.length
  | [] => by simp [beNat]
  | x :: b => by
    rw [beNat_cons, List.length_cons, Nat.pow_succ]
    have h1 := beNat_lt b
    have h2 : x.toNat < 256 := x.toNat_lt
    have h3 : (x.toNat + 1) * 256 ^ b.length ≤ 256 * 256 ^ b.length := Nat.mul_le_mul_right _ h2
    rw [Nat.add_mul] at h3
    omega

private theorem beNat_inj : ∀ a b : Str, a.length = b.length → beNat a = beNat b → a = b
  | [], [], _, _ => rfl
  | x :: a, y :: b, hl, h => by
    simp only [List.length_cons, Nat.add_right_cancel_iff] at hl
    rw [beNat_cons, beNat_cons, hl] at h
    have h1 := beNat_lt a
    have h2 := beNat_lt b
    rw [hl] at h1
    have hp : 0 < 256 ^ b.length := Nat.pow_pos (by omega)
    have hx : x.toNat = y.toNat := by
      have e1 : (x.toNat * 256 ^ b.length + beNat a) / 256 ^ b.length = x.toNat := by
        rw [Nat.mul_comm, Nat.mul_add_div hp, Nat.div_eq_of_lt h1]; omega
      have e2 : (y.toNat * 256 ^ b.length + beNat b) / 256 ^ b.length = y.toNat := by
        rw [Nat.mul_comm, Nat.mul_add_div hp, Nat.div_eq_of_lt h2]; omega
      rw [← e1, ← e2, h]
    rw [hx] at h
    rw [UInt8.toNat_inj.mp hx, beNat_inj a b hl (by omega)]

private theorem beNat_zeros (n : Nat) : beNat (List.replicate n 0) = 0 := by
  induction n with
  | zero => rfl
  | succ n ih => rw [List.replicate_succ, beNat_cons, ih]; simp

private theorem beNat_eq_zero (b : Str) (h : beNat b = 0) : b = List.replicate b.length 0 :=
  beNat_inj b _ (by simp) (by rw [h, beNat_zeros])

private theorem to4_length {a b : Str} (h : to4 a = some b) : b.length = 4 := by
  unfold to4 at h
  split at h
  · next h4 => cases h; exact h4
  · split at h
    · next h16 => cases h; simp [h16.1]
    · cases h

private theorem ecsFields_find (os : List EOpt) :
    ecsFields os = match (os.findSome? fun o => match o with
      | .ecs f m _ a => some (f, a, m)
      | _ => none) with
    | none => (0, 0, 0, 0)
    | some (f, a, m) => ecsFields [.ecs f m 0 a] := by
  induction os with
  | nil => rfl
  | cons o os ih =>
    cases o with
    | ecs f m sc a => rfl
    | _ => simpa [ecsFields, List.findSome?_cons] using ih

/-- the subnet part of the key -/
private theorem key_fields (q : Msg) (k : Key) (h : key q = some k) :
    ∃ qu, q.question.head? = some qu ∧ k.name = lower qu.name ∧ k.qtype = qu.qtype ∧ k.qclass = qu.qclass ∧
      k.dnssecOk = wantsDnssec q ∧ k.cd = q.cd ∧
      (k.ecs4, k.ecs6hi, k.ecs6lo, k.mask) = match subnet q with
        | none => (0, 0, 0, 0)
        | some (f, a, m) => ecsFields [.ecs f m 0 a] := by
  unfold key at h
  cases hq : q.question with
  | nil => rw [hq] at h; cases h
  | cons qu rest =>
    rw [hq] at h
    simp only [Option.some.injEq] at h
    subst h
    refine ⟨qu, rfl, rfl, rfl, rfl, ?_, rfl, ?_⟩
    · simp only [wantsDnssec]; cases q.edns? <;> rfl
    · simp only [subnet]
      cases q.edns? with
      | none => rfl
      | some e => exact ecsFields_find e.options

private theorem fields_v4 (a b : Str) (m : Nat) (h : to4 a = some b) : ecsFields [.ecs 1 m 0 a] = (beNat b, 0, 0, m) := by
  simp [ecsFields, h, byteToUint32, to4_length h]

private theorem fields_v6 (a : Str) (m : Nat) (h : a.length = 16) :
    ecsFields [.ecs 2 m 0 a] = (0, beNat (a.take 8), beNat (a.drop 8), m) := by
  simp [ecsFields, to16, h, byteToUint128]

private theorem proper_nonzero (f : Nat) (a : Str) (m : Nat) (h : Proper (f, a, m)) :
    (f = 1 ∧ ∃ b, to4 a = some b ∧ beNat b ≠ 0) ∨ (f = 2 ∧ a.length = 16 ∧ ¬ (beNat (a.take 8) = 0 ∧ beNat (a.drop 8) = 0)) := by
  rcases h with ⟨h1, b, h2, h3⟩ | ⟨h1, h2, h3⟩
  · refine .inl ⟨h1, b, h2, ?_⟩
    intro h0
    apply h3
    have := beNat_eq_zero b h0
    rw [to4_length h2] at this
    exact this
  · refine .inr ⟨h1, h2, ?_⟩
    rintro ⟨h4, h5⟩
    apply h3
    have e1 := beNat_eq_zero _ h4
    have e2 := beNat_eq_zero _ h5
    simp only at h2
    rw [List.length_take, h2] at e1
    rw [List.length_drop, h2] at e2
    have := List.take_append_drop 8 a
    rw [e1, e2] at this
    exact this.symm

/-- C23: queries with the same key ask the same question with the same flags; and if any subnet options they carry first are proper ones, either both have
none or both name the same network. -/
theorem dedup_key_separates (q q' : Msg) (k : Key) (h : key q = some k) (h' : key q' = some k)
    (hp : ∀ e, subnet q = some e → Proper e) (hp' : ∀ e, subnet q' = some e → Proper e) :
    ∃ qu qu', q.question.head? = some qu ∧ q'.question.head? = some qu' ∧
      equalFold qu.name qu'.name = true ∧ qu.qtype = qu'.qtype ∧ qu.qclass = qu'.qclass ∧
      wantsDnssec q = wantsDnssec q' ∧ q.cd = q'.cd ∧
      ((subnet q = none ∧ subnet q' = none) ∨ ∃ e e', subnet q = some e ∧ subnet q' = some e' ∧ SameNet e e') := by
  obtain ⟨qu, a1, a2, a3, a4, a5, a6, a7⟩ := key_fields q k h
  obtain ⟨qu', b1, b2, b3, b4, b5, b6, b7⟩ := key_fields q' k h'
  refine ⟨qu, qu', a1, b1, ?_, by rw [← a3, b3], by rw [← a4, b4], by rw [← a5, b5], by rw [← a6, b6], ?_⟩
  · simp [equalFold, ← a2, b2]
  · rw [a7] at b7
    cases hs : subnet q with
    | none =>
      cases hs' : subnet q' with
      | none => exact .inl ⟨rfl, rfl⟩
      | some e' =>
        obtain ⟨f', a', m'⟩ := e'
        rw [hs, hs'] at b7
        simp only at b7
        rcases proper_nonzero f' a' m' (hp' _ hs') with ⟨rfl, b, e1, e2⟩ | ⟨rfl, e1, e2⟩
        · rw [fields_v4 _ _ _ e1] at b7; simp only [Prod.mk.injEq] at b7; exact absurd b7.1.symm e2
        · rw [fields_v6 _ _ e1] at b7; simp only [Prod.mk.injEq] at b7; exact absurd ⟨b7.2.1.symm, b7.2.2.1.symm⟩ e2
    | some e =>
      obtain ⟨f, a, m⟩ := e
      have hpe := proper_nonzero f a m (hp _ hs)
      cases hs' : subnet q' with
      | none =>
        rw [hs, hs'] at b7
        simp only at b7
        rcases hpe with ⟨rfl, b, e1, e2⟩ | ⟨rfl, e1, e2⟩
        · rw [fields_v4 _ _ _ e1] at b7; simp only [Prod.mk.injEq] at b7; exact absurd b7.1 e2
        · rw [fields_v6 _ _ e1] at b7; simp only [Prod.mk.injEq] at b7; exact absurd ⟨b7.2.1, b7.2.2.1⟩ e2
      | some e' =>
        obtain ⟨f', a', m'⟩ := e'
        rw [hs, hs'] at b7
        simp only at b7
        refine .inr ⟨_, _, rfl, rfl, ?_⟩
        rcases hpe with ⟨rfl, b, e1, e2⟩ | ⟨rfl, e1, e2⟩ <;>
          rcases proper_nonzero f' a' m' (hp' _ hs') with ⟨rfl, b', c1, c2⟩ | ⟨rfl, c1, c2⟩
        · rw [fields_v4 _ _ _ e1, fields_v4 _ _ _ c1] at b7; simp only [Prod.mk.injEq] at b7
          refine ⟨rfl, b7.2.2.2, ?_⟩
          rw [if_pos rfl, e1, c1, beNat_inj b b' (by rw [to4_length e1, to4_length c1]) b7.1]
        · rw [fields_v4 _ _ _ e1, fields_v6 _ _ c1] at b7; simp only [Prod.mk.injEq] at b7; exact absurd b7.1 e2
        · rw [fields_v6 _ _ e1, fields_v4 _ _ _ c1] at b7; simp only [Prod.mk.injEq] at b7; exact absurd b7.1.symm c2
        · rw [fields_v6 _ _ e1, fields_v6 _ _ c1] at b7; simp only [Prod.mk.injEq] at b7
          refine ⟨rfl, b7.2.2.2, ?_⟩
          rw [if_neg (by simp)]
          have t1 := beNat_inj (a.take 8) (a'.take 8) (by simp [e1, c1]) b7.2.1
          have t2 := beNat_inj (a.drop 8) (a'.drop 8) (by simp [e1, c1]) b7.2.2.1
          simp only
          rw [← List.take_append_drop 8 a, t1, t2, List.take_append_drop]

/-- C23, the other way: callers with the same question, flags and options are merged, whatever their IDs and spelling of the name. -/
theorem dedup_key_merges (q q' : Msg) (qu qu' : Question) (h : q.question.head? = some qu) (h' : q'.question.head? = some qu')
    (hn : equalFold qu.name qu'.name = true) (ht : qu.qtype = qu'.qtype) (hc : qu.qclass = qu'.qclass) (he : q.edns? = q'.edns?) (hcd : q.cd = q'.cd) :
    key q = key q' ∧ (key q).isSome := by
  unfold key
  cases hq : q.question with
  | nil => rw [hq] at h; cases h
  | cons x xs =>
    cases hq' : q'.question with
    | nil => rw [hq'] at h'; cases h'
    | cons y ys =>
      rw [hq] at h; rw [hq'] at h'
      simp only [List.head?_cons, Option.some.injEq] at h h'
      subst h; subst h'
      simp only [equalFold, beq_iff_eq] at hn
      simp [hn, ht, hc, he, hcd]

private def withEcs (os : List EOpt) : Msg :=
  { question := [⟨str "a.", 1, 1⟩], extra := [{ name := str ".", rtype := 41, cls := 0, ttl := 0, data := .opt 1232 false os }] }

/-- proper options of both families are told apart -/
example : key (withEcs [.ecs 1 24 0 [10, 0, 0, 0]]) ≠ key (withEcs [.ecs 2 24 0 (List.replicate 15 0 ++ [10])]) ∧
    Proper (1, [10, 0, 0, 0], 24) ∧ Proper (2, List.replicate 15 0 ++ [10], 24) :=
  ⟨by decide, .inl ⟨rfl, [10, 0, 0, 0], by decide, by decide⟩, .inr ⟨rfl, by decide, by decide⟩⟩

/-- Finding: a query that asks for no subnet to be used (0.0.0.0/0) is merged with one that has no subnet option at all, so one of them gets an answer made for the other. -/
theorem dedup_merges_zero_subnet : key (withEcs [.ecs 1 0 0 [0, 0, 0, 0]]) = key (withEcs []) ∧
    key (withEcs [.ecs 1 24 0 [0, 0, 0, 0]]) = key (withEcs [.ecs 2 24 0 (List.replicate 16 0)]) := by decide

/-- Finding: only the first subnet option counts, and one of unknown family hides those after it. -/
theorem dedup_ignores_later_subnets :
    key (withEcs [.ecs 1 24 0 [10, 0, 0, 0], .ecs 1 24 0 [10, 0, 1, 0]]) = key (withEcs [.ecs 1 24 0 [10, 0, 0, 0], .ecs 1 24 0 [10, 0, 2, 0]]) ∧
    key (withEcs [.ecs 0 24 0 [], .ecs 1 24 0 [10, 0, 1, 0]]) = key (withEcs []) := by decide

/-- Finding: the operation code and other options are not part of the key: a NOTIFY for a name is answered with the reply to a QUERY. -/
theorem dedup_ignores_opcode (q : Msg) (op : Nat) : key { q with opcode := op } = key q := rfl

end Verif.Props.Dedup
