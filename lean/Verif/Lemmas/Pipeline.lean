/-
Invariants of the pipelined connection (C24).
-/
import Verif.Model.Pipeline
set_option linter.unusedVariables false
set_option linter.unusedSimpArgs false
namespace Verif.PipelineL
open Verif Verif.Pipeline

theorem lookup_mem {α β} [BEq α] [LawfulBEq α] : ∀ (m : List (α × β)) (k : α) (v : β), m.lookup k = some v → (k, v) ∈ m
  | [], _, _, h => by simp at h
  | (a, b) :: m, k, v, h => by
    rw [List.lookup_cons] at h
    cases hk : k == a with
    | true =>
      rw [hk] at h
      simp only [Option.some.injEq] at h
      have := eq_of_beq hk
      subst this; subst h; simp
    | false =>
      rw [hk] at h
      exact List.mem_cons_of_mem _ (lookup_mem m k v h)

theorem lookup_none {α β} [BEq α] [LawfulBEq α] : ∀ (m : List (α × β)) (k : α), m.lookup k = none → ∀ v, (k, v) ∉ m
  | [], _, _, _ => by simp
  | (a, b) :: m, k, h, v => by
    rw [List.lookup_cons] at h
    cases hk : k == a with
    | true => rw [hk] at h; simp at h
    | false =>
      rw [hk] at h
      have h1 := lookup_none m k h v
      have h2 : k ≠ a := by intro e; subst e; simp at hk
      simp [h1, h2]

/-- where a request is -/
inductive Place where
  | absent | caller | hand | manager | requeued | flight (id : Nat) | writer | reader (a : Msg) | done | dropped

def upd (pl : Nat → Place) (r : Nat) (p : Place) : Nat → Place := fun k => if k = r then p else pl k

def failingOf : Writer → Option Nat
  | .failing r _ _ => some r
  | _ => none

structure Inv (s : Sys) (pl : Nat → Place) : Prop where
  ok : s.panicked = false
  absent : ∀ r, pl r = .absent ↔ s.reqs[r]? = none
  caller : ∀ (r : Nat) (x : Req), s.reqs[r]? = some x → (pl r = .caller ↔ x.ph = .queueing)
  manager : ∀ r, pl r = .manager ↔ s.manager = .dialing r
  requeued : ∀ r, pl r = .requeued ↔ r ∈ s.requeued
  requeuedN : s.requeued.Nodup
  flight : ∀ r id, pl r = .flight id ↔ (id, r) ∈ s.inflight
  flightN : ∀ r r' id, (id, r) ∈ s.inflight → (id, r') ∈ s.inflight → r = r'
  flightD : s.inflight.Pairwise fun a b => a.1 ≠ b.1
  flightId : ∀ (r id : Nat) (x : Req), (id, r) ∈ s.inflight → s.reqs[r]? = some x → x.id = id
  writer : ∀ r, pl r = .writer ↔ failingOf s.writer = some r
  writing : ∀ r id r', s.writer = .writing r id → (id, r') ∈ s.inflight → r' = r
  reader : ∀ r a, pl r = .reader a ↔ s.reader = .completing r a
  done : ∀ (r : Nat) (x : Req), s.reqs[r]? = some x → (pl r = .done ↔ x.done ≠ none)
  dropped : ∀ (r : Nat) (x : Req), s.reqs[r]? = some x → pl r = .dropped → ∃ res, x.ph = .returned res
  conn : s.manager ≠ .connected → s.writer = .stopped ∧ s.reader = .stopped ∧ s.inflight = []

theorem inv_init : Inv {} (fun _ => .absent) := by
  constructor <;> simp [failingOf]

theorem take_inv (s s' : Sys) (pl : Nat → Place) (r : Nat) (h : Inv s pl) (ht : s.take r = some s') :
    Inv s' (upd pl r .hand) ∧
    (s'.inflight = s.inflight ∧ s'.manager = s.manager ∧ s'.writer = s.writer ∧ s'.reader = s.reader ∧ s'.written = s.written) ∧
    ∃ x : Req, s'.reqs[r]? = some x ∧ x.done = none := by
  obtain ⟨h1, h2, h3, h4, h5, h6, h7, h8, h9, h10, h11, h12, h13, h14, h15, h16⟩ := h
  unfold Sys.take at ht
  split at ht
  · rename_i hr
    simp only [Option.some.injEq] at ht
    subst ht
    refine ⟨?_, ⟨rfl, rfl, rfl, rfl, rfl⟩, ?_⟩
    · constructor <;> simp only [upd] <;> grind [failingOf]
    · have := (h5 r).mpr hr
      cases hx : s.reqs[r]? with
      | none => grind
      | some x => exact ⟨x, rfl, by grind⟩
  · rename_i hr
    cases hx : s.reqs[r]? with
    | none => simp [hx] at ht
    | some x =>
      simp only [hx] at ht
      split at ht
      · simp only [Option.some.injEq] at ht
        subst ht
        refine ⟨?_, ⟨rfl, rfl, rfl, rfl, rfl⟩, ?_⟩
        · constructor <;> simp only [upd] <;> grind
        · grind
      · cases ht

theorem mark_inflight (s : Sys) (r : Nat) (a : Option Msg) (e : Option Err) :
    { s.markDone r a e with inflight := [] } = { s with inflight := [] }.markDone r a e := by
  unfold Sys.markDone
  cases s.reqs[r]? with
  | none => rfl
  | some x => cases h : x.done <;> simp [h]

theorem fold_inflight (l : List (Nat × Nat)) (e : Err) : ∀ s : Sys,
    { l.foldl (fun t x => t.markDone x.2 none (some e)) s with inflight := [] } =
      l.foldl (fun t x => t.markDone x.2 none (some e)) { s with inflight := [] } := by
  induction l with
  | nil => intro s; rfl
  | cons x l ih => intro s; simp only [List.foldl_cons]; rw [ih, mark_inflight]

theorem mark_frame (s : Sys) (r : Nat) (a : Option Msg) (e : Option Err) :
    (s.markDone r a e).manager = s.manager ∧ (s.markDone r a e).writer = s.writer ∧ (s.markDone r a e).reader = s.reader ∧
    (s.markDone r a e).inflight = s.inflight := by
  unfold Sys.markDone
  cases s.reqs[r]? with
  | none => simp
  | some x => cases h : x.done <;> simp [h]

theorem fold_frame (l : List (Nat × Nat)) (e : Err) : ∀ s : Sys,
    let t := l.foldl (fun t x => t.markDone x.2 none (some e)) s
    t.manager = s.manager ∧ t.writer = s.writer ∧ t.reader = s.reader ∧ t.inflight = s.inflight := by
  induction l with
  | nil => intro s; simp
  | cons x l ih =>
    intro s
    simp only [List.foldl_cons]
    have h1 := ih (s.markDone x.2 none (some e))
    have h2 := mark_frame s x.2 none (some e)
    simp only at h1
    rw [h1.1, h1.2.1, h1.2.2.1, h1.2.2.2]
    exact h2

theorem fold_reqs (e : Err) : ∀ (l : List (Nat × Nat)) (s : Sys), l.Pairwise (fun a b => a.2 ≠ b.2) →
    (∀ x, x ∈ l → ∃ y : Req, s.reqs[x.2]? = some y ∧ y.done = none) →
    let t := l.foldl (fun t x => t.markDone x.2 none (some e)) s
    t.panicked = s.panicked ∧ t.requeued = s.requeued ∧ t.written = s.written ∧
    ∀ k : Nat, t.reqs[k]? = if k ∈ l.map (·.2) then s.reqs[k]?.map (fun y => { y with done := some (.fail e) }) else s.reqs[k]?
  | [], s, _, _ => by simp
  | x :: l, s, hd, hl => by
    rw [List.pairwise_cons] at hd
    obtain ⟨y, hy, hyd⟩ := hl x (by simp)
    have hm : s.markDone x.2 none (some e) = { s with reqs := s.reqs.set x.2 { y with done := some (.fail e) } } := by
      unfold Sys.markDone
      simp only [hy, hyd]
      rfl
    have ih := fold_reqs e l (s.markDone x.2 none (some e)) hd.2 (by
      intro z hz
      obtain ⟨w, hw, hwd⟩ := hl z (by simp [hz])
      have := hd.1 z hz
      refine ⟨w, ?_, hwd⟩
      rw [hm]
      simp only [List.getElem?_set, this, if_false]
      exact hw)
    simp only [List.foldl_cons] at ih ⊢
    obtain ⟨i1, i2, i3, i4⟩ := ih
    refine ⟨by rw [i1, hm], by rw [i2, hm], by rw [i3, hm], ?_⟩
    intro k
    rw [i4, hm]
    simp only [List.map_cons, List.mem_cons]
    by_cases hk : k = x.2
    · have hnm : x.2 ∉ l.map (·.2) := by
        intro h
        obtain ⟨z, hz, he⟩ := List.mem_map.mp h
        exact hd.1 z hz he.symm
      have hlt : x.2 < s.reqs.length := by
        have := List.getElem?_eq_some_iff.mp hy
        exact this.1
      subst hk
      rw [if_neg hnm, if_pos (.inl rfl), List.getElem?_set_self hlt, hy]
      rfl
    · have : ¬ x.2 = k := fun h => hk h.symm
      rw [List.getElem?_set_ne this]
      by_cases hkl : k ∈ l.map (·.2)
      · rw [if_pos hkl, if_pos (.inr hkl)]
      · rw [if_neg hkl, if_neg (fun h => h.elim hk hkl)]

/-- where the requests are after an event -/
def nextPl (s : Sys) (pl : Nat → Place) : Ev → Nat → Place
  | .call _ => upd pl s.reqs.length .caller
  | .queueTimeout r => upd pl r .dropped
  | .startTake r => upd pl r .manager
  | .dialFail _ => match s.manager with
    | .dialing r => upd pl r .done
    | _ => pl
  | .dialOk => match s.manager with
    | .dialing r => upd pl r .requeued
    | _ => pl
  | .writerTake r id => upd pl r (.flight id)
  | .writerFull r => upd pl r .writer
  | .writeFail _ => match s.writer with
    | .writing r id => match s.inflight.lookup id with
      | some _ => upd pl r .writer
      | none => pl
    | _ => pl
  | .writerFailed => match s.writer with
    | .failing r _ _ => upd pl r .done
    | _ => pl
  | .recv a => match s.inflight.lookup a.id with
    | some r => upd pl r (.reader a)
    | none => pl
  | .readerDone => match s.reader with
    | .completing r _ => upd pl r .done
    | _ => pl
  | .drain => fun k => match pl k with
    | .flight _ => .done
    | p => p
  | .timeout r => match s.reqs[r]? with
    | some x => if s.inflight.lookup x.id = some r then upd pl r .dropped else pl
    | none => pl
  | _ => pl

theorem filter_pairwise (l : List (Nat × Nat)) (id : Nat) (h : l.Pairwise fun a b => a.1 ≠ b.1) :
    (l.filter fun x => x.1 ≠ id).Pairwise fun a b => a.1 ≠ b.1 := h.sublist List.filter_sublist

theorem mem_filter' (l : List (Nat × Nat)) (id i r : Nat) : (i, r) ∈ (l.filter fun x => x.1 ≠ id) ↔ (i, r) ∈ l ∧ i ≠ id := by
  simp [List.mem_filter]

theorem inv_upd (s : Sys) (pl : Nat → Place) (r : Nat) (p : Place) (h : pl r = p) : upd pl r p = pl := by
  funext k; simp only [upd]; split
  · rename_i e; rw [e, h]
  · rfl

set_option maxHeartbeats 4000000 in
theorem inv_step (s s' : Sys) (pl : Nat → Place) (e : Ev) (h : Inv s pl) (hs : step s e = some s') : Inv s' (nextPl s pl e) := by
  have h0 := h
  obtain ⟨h1, h2, h3, h4, h5, h6, h7, h8, h9, h10, h11, h12, h13, h14, h15, h16⟩ := h
  cases e with
  | call q =>
    simp only [step, Option.some.injEq] at hs
    subst hs
    have hl : pl s.reqs.length = .absent := (h2 _).mpr (by simp)
    constructor <;> simp only [nextPl, upd] <;> grind [failingOf]
  | queueTimeout r =>
    simp only [step] at hs
    split at hs
    · split at hs
      · simp only [Option.some.injEq] at hs
        subst hs
        constructor <;> simp only [nextPl, upd] <;> grind [failingOf]
      · cases hs
    · cases hs
  | startTake r =>
    simp only [step] at hs
    split at hs
    · cases ht : s.take r with
      | none => rw [ht] at hs; cases hs
      | some t =>
        rw [ht] at hs
        simp only [Option.map_some, Option.some.injEq] at hs
        subst hs
        obtain ⟨⟨k1, k2, k3, k4, k5, k6, k7, k8, k9, k10, k11, k12, k13, k14, k15, k16⟩, hf⟩ := take_inv s t pl r h0 ht
        clear h1 h2 h3 h5 h6 h7 h8 h9 h10 h11 h12 h13 h14 h15 h0 ht
        constructor <;> simp only [nextPl, upd] at * <;> grind [failingOf]
    · cases hs
  | dialFail e =>
    simp only [step] at hs
    split at hs
    · rename_i r hm
      simp only [Option.some.injEq] at hs
      subst hs
      simp only [nextPl, hm]
      have hr := (h4 r).mpr hm
      cases hx : s.reqs[r]? with
      | none => grind
      | some x =>
        have hd : x.done = none := by grind
        simp only [Sys.markDone, hx, hd]
        constructor <;> simp only [upd] <;> grind [failingOf]
    · cases hs
  | dialOk =>
    simp only [step] at hs
    split at hs
    · rename_i r hm
      simp only [Option.some.injEq] at hs
      subst hs
      simp only [nextPl, hm]
      have hr := (h4 r).mpr hm
      constructor <;> simp only [upd] <;> grind [failingOf]
    · cases hs
  | writerTake r id =>
    simp only [step] at hs
    split at hs
    · rename_i hc
      cases ht : s.take r with
      | none => rw [ht] at hs; cases hs
      | some t =>
        rw [ht] at hs
        simp only at hs
        have hl := lookup_none _ _ hc.2.2.2
        obtain ⟨⟨k1, k2, k3, k4, k5, k6, k7, k8, k9, k10, k11, k12, k13, k14, k15, k16⟩, hf, x, hx, hxd⟩ := take_inv s t pl r h0 ht
        rw [hx] at hs
        simp only [Option.some.injEq] at hs
        subst hs
        have hp : ((id, r) :: t.inflight).Pairwise fun a b => a.1 ≠ b.1 := by
          rw [List.pairwise_cons]
          refine ⟨?_, k9⟩
          intro y hy he
          rw [hf.1] at hy
          exact hl y.2 (by simp only at he; rw [he]; exact hy)
        clear h1 h2 h3 h5 h6 h7 h8 h9 h10 h11 h12 h13 h14 h15 h0 ht
        constructor <;> simp only [nextPl, upd] at * <;> grind [failingOf]
    · cases hs
  | writerFull r =>
    simp only [step] at hs
    split at hs
    · cases ht : s.take r with
      | none => rw [ht] at hs; cases hs
      | some t =>
        rw [ht] at hs
        simp only [Option.map_some, Option.some.injEq] at hs
        subst hs
        obtain ⟨⟨k1, k2, k3, k4, k5, k6, k7, k8, k9, k10, k11, k12, k13, k14, k15, k16⟩, hf⟩ := take_inv s t pl r h0 ht
        clear h1 h2 h3 h5 h6 h7 h8 h9 h10 h11 h12 h13 h14 h15 h0 ht
        constructor <;> simp only [nextPl, upd] at * <;> grind [failingOf]
    · cases hs
  | writeOk =>
    simp only [step] at hs
    split at hs
    · simp only [Option.some.injEq] at hs
      subst hs
      constructor <;> simp only [nextPl, upd] <;> grind [failingOf]
    · cases hs
  | writeFail e =>
    simp only [step] at hs
    split at hs
    · rename_i r id hw
      split at hs
      · rename_i r' hl
        simp only [Option.some.injEq] at hs
        subst hs
        simp only [nextPl, hw, hl]
        have hm := lookup_mem _ _ _ hl
        have hr := h12 r id r' hw hm
        subst hr
        have hp := filter_pairwise s.inflight id h9
        have hf := mem_filter' s.inflight id
        constructor <;> simp only [upd] <;> grind [failingOf]
      · rename_i hl
        simp only [Option.some.injEq] at hs
        subst hs
        simp only [nextPl, hw, hl]
        constructor <;> grind [failingOf]
    · cases hs
  | writerFailed =>
    simp only [step] at hs
    split at hs
    · rename_i r e b hw
      simp only [Option.some.injEq] at hs
      subst hs
      simp only [nextPl, hw]
      have hr := (h11 r).mpr (by rw [hw]; rfl)
      cases hx : s.reqs[r]? with
      | none => grind
      | some x =>
        have hd : x.done = none := by grind
        simp only [Sys.markDone, hx, hd]
        constructor <;> simp only [upd] <;> grind [failingOf]
    · cases hs
  | writerStop =>
    simp only [step] at hs
    split at hs
    · simp only [Option.some.injEq] at hs
      subst hs
      constructor <;> simp only [nextPl] <;> grind [failingOf]
    · cases hs
  | recv a =>
    simp only [step] at hs
    split at hs
    · split at hs
      · rename_i r hl
        simp only [Option.some.injEq] at hs
        subst hs
        simp only [nextPl, hl]
        have hm := lookup_mem _ _ _ hl
        have hp := filter_pairwise s.inflight a.id h9
        have hf := mem_filter' s.inflight a.id
        constructor <;> simp only [upd] <;> grind [failingOf]
      · rename_i hl
        simp only [Option.some.injEq] at hs
        subst hs
        simp only [nextPl, hl]
        exact h0
    · cases hs
  | readerDone =>
    simp only [step] at hs
    split at hs
    · rename_i r a hw
      simp only [Option.some.injEq] at hs
      subst hs
      simp only [nextPl, hw]
      have hr := (h13 r a).mpr hw
      cases hx : s.reqs[r]? with
      | none => grind
      | some x =>
        have hd : x.done = none := by grind
        simp only [Sys.markDone, hx, hd]
        constructor <;> simp only [upd] <;> grind [failingOf]
    · cases hs
  | readerStop =>
    simp only [step] at hs
    split at hs
    · simp only [Option.some.injEq] at hs
      subst hs
      constructor <;> simp only [nextPl] <;> grind [failingOf]
    · cases hs
  | drain =>
    simp only [step] at hs
    split at hs
    · rename_i hc
      simp only [Option.some.injEq] at hs
      subst hs
      have hnd : s.inflight.Pairwise fun a b => a.2 ≠ b.2 := by
        refine h9.imp_of_mem ?_
        intro a b ha hb hab he
        have e1 := (h7 a.2 a.1).mpr ha
        have e2 := (h7 b.2 b.1).mpr hb
        rw [he] at e1
        grind
      have hall : ∀ x, x ∈ s.inflight → ∃ y : Req, s.reqs[x.2]? = some y ∧ y.done = none := by
        intro x hx
        have e1 := (h7 x.2 x.1).mpr hx
        cases hy : s.reqs[x.2]? with
        | none => grind
        | some y => exact ⟨y, rfl, by grind⟩
      have hfr := fold_frame s.inflight errClosed s
      obtain ⟨f1, f2, f3, f4⟩ := fold_reqs errClosed s.inflight s hnd hall
      have hk : ∀ k, (∃ id, pl k = .flight id) ↔ k ∈ s.inflight.map (·.2) := by
        intro k
        simp only [List.mem_map, h7]
        constructor
        · rintro ⟨id, hid⟩; exact ⟨_, hid, rfl⟩
        · rintro ⟨x, hx, rfl⟩; exact ⟨x.1, hx⟩
      simp only [Sys.drain]
      generalize s.inflight.foldl (fun t x => t.markDone x.2 none (some errClosed)) s = t at *
      have hk1 : ∀ k, k ∈ s.inflight.map (·.2) → ∃ id, pl k = .flight id := fun k => (hk k).mpr
      have hk2 : ∀ k id, pl k = .flight id → k ∈ s.inflight.map (·.2) := fun k id h => (hk k).mp ⟨id, h⟩
      have hk3 : ∀ k, k ∉ s.inflight.map (·.2) → ∀ id, pl k ≠ .flight id := fun k h id h' => h (hk2 k id h')
      obtain ⟨hfr1, hfr2, hfr3, hfr4⟩ := hfr
      clear hk hall hnd
      generalize s.inflight.map (·.2) = ks at *
      have hn : ∀ k, (match pl k with | .flight _ => Place.done | p => p) = if k ∈ ks then .done else pl k := by
        intro k
        by_cases hkk : k ∈ ks
        · obtain ⟨id, hid⟩ := hk1 k hkk
          simp [hid, hkk]
        · have := hk3 k hkk
          rw [if_neg hkk]
          cases hp : pl k <;> simp_all
      constructor <;> simp only [nextPl, hn]
      · rw [f1]; exact h1
      · grind
      · grind
      · grind
      · grind
      · grind
      · grind
      · grind
      · exact List.Pairwise.nil
      · grind
      · grind [failingOf]
      · grind
      · grind
      · grind
      · grind
      · grind
    · cases hs
  | timeout r =>
    simp only [step] at hs
    cases hx : s.reqs[r]? with
    | none => rw [hx] at hs; cases hs
    | some x =>
      rw [hx] at hs
      simp only at hs
      split at hs
      · simp only [Option.some.injEq] at hs
        subst hs
        simp only [nextPl, hx]
        by_cases hl : s.inflight.lookup x.id = some r
        · have hm := lookup_mem _ _ _ hl
          simp only [if_pos hl]
          have hp := filter_pairwise s.inflight x.id h9
          have hf := mem_filter' s.inflight x.id
          constructor <;> simp only [upd] <;> grind [failingOf]
        · simp only [if_neg hl]
          constructor <;> grind [failingOf]
      · cases hs
  | ret r =>
    simp only [step] at hs
    split at hs
    · rename_i x hx
      split at hs
      · simp only [Option.some.injEq] at hs
        subst hs
        constructor <;> simp only [nextPl] <;> grind [failingOf]
      · cases hs
    · cases hs

end Verif.PipelineL
