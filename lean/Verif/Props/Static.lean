/-
C43 (static responses), C44 (name replacement), C64 (logging elements are transparent).
-/
import Verif.Spec.Static
import Verif.Lemmas.Edns
set_option linter.unusedVariables false
set_option linter.unusedSimpArgs false
namespace Verif.Props.Static
open Verif Verif.Static Verif.Spec.Static
open Verif.Blocklist hiding resolve

/-! ### Static responses -/

private theorem copy_some : ∀ (l : List RR), copyRRs (l.map some) = some l
  | [] => rfl
  | r :: l => by simp [copyRRs, copy_some l]

private theorem copy_none : ∀ (l : List (Option RR)), none ∈ l → copyRRs l = none
  | [], h => by simp at h
  | none :: l, _ => rfl
  | some r :: l, h => by
    have : none ∈ l := by simpa using h
    simp [copyRRs, copy_none l this]

private theorem parse_spec (newRR : Str → Option (Option RR)) : ∀ (ss : List Str) (l : List (Option RR)), parseRRs newRR ss = some l ↔ ss.map newRR = l.map some
  | [], l => by
    simp only [parseRRs, Option.some.injEq, List.map_nil]
    constructor
    · rintro rfl; rfl
    · intro h; cases l <;> simp_all
  | s :: ss, l => by
    unfold parseRRs
    cases h : newRR s with
    | none =>
      simp only [List.map_cons, h]
      constructor
      · intro h; simp at h
      · intro h; cases l <;> simp at h
    | some rr =>
      simp only [List.map_cons, h, Option.map_eq_some_iff]
      constructor
      · rintro ⟨l', h1, rfl⟩; simp [(parse_spec newRR ss l').mp h1]
      · intro h1
        cases l with
        | nil => simp at h1
        | cons x xs =>
          simp only [List.map_cons, List.cons.injEq, Option.some.injEq] at h1
          exact ⟨xs, (parse_spec newRR ss xs).mpr h1.2, by rw [h1.1]⟩

/-- C43: the configuration is accepted exactly if every text can be read; the records are kept in order. -/
theorem static_config (newRR : Str → Option (Option RR)) (answer ns extra : List Str) (rcode : Nat) (truncate : Bool) (ede : Option Ede) (s : Static) :
    newStatic newRR answer ns extra rcode truncate ede = some s ↔
      answer.map newRR = s.answer.map some ∧ ns.map newRR = s.ns.map some ∧ extra.map newRR = s.extra.map some ∧ s.rcode = rcode ∧ s.truncate = truncate ∧ s.ede = ede := by
  unfold newStatic
  simp only [Option.bind_eq_bind, Option.bind_eq_some_iff, Option.pure_def, Option.some.injEq, parse_spec]
  constructor
  · rintro ⟨a, h1, n, h2, e, h3, rfl⟩; exact ⟨h1, h2, h3, rfl, rfl, rfl⟩
  · rintro ⟨h1, h2, h3, rfl, rfl, rfl⟩; exact ⟨_, h1, _, h2, _, h3, rfl⟩

/-- the additional section with the extended error, if one is configured and its text can be made -/
private def withEde (ede : Option Ede) (q : Msg) (extra : List RR) : List RR :=
  match ede.bind (fun t => ((t.text { id := q.id, question := (q.question.head?.getD ⟨[], 0, 0⟩).name, qclass := (q.question.head?.getD ⟨[], 0, 0⟩).qclass, qtype := (q.question.head?.getD ⟨[], 0, 0⟩).qtype }).map fun x => (t.infoCode, x))) with
  | none => extra
  | some (code, text) => extra ++ [{ name := str ".", rtype := typeOPT, cls := 4096, ttl := 0, data := .opt 4096 false [.ede code text] }]

private theorem applyEde_eq (ede : Option Ede) (m q : Msg) : applyEde ede m q none = { m with extra := withEde ede q m.extra } := by
  unfold applyEde withEde
  cases ede with
  | none => rfl
  | some t =>
    simp only [Option.getD_none, Option.bind_some]
    cases t.text { id := q.id, question := (q.question.head?.getD ⟨[], 0, 0⟩).name, qclass := (q.question.head?.getD ⟨[], 0, 0⟩).qclass, qtype := (q.question.head?.getD ⟨[], 0, 0⟩).qtype } with
    | none => rfl
    | some text =>
      simp only [Option.map_some]
      unfold Msg.mapEdns Msg.setEdns0
      simp only []
      rw [Edns0.setLast_append _ m.extra _ [] ⟨4096, false, []⟩ (by simp) rfl]
      rfl

/-- C43: the response has exactly the configured records, the answers under the name asked for, and the configured code and truncation flag; with an extended error there is one more
record at the end. -/
theorem static_answers (s : Static) (a n e : List RR) (ha : s.answer = a.map some) (hn : s.ns = n.map some) (he : s.extra = e.map some) (q : Msg) (qu : Question) (qs : List Question) (hq : q.question = qu :: qs) :
    ∃ m x, resolve s q = some (.ok m) ∧ Answers q m s.rcode s.truncate (a.map fun rr => { rr with name := qu.name }) n (e ++ x) ∧
      ((s.ede = none ∨ ∃ t, s.ede = some t ∧ t.text { id := q.id, question := qu.name, qclass := qu.qclass, qtype := qu.qtype } = none) → x = []) ∧
      ∀ t text, s.ede = some t → t.text { id := q.id, question := qu.name, qclass := qu.qclass, qtype := qu.qtype } = some text →
        x = [{ name := str ".", rtype := typeOPT, cls := 4096, ttl := 0, data := .opt 4096 false [.ede t.infoCode text] }] := by
  unfold resolve
  rw [ha, hn, he, copy_some, copy_some, copy_some]
  simp only [Option.bind_eq_bind, Option.bind_some, Option.pure_def, applyEde_eq]
  have hx : ∃ x, withEde s.ede q e = e ++ x ∧ ((s.ede = none ∨ ∃ t, s.ede = some t ∧ t.text { id := q.id, question := qu.name, qclass := qu.qclass, qtype := qu.qtype } = none) → x = []) ∧
      ∀ t text, s.ede = some t → t.text { id := q.id, question := qu.name, qclass := qu.qclass, qtype := qu.qtype } = some text →
        x = [{ name := str ".", rtype := typeOPT, cls := 4096, ttl := 0, data := .opt 4096 false [.ede t.infoCode text] }] := by
    unfold withEde
    simp only [hq, List.head?_cons, Option.getD_some]
    cases hd : s.ede with
    | none => exact ⟨[], by simp, fun _ => rfl, fun t text h => by simp at h⟩
    | some t =>
      simp only [Option.bind_some]
      cases ht : t.text { id := q.id, question := qu.name, qclass := qu.qclass, qtype := qu.qtype } with
      | none => refine ⟨[], by simp, fun _ => rfl, ?_⟩; intro t' text h1 h2; simp only [Option.some.injEq] at h1; rw [← h1, ht] at h2; simp at h2
      | some text =>
        refine ⟨_, rfl, ?_, ?_⟩
        · rintro (h | ⟨t', h1, h2⟩)
          · simp at h
          · simp only [Option.some.injEq] at h1; rw [← h1, ht] at h2; simp at h2
        · intro t' text' h1 h2
          simp only [Option.some.injEq] at h1
          rw [← h1, ht] at h2
          simp only [Option.some.injEq] at h2
          rw [← h1, h2]
  obtain ⟨x, h1, h2, h3⟩ := hx
  refine ⟨_, x, rfl, ?_, h2, h3⟩
  constructor <;> simp [setReply, qName, hq, h1]

/-- Finding: with a text without a record among the configured ones (empty, or a comment) every query panics. -/
theorem static_blank_panics (s : Static) (h : none ∈ s.answer ∨ none ∈ s.ns ∨ none ∈ s.extra) (q : Msg) : resolve s q = none := by
  unfold resolve
  simp only [Option.bind_eq_bind]
  cases ha : copyRRs s.answer with
  | none => rfl
  | some a =>
    cases hn : copyRRs s.ns with
    | none => rfl
    | some n =>
      rcases h with h | h | h
      · rw [copy_none _ h] at ha; simp at ha
      · rw [copy_none _ h] at hn; simp at hn
      · rw [copy_none _ h]; rfl

/-- C43, templates: every section has the records that can be made, in order; others are left out. -/
theorem template_answers (newRR : Str → Option (Option RR)) (t : Template) (q : Msg) (qu : Question) (qs : List Question) (hq : q.question = qu :: qs)
    (hblank : ∀ f i x, (f ∈ t.answer ∨ f ∈ t.ns ∨ f ∈ t.extra) → f i = some x → newRR x ≠ some none) (hede : t.ede = none) :
    let make := fun (fs : List (TemplateInput → Option Str)) => fs.filterMap fun f => ((f { id := q.id, question := qu.name, qclass := qu.qclass, qtype := qu.qtype }).bind newRR).join
    ∃ m, resolveTemplate newRR t q = some (.ok m) ∧ Answers q m t.rcode t.truncate (make t.answer) (make t.ns) (make t.extra) := by
  intro make
  have hc : ∀ (fs : List (TemplateInput → Option Str)), (∀ f, f ∈ fs → f ∈ t.answer ∨ f ∈ t.ns ∨ f ∈ t.extra) → copyRRs (process newRR q fs) = some (make fs) := by
    intro fs
    unfold process
    simp only [hq, List.head?_cons, Option.getD_some]
    induction fs with
    | nil => intro _; rfl
    | cons f fs ih =>
      intro h
      have ih := ih (fun x hx => h x (by simp [hx]))
      show copyRRs (List.filterMap _ (f :: fs)) = some (List.filterMap _ (f :: fs))
      rw [List.filterMap_cons, List.filterMap_cons]
      cases hf : f { id := q.id, question := qu.name, qclass := qu.qclass, qtype := qu.qtype } with
      | none => exact ih
      | some x =>
        simp only [Option.bind_some]
        cases hr : newRR x with
        | none => exact ih
        | some o =>
          cases o with
          | none => exact absurd hr (hblank f _ x (h f (by simp)) hf)
          | some rr =>
            simp only [Option.join_some, copyRRs]
            rw [ih]; rfl
  unfold resolveTemplate
  rw [hc _ (fun f h => .inl h), hc _ (fun f h => .inr (.inl h)), hc _ (fun f h => .inr (.inr h))]
  simp only [Option.bind_eq_bind, Option.bind_some, Option.pure_def, hede]
  refine ⟨_, rfl, ?_⟩
  constructor <;> simp [setReply, applyEde]

/-! ### Records are never shared between responses -/

private theorem copyAll_eq : ∀ (as : List Nat) (mem : Mem) (vals : List RR), at' mem as = vals.map some → copyAll mem as = (mem ++ vals, List.range' mem.length vals.length)
  | [], mem, vals, h => by
    have : vals = [] := by unfold at' at h; cases vals <;> simp_all
    subst this; simp [copyAll]
  | a :: as, mem, vals, h => by
    cases vals with
    | nil => simp [at'] at h
    | cons v vs =>
      have h' := h
      unfold at' at h'
      simp only [List.map_cons, List.cons.injEq] at h'
      have hlt : ∀ x, x ∈ as → x < mem.length := by
        intro x hx
        have : mem[x]? ∈ as.map (fun a => mem[a]?) := List.mem_map.mpr ⟨x, hx, rfl⟩
        rw [h'.2] at this
        obtain ⟨w, _, hw⟩ := List.mem_map.mp this
        exact (List.getElem?_eq_some_iff.mp hw.symm).1
      have ih := copyAll_eq as (mem ++ [v]) vs (by
        unfold at'
        rw [← h'.2]
        apply List.map_congr_left
        intro x hx
        rw [List.getElem?_append_left (hlt x hx)])
      unfold copyAll
      rw [h'.1]
      simp only [ih]
      simp [List.range'_succ]

private theorem setNames_eq (name : Str) : ∀ (vals pre post : List RR), setNames name (pre ++ vals ++ post) (List.range' pre.length vals.length) = pre ++ vals.map (fun r => { r with name := name }) ++ post
  | [], pre, post => by simp [setNames]
  | v :: vs, pre, post => by
    rw [List.length_cons, List.range'_succ]
    unfold setNames
    have h1 : (pre ++ v :: vs ++ post)[pre.length]? = some v := by simp
    rw [h1]
    simp only []
    have h2 : (pre ++ v :: vs ++ post).set pre.length { v with name := name } = (pre ++ [{ v with name := name }]) ++ vs ++ post := by simp [List.set_append]
    rw [h2]
    have ih := setNames_eq name vs (pre ++ [{ v with name := name }]) post
    simp only [List.length_append, List.length_singleton] at ih
    rw [ih]
    simp

private structure Inv (A N E : List RR) (s : Sys) : Prop where
  static : at' s.mem s.answer = A.map some ∧ at' s.mem s.ns = N.map some ∧ at' s.mem s.extra = E.map some
  low : ∀ x, x ∈ s.answer ∨ x ∈ s.ns ∨ x ∈ s.extra → x < A.length + N.length + E.length
  size : s.mem.length = (A.length + N.length + E.length) * (s.resps.length + 1)
  resp : ∀ k r, s.resps[k]? = some r → r = Resp.mk (List.range' ((A.length + N.length + E.length) * (k + 1)) A.length) (List.range' ((A.length + N.length + E.length) * (k + 1) + A.length) N.length)
    (List.range' ((A.length + N.length + E.length) * (k + 1) + A.length + N.length) E.length)

private theorem at_append (mem x : Mem) (as : List Nat) (vals : List RR) (h : at' mem as = vals.map some) : at' (mem ++ x) as = vals.map some := by
  unfold at' at h ⊢
  rw [← h]
  apply List.map_congr_left
  intro a ha
  have : mem[a]? ∈ as.map (fun a => mem[a]?) := List.mem_map.mpr ⟨a, ha, rfl⟩
  rw [h] at this
  obtain ⟨w, _, hw⟩ := List.mem_map.mp this
  rw [List.getElem?_append_left (List.getElem?_eq_some_iff.mp hw.symm).1]

private theorem makeResp_eq (A N E : List RR) (s : Sys) (hi : Inv A N E s) (name : Str) :
    makeResp s name = (s.mem ++ A.map (fun r => { r with name := name }) ++ N ++ E,
      ⟨List.range' s.mem.length A.length, List.range' (s.mem.length + A.length) N.length, List.range' (s.mem.length + A.length + N.length) E.length⟩) := by
  obtain ⟨h1, h2, h3⟩ := hi.static
  unfold makeResp
  rw [copyAll_eq _ _ _ h1]
  simp only []
  rw [copyAll_eq _ _ _ (at_append _ A _ _ h2)]
  simp only []
  rw [copyAll_eq _ _ _ (at_append _ N _ _ (at_append _ A _ _ h3))]
  simp only []
  have := setNames_eq name A s.mem (N ++ E)
  simp only [← List.append_assoc] at this
  rw [this]
  simp [Nat.add_assoc]

private theorem inv_init (A N E : List RR) : Inv A N E (init A N E) := by
  have key : ∀ (pre vals post : List RR), at' (pre ++ vals ++ post) (List.range' pre.length vals.length) = vals.map some := by
    intro pre vals post
    unfold at'
    apply List.ext_getElem
    · simp
    · intro i h1 h2
      simp only [List.getElem_map, List.getElem_range']
      have hi : i < vals.length := by simpa using h1
      rw [List.append_assoc, List.getElem?_append_right (by omega), List.getElem?_append_left (by omega)]
      rw [show pre.length + 1 * i - pre.length = i from by omega]
      simp [hi]
  constructor
  · refine ⟨?_, ?_, ?_⟩
    · have := key [] A (N ++ E); simpa [init, List.append_assoc] using this
    · have := key A N E; simpa [init, List.append_assoc] using this
    · have := key (A ++ N) E []; simpa [init, List.append_assoc] using this
  · intro x hx
    unfold init at hx
    simp only [List.mem_range'_1] at hx
    omega
  · simp [init]; omega
  · intro k r h; simp [init] at h

private theorem step_query (s : Sys) (name : Str) : step s (.query name) = { s with mem := (makeResp s name).1, resps := s.resps ++ [(makeResp s name).2] } := rfl

private theorem step_write (s : Sys) (k i : Nat) (rr : RR) : step s (.write k i rr) = s ∨
    ∃ r a, s.resps[k]? = some r ∧ (r.answer ++ r.ns ++ r.extra)[i]? = some a ∧ step s (.write k i rr) = { s with mem := s.mem.set a rr } := by
  show (match s.resps[k]? with | none => s | some r => match (r.answer ++ r.ns ++ r.extra)[i]? with | none => s | some a => { s with mem := s.mem.set a rr }) = s ∨
    ∃ r a, s.resps[k]? = some r ∧ (r.answer ++ r.ns ++ r.extra)[i]? = some a ∧
      (match s.resps[k]? with | none => s | some r => match (r.answer ++ r.ns ++ r.extra)[i]? with | none => s | some a => { s with mem := s.mem.set a rr }) = { s with mem := s.mem.set a rr }
  cases hr : s.resps[k]? with
  | none => exact .inl rfl
  | some r =>
    cases ha : (r.answer ++ r.ns ++ r.extra)[i]? with
    | none => left; simp only [ha]
    | some a => exact .inr ⟨r, a, rfl, ha, by simp only [ha]⟩

private theorem inv_step (A N E : List RR) (s : Sys) (hi : Inv A N E s) (e : Ev) : Inv A N E (step s e) := by
  cases e with
  | query name =>
    have hm := makeResp_eq A N E s hi name
    rw [step_query, hm]
    simp only []
    obtain ⟨h1, h2, h3⟩ := hi.static
    refine ⟨⟨?_, ?_, ?_⟩, hi.low, ?_, ?_⟩
    · simp only [List.append_assoc]; exact at_append _ _ _ _ h1
    · simp only [List.append_assoc]; exact at_append _ _ _ _ h2
    · simp only [List.append_assoc]; exact at_append _ _ _ _ h3
    · simp only [List.length_append, List.length_map, List.length_singleton, hi.size]
      rw [show s.resps.length + 1 + 1 = (s.resps.length + 1) + 1 from rfl, Nat.mul_add _ (s.resps.length + 1) 1]
      omega
    · intro k r hk
      by_cases hlt : k < s.resps.length
      · rw [List.getElem?_append_left hlt] at hk; exact hi.resp k r hk
      · have hkk : k = s.resps.length := by
          have := (List.getElem?_eq_some_iff.mp hk).1
          simp at this; omega
        subst hkk
        rw [List.getElem?_append_right (Nat.le_refl _)] at hk
        simp at hk
        rw [← hk, hi.size]
  | write k i rr =>
    rcases step_write s k i rr with h | ⟨r, a, hr, ha, h⟩
    · rw [h]; exact hi
    rw [h]
    have hmem := List.mem_of_getElem? ha
    have hge : A.length + N.length + E.length ≤ a := by
      rw [hi.resp k r hr] at hmem
      simp only [List.mem_append, List.mem_range'_1] at hmem
      have : A.length + N.length + E.length ≤ (A.length + N.length + E.length) * (k + 1) := Nat.le_mul_of_pos_right _ (by omega)
      omega
    have hset : ∀ (as : List Nat) (vals : List RR), (∀ x, x ∈ as → x < A.length + N.length + E.length) → at' s.mem as = vals.map some → at' (s.mem.set a rr) as = vals.map some := by
      intro as vals hl h
      rw [← h]
      unfold at'
      apply List.map_congr_left
      intro x hx
      rw [List.getElem?_set_ne (by have := hl x hx; omega)]
    obtain ⟨h1, h2, h3⟩ := hi.static
    exact ⟨⟨hset _ _ (fun x hx => hi.low x (.inl hx)) h1, hset _ _ (fun x hx => hi.low x (.inr (.inl hx))) h2, hset _ _ (fun x hx => hi.low x (.inr (.inr hx))) h3⟩,
      hi.low, by simp [hi.size], hi.resp⟩

private theorem inv_run (A N E : List RR) : ∀ (es : List Ev) (s : Sys), Inv A N E s → Inv A N E (run s es)
  | [], s, h => h
  | e :: es, s, h => inv_run A N E es _ (inv_step A N E s h e)

/-- C43: whatever was asked before, and however those who got the responses changed the records in them, a query gets the configured records. -/
theorem static_fresh (A N E : List RR) (es : List Ev) (name : Str) :
    let s := run (init A N E) es
    let s' := step s (.query name)
    ∃ r, s'.resps = s.resps ++ [r] ∧ at' s'.mem r.answer = A.map (fun rr => some { rr with name := name }) ∧ at' s'.mem r.ns = N.map some ∧ at' s'.mem r.extra = E.map some := by
  intro s s'
  have hi : Inv A N E s := inv_run A N E es _ (inv_init A N E)
  have hm := makeResp_eq A N E s hi name
  have key : ∀ (pre vals post : List RR), at' (pre ++ vals ++ post) (List.range' pre.length vals.length) = vals.map some := by
    intro pre vals post
    unfold at'
    apply List.ext_getElem
    · simp
    · intro i h1 h2
      simp only [List.getElem_map, List.getElem_range']
      have hi : i < vals.length := by simpa using h1
      rw [List.append_assoc, List.getElem?_append_right (by omega), List.getElem?_append_left (by omega)]
      rw [show pre.length + 1 * i - pre.length = i from by omega]
      simp [hi]
  have hs' : s' = { s with mem := s.mem ++ A.map (fun r => { r with name := name }) ++ N ++ E, resps := s.resps ++ [⟨List.range' s.mem.length A.length, List.range' (s.mem.length + A.length) N.length, List.range' (s.mem.length + A.length + N.length) E.length⟩] } := by
    show step s (.query name) = _
    rw [step_query, hm]
  rw [hs']
  refine ⟨_, rfl, ?_, ?_, ?_⟩
  · have := key s.mem (A.map fun r => { r with name := name }) (N ++ E)
    simp only [List.length_map, ← List.append_assoc] at this
    rw [this]; simp
  · have := key (s.mem ++ A.map fun r => { r with name := name }) N E
    simp only [List.length_append, List.length_map] at this
    exact this
  · have := key (s.mem ++ (A.map fun r => { r with name := name }) ++ N) E []
    simp only [List.length_append, List.length_map, List.append_nil] at this
    exact this

/-- C43: a response changes only by writes to it: neither another query nor a write to another response changes what it says. -/
theorem static_isolated (A N E : List RR) (es : List Ev) (j : Nat) (r : Resp) (e : Ev) (hr : (run (init A N E) es).resps[j]? = some r) (hw : ∀ k i rr, e = .write k i rr → k ≠ j) :
    content (step (run (init A N E) es) e) r = content (run (init A N E) es) r ∧ (step (run (init A N E) es) e).resps[j]? = some r := by
  have hi : Inv A N E (run (init A N E) es) := inv_run A N E es _ (inv_init A N E)
  generalize run (init A N E) es = s at hr hi ⊢
  have hlt : j < s.resps.length := (List.getElem?_eq_some_iff.mp hr).1
  have hmul : ∀ (n a b : Nat), a ≤ b → n * a ≤ n * b := fun n a b h => Nat.mul_le_mul_left n h
  cases e with
  | query name =>
    rw [step_query, makeResp_eq A N E s hi name]
    simp only []
    refine ⟨?_, by rw [List.getElem?_append_left hlt]; exact hr⟩
    unfold content at'
    apply List.map_congr_left
    intro x hx
    rw [hi.resp j r hr] at hx
    simp only [List.mem_append, List.mem_range'_1] at hx
    have h1 := hmul (A.length + N.length + E.length) (j + 1 + 1) (s.resps.length + 1) (by omega)
    rw [Nat.mul_add _ (j + 1) 1] at h1
    have h2 := hi.size
    simp only [List.append_assoc]
    rw [List.getElem?_append_left (by omega)]
  | write k i rr =>
    have hk := hw k i rr rfl
    rcases step_write s k i rr with h | ⟨r', a, hrk, ha, h⟩
    · rw [h]; exact ⟨rfl, hr⟩
    rw [h]
    refine ⟨?_, hr⟩
    unfold content at'
    apply List.map_congr_left
    intro x hx
    have hmem := List.mem_of_getElem? ha
    rw [hi.resp j r hr] at hx
    rw [hi.resp k r' hrk] at hmem
    simp only [List.mem_append, List.mem_range'_1] at hx hmem
    rw [List.getElem?_set_ne]
    rcases Nat.lt_or_gt_of_ne hk with h | h
    · have h1 := hmul (A.length + N.length + E.length) (k + 1 + 1) (j + 1) (by omega)
      rw [Nat.mul_add _ (k + 1) 1] at h1
      omega
    · have h1 := hmul (A.length + N.length + E.length) (j + 1 + 1) (k + 1) (by omega)
      rw [Nat.mul_add _ (j + 1) 1] at h1
      omega

private def exA : RR := ⟨str "x.", 1, 1, 60, .a [1, 2, 3, 4]⟩
private def exN : RR := ⟨str "z.", 2, 1, 60, .ns (str "n.")⟩
private def exS : Static := { answer := [some exA], ns := [some exN], rcode := 0, ede := some ⟨4, fun i => some i.question⟩ }
private def exM : Msg :=
  { id := 9, response := true, ra := true, aa := true, question := [⟨str "q.", 1, 1⟩], answer := [⟨str "q.", 1, 1, 60, .a [1, 2, 3, 4]⟩], ns := [exN]
    extra := [⟨str ".", 41, 4096, 0, .opt 4096 false [.ede 4 (str "q.")]⟩] }
example : resolve exS { id := 9, question := [⟨str "q.", 1, 1⟩] } = some (.ok exM) ∧
    content (run (init [exA] [exN] []) [.query (str "a."), .write 0 0 exN, .query (str "b."), .write 1 1 exA]) ⟨[2], [3], []⟩ = [some exN, some exN] ∧
    (run (init [exA] [exN] []) [.query (str "a."), .write 0 0 exN, .query (str "b."), .write 1 1 exA]).resps = [⟨[2], [3], []⟩, ⟨[4], [5], []⟩] := by decide +kernel

/-! ### Replacement -/

/-- C44: if the expressions do not change the name, the query is passed on as it is and so is the result. -/
theorem replace_unchanged (exps : List (Str → Str)) (up : Msg → Res) (q : Msg) (qu : Question) (rest : List Question) (hq : q.question = qu :: rest) (h : apply exps qu.name = qu.name) :
    resolveReplace exps up q = some (up q) := by
  unfold resolveReplace
  rw [hq]
  simp only []
  rw [if_pos h]

/-- C44: otherwise the query with the new name and no other change is passed on; an error or no response is passed back; in the response the old name is put back into the question and
into the answers with the new name, and nothing else is changed. -/
theorem replace_undone (exps : List (Str → Str)) (up : Msg → Res) (q : Msg) (qu : Question) (rest : List Question) (hq : q.question = qu :: rest) (new : Str) (hn : apply exps qu.name = new) (h : new ≠ qu.name) :
    (∀ m e, up { q with question := { qu with name := new } :: rest } = ⟨m, some e⟩ → resolveReplace exps up q = some (.fail e)) ∧
    (up { q with question := { qu with name := new } :: rest } = .drop → resolveReplace exps up q = some .drop) ∧
    ∀ a, up { q with question := { qu with name := new } :: rest } = .ok a → ∃ a', resolveReplace exps up q = some (.ok a') ∧
      a' = { a with question := a'.question, answer := a'.answer } ∧
      (∀ x xs, a.question = x :: xs → a'.question = { x with name := qu.name } :: xs) ∧ (a.question = [] → a'.question = []) ∧
      a'.answer.length = a.answer.length ∧
      ∀ (i : Nat) (rr : RR), a.answer[i]? = some rr → (rr.name = new → a'.answer[i]? = some { rr with name := qu.name }) ∧ (rr.name ≠ new → a'.answer[i]? = some rr) := by
  subst hn
  unfold resolveReplace
  rw [hq]
  simp only []
  rw [if_neg h]
  refine ⟨?_, ?_, ?_⟩
  · intro m e hu; rw [hu]
  · intro hu; rw [hu]; rfl
  · intro a hu
    rw [hu]
    refine ⟨_, rfl, rfl, ?_, ?_, by simp, ?_⟩
    · intro x xs hx; simp [hx]
    · intro hx; simp [hx]
    · intro i rr hi
      simp only [List.getElem?_map, hi, Option.map_some]
      exact ⟨fun hr => by rw [if_pos hr], fun hr => by rw [if_neg hr]⟩

/-- C44: the expressions are applied one after the other, in order. -/
theorem replace_order (f : Str → Str) (exps : List (Str → Str)) (name : Str) : apply [] name = name ∧ apply (f :: exps) name = apply exps (f name) := ⟨rfl, rfl⟩

/-- Finding: a response that has the new name in another case keeps it, although names are the same in any case: the client sees a record for a name it did not ask for. -/
theorem replace_case : ∃ (exps : List (Str → Str)) (up : Msg → Res) (q : Msg) (a : Msg), resolveReplace exps up q = some (.ok a) ∧ q.question = [⟨str "x.lan.", 1, 1⟩] ∧
    a.answer = [⟨str "x.example.", 1, 1, 60, .a [1, 2, 3, 4]⟩] ∧ a.question = q.question :=
  ⟨[fun n => if n = str "x.lan." then str "X.example." else n], fun m => .ok { question := m.question, answer := [⟨str "x.example.", 1, 1, 60, .a [1, 2, 3, 4]⟩] },
    { question := [⟨str "x.lan.", 1, 1⟩] }, { question := [⟨str "x.lan.", 1, 1⟩], answer := [⟨str "x.example.", 1, 1, 60, .a [1, 2, 3, 4]⟩] }, by decide +kernel, by decide +kernel, by decide +kernel, by decide +kernel⟩

private def exUp : Msg → Res := fun m => .ok { id := m.id, question := m.question, answer := (m.question.map fun x => ⟨x.name, 5, 1, 60, .cname (str "t.")⟩) ++ [⟨str "t.", 1, 1, 60, .a [1, 2, 3, 4]⟩] }
example : resolveReplace [fun n => if n = str "x.lan." then str "x.example." else n] exUp { id := 4, question := [⟨str "x.lan.", 1, 1⟩] } =
    some (.ok { id := 4, question := [⟨str "x.lan.", 1, 1⟩], answer := [⟨str "x.lan.", 5, 1, 60, .cname (str "t.")⟩, ⟨str "t.", 1, 1, 60, .a [1, 2, 3, 4]⟩] }) := by decide +kernel

/-! ### Logging -/

private theorem lines_get (n : Nat) : ∀ (rrs : List RR) (k i : Nat), (answerLines n k rrs)[i]? = (rrs[i]?).map fun rr => .answer (k + i + 1) n rr
  | [], k, i => by simp [answerLines]
  | r :: rrs, k, i => by
    cases i with
    | zero => simp [answerLines]
    | succ i => simp only [answerLines, List.getElem?_cons_succ]; rw [lines_get n rrs (k + 1) i]; congr 1; funext rr; congr 1; omega

/-- C64: the syslog element never changes the query or the result. -/
theorem syslog_transparent (o : SyslogOptions) (connected : Bool) (up : Msg → Res) (q : Msg) (hq : q.question ≠ []) : ∃ lines, resolveSyslog o connected up q = some (up q, lines) := by
  obtain ⟨qu, rest, hq⟩ := List.exists_cons_of_ne_nil hq
  unfold resolveSyslog
  rw [hq]
  cases connected with
  | false => exact ⟨_, rfl⟩
  | true =>
    simp only [Bool.not_true, Bool.false_eq_true, if_false]
    cases up q with
    | mk m e =>
      cases m with
      | none => cases e <;> exact ⟨_, rfl⟩
      | some a =>
        cases e with
        | some e => exact ⟨_, rfl⟩
        | none =>
          simp only []
          cases o.logResponse <;> cases o.verbose <;> cases a.answer <;> simp <;> split <;> exact ⟨_, rfl⟩

/-- C64: for a successful response there is one line per record of the type asked for (or per record), numbered from 1 and with the total, in order; if there is none, one line that says so. -/
theorem syslog_lines (o : SyslogOptions) (up : Msg → Res) (q : Msg) (qu : Question) (rest : List Question) (hq : q.question = qu :: rest) (a : Msg) (hu : up q = .ok a) (hc : a.rcode = rcodeSuccess) (hr : o.logResponse = true) :
    ∃ lines, resolveSyslog o true up q = some (up q, (if o.logRequest then [Line.query] else []) ++ lines) ∧
      let shown := if o.verbose then a.answer else a.answer.filter fun rr => rr.rtype = qu.qtype
      (shown = [] → lines = [.nodata]) ∧ (shown ≠ [] → lines.length = shown.length ∧ ∀ (i : Nat) (rr : RR), shown[i]? = some rr → lines[i]? = some (.answer (i + 1) shown.length rr)) := by
  have hrr : ∀ (shown : List RR), (shown = [] → (answerLines shown.length 0 shown ++ if shown = [] then [Line.nodata] else []) = [.nodata]) ∧
      (shown ≠ [] → (answerLines shown.length 0 shown ++ if shown = [] then [Line.nodata] else []).length = shown.length ∧
        ∀ (i : Nat) (rr : RR), shown[i]? = some rr → (answerLines shown.length 0 shown ++ if shown = [] then [Line.nodata] else [])[i]? = some (.answer (i + 1) shown.length rr)) := by
    intro shown
    constructor
    · rintro rfl; rfl
    · intro hne
      rw [if_neg hne, List.append_nil]
      have hlen : ∀ (n k : Nat) (l : List RR), (answerLines n k l).length = l.length := by
        intro n k l
        induction l generalizing k with
        | nil => rfl
        | cons x xs ih => simp [answerLines, ih]
      refine ⟨hlen _ _ _, ?_⟩
      intro i rr hi
      rw [lines_get, hi]; simp
  unfold resolveSyslog
  simp only [hu, hr, Res.ok, Bool.not_true, Bool.false_eq_true, if_false, hc, if_true]
  cases hv : o.verbose with
  | true =>
    simp only [if_true, Option.map_some]
    exact ⟨_, by rw [List.append_assoc], hrr a.answer⟩
  | false =>
    simp only [Bool.false_eq_true, if_false, hq]
    refine ⟨_, ?_, hrr _⟩
    rw [← List.append_assoc]
    cases a.answer <;> rfl

example : resolveSyslog { logRequest := true, logResponse := true } true exUp { id := 4, question := [⟨str "x.", 1, 1⟩] } =
    some (exUp { id := 4, question := [⟨str "x.", 1, 1⟩] }, [.query, .answer 1 1 ⟨str "t.", 1, 1, 60, .a [1, 2, 3, 4]⟩]) := by decide +kernel

/-- C64: the query log passes the query and the result unchanged and logs the question and the client subnets in the query, in order. -/
theorem querylog_transparent (up : Msg → Res) (q : Msg) (qu : Question) (rest : List Question) (hq : q.question = qu :: rest) :
    ∃ l, resolveQueryLog up q = some (up q, l) ∧ l.name = qu.name ∧ l.qclass = qu.qclass ∧ l.qtype = qu.qtype ∧
      (q.edns? = none → l.ecs = []) ∧ ∀ e, q.edns? = some e → l.ecs = e.options.flatMap fun o => match o with | .ecs _ _ _ addr => [addr] | _ => [] := by
  unfold resolveQueryLog
  rw [hq]
  refine ⟨_, rfl, rfl, rfl, rfl, ?_, ?_⟩
  · intro h; simp only [h]
  · intro e h
    simp only [h]
    induction e.options with
    | nil => rfl
    | cons o os ih => cases o <;> simp_all [List.filterMap_cons]

end Verif.Props.Static
