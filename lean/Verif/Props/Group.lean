/-
C12 - C16: fail-rotate, fail-back, round-robin and random groups.
-/
import Verif.Model.Group
import Verif.Spec.Group
set_option linter.unusedVariables false
namespace Verif.Props.Group
open Verif Verif.Group Verif.Spec.Group

/-! ### C77: what counts as a failure -/

private theorem heldBack_iff (a : Msg) : deliberatelyEmpty a = true ↔ HeldBack a := by
  unfold deliberatelyEmpty HeldBack
  cases a.edns? with
  | none => simp
  | some e =>
    simp only [List.any_eq_true, Option.some.injEq, exists_eq_left']
    constructor
    · rintro ⟨o, ho, h⟩
      split at h
      · rename_i c t
        exact ⟨c, t, ho, by simpa [or_assoc] using h⟩
      · cases h
    · rintro ⟨c, t, ho, h⟩
      exact ⟨_, ho, by simpa [or_assoc] using h⟩

private theorem single_iff (r : RR) (rs : List RR) : (rs.isEmpty && r.rtype = typeHINFO) = true ↔ ∃ rr, r :: rs = [rr] ∧ rr.rtype = 13 := by
  constructor
  · intro h
    simp only [Bool.and_eq_true, List.isEmpty_iff, decide_eq_true_eq] at h
    exact ⟨r, by rw [h.1], h.2⟩
  · rintro ⟨rr, h, h13⟩
    simp only [List.cons.injEq] at h
    obtain ⟨rfl, rfl⟩ := h
    simpa using h13

/-- C77: a member is taken to have failed in exactly the cases of `Fails`. -/
theorem failure_iff (servfailError emptyError : Bool) (r : Res) : succeeded servfailError emptyError r = false ↔ Fails servfailError emptyError r := by
  have h2 : rcodeServerFailure = 2 := rfl
  have h5 : rcodeRefused = 5 := rfl
  have h4 : rcodeNotImplemented = 4 := rfl
  obtain ⟨msg, err⟩ := r
  cases err with
  | some e => simp only [succeeded, Option.isNone_some, Bool.false_and, true_iff]; exact .error (by simp)
  | none =>
    simp only [succeeded, Option.isNone_none, Bool.true_and]
    cases msg with
    | none =>
      simp only [isSuccessResponse, Bool.true_eq_false, false_iff]
      rintro (h | ⟨_, h⟩ | ⟨_, h⟩ | ⟨_, h⟩)
      · exact h rfl
      all_goals cases h
    | some a =>
      by_cases hc : (a.rcode = rcodeServerFailure ∧ servfailError) ∨ a.rcode = rcodeRefused ∨ a.rcode = rcodeNotImplemented
      · rw [isSuccessResponse, if_pos hc]
        simp only [true_iff]
        rcases hc with ⟨h, hs⟩ | h | h
        · exact .servfail a rfl hs h
        · exact .refused a rfl (.inl h)
        · exact .refused a rfl (.inr h)
      · rw [isSuccessResponse, if_neg hc]
        by_cases he : emptyError = true
        · rw [if_neg (by simpa using he)]
          have key : ∀ (b : Bool), (b = false ↔ ¬ Useful a ∧ ¬ ((a.answer = [] ∨ a.question = []) ∧ HeldBack a)) →
              (b = false ↔ Fails servfailError emptyError ⟨some a, none⟩) := by
            intro b hb
            rw [hb]
            constructor
            · rintro ⟨h1, h2⟩; exact .empty a rfl he h1 h2
            · rintro (h | ⟨_, h, hx⟩ | ⟨_, h, hs, hx⟩ | ⟨_, h, _, h3, h4⟩)
              · exact absurd rfl h
              · cases h
                refine absurd ?_ hc
                rcases hx with h | h
                · exact .inr (.inl h)
                · exact .inr (.inr h)
              · cases h; exact absurd (.inl ⟨hx, hs⟩) hc
              · cases h; exact ⟨h3, h4⟩
          refine key _ ?_
          cases ha : a.answer with
          | nil =>
            dsimp only
            rw [← Bool.not_eq_true, heldBack_iff]
            simp only [Useful, ha, true_or, true_and]
            constructor
            · intro h; exact ⟨by simp, h⟩
            · exact fun h => h.2
          | cons x xs =>
            cases hq : a.question with
            | nil =>
              dsimp only
              rw [← Bool.not_eq_true, heldBack_iff]
              simp only [Useful, hq, or_true, true_and]
              exact ⟨fun h => ⟨by simp, h⟩, fun h => h.2⟩
            | cons qu qs =>
              dsimp only
              have hu : Useful a ↔ (∃ rr, rr ∈ x :: xs ∧ rr.rtype = qu.qtype) ∨ (qu.qtype = 255 ∧ ¬ ∃ rr, x :: xs = [rr] ∧ rr.rtype = 13) := by
                simp [Useful, hq, ha]
              have hany : (x :: xs).any (fun y => decide (y.rtype = qu.qtype)) = true ↔ ∃ rr, rr ∈ x :: xs ∧ rr.rtype = qu.qtype := by simp
              simp only [reduceCtorEq, or_self, false_and, not_false_eq_true, and_true]
              rw [hu, ← hany, ← single_iff]
              have ht : typeANY = 255 := rfl
              by_cases h1 : (x :: xs).any (fun y => decide (y.rtype = qu.qtype)) = true
              · rw [if_pos h1]; simp [h1]
              · rw [if_neg h1]
                by_cases h3 : qu.qtype = typeANY
                · rw [if_pos h3]
                  rw [ht] at h3
                  generalize (x :: xs).any (fun y => decide (y.rtype = qu.qtype)) = b at h1 ⊢
                  generalize (xs.isEmpty && decide (x.rtype = typeHINFO)) = c
                  cases b <;> cases c <;> simp_all
                · rw [if_neg h3]
                  rw [ht] at h3
                  simp [h1, h3]
        · rw [if_pos (by simpa using he)]
          simp only [Bool.true_eq_false, false_iff]
          rintro (h | ⟨_, h, hx⟩ | ⟨_, h, hs, hx⟩ | ⟨_, h, he', _⟩)
          · exact h rfl
          · cases h
            refine absurd ?_ hc
            rcases hx with h | h
            · exact .inr (.inl h)
            · exact .inr (.inr h)
          · cases h; exact absurd (.inl ⟨hx, hs⟩) hc
          · exact he he'

/-- A blocked answer is a success, and so is a drop; an alias that leads nowhere is a failure. -/
example : let q : List Question := [⟨str "a.", 1, 1⟩]
    let blocked : List RR := [{ name := str ".", rtype := typeOPT, cls := 4096, ttl := 0, data := .opt 4096 false [.ede 17 []] }]
    succeeded true true (.ok { question := q, rcode := 3, extra := blocked }) = true ∧ succeeded true true .drop = true ∧
    succeeded true true (.ok { question := q, rcode := 3 }) = false ∧ succeeded true false (.ok { question := q, rcode := 3 }) = true ∧
    succeeded true true (.ok { question := q, answer := [{ name := str "a.", rtype := 5, cls := 1, ttl := 9, data := .cname (str "b.") }] }) = false ∧
    succeeded false false (.ok { question := q, rcode := 2 }) = true := by decide +kernel

/-- Finding (C77): the manual says that responses with the codes Blocked, Censored and Filtered are successes; but if there is an answer section with other records
than asked for, such as an alias whose target is blocked, they are failures. -/
theorem blocked_alias_fails : ∃ a : Msg, HeldBack a ∧ succeeded true true (.ok a) = false :=
  ⟨{ question := [⟨str "a.", 1, 1⟩], answer := [{ name := str "a.", rtype := 5, cls := 1, ttl := 9, data := .cname (str "b.") }],
     extra := [{ name := str ".", rtype := typeOPT, cls := 4096, ttl := 0, data := .opt 4096 false [.ede 17 []] }] },
    ⟨⟨4096, false, [.ede 17 []]⟩, by decide +kernel, 17, [], by simp⟩, by decide +kernel⟩

/-! ### C12: fail-rotate without interference -/

private theorem cyc_succ (n a : Nat) (k : Nat) :
    (List.range k).map (fun i => ((a + 1) % n + i) % n) = (List.range k).map (fun i => (a + (i + 1)) % n) := by
  apply List.map_congr_left; intro i _
  rw [Nat.mod_add_mod]; congr 1; omega

theorem loop_spec (n : Nat) (ok : Res → Bool) (beh : Nat → Res) : ∀ (k a : Nat) (last : Res), a < n →
    let out := failRotateLoop n ok beh k a last
    let order := (List.range k).map fun i => (a + i) % n
    Asked (fun m => ok (beh m) = true) order out.2.2 ∧
    ((∃ m, out.2.2.getLast? = some m ∧ ok (beh m) = true ∧ out.1 = beh m ∧ out.2.1 = m) ∨
     ((∀ m, m ∈ order → ok (beh m) = false) ∧ out.2.2 = order ∧
       out.1 = (match order.getLast? with | some m => beh m | none => last) ∧ out.2.1 = (a + k) % n)) := by
  intro k
  induction k with
  | zero =>
    intro a last ha
    simp [failRotateLoop, Asked.nil, Nat.mod_eq_of_lt ha]
  | succ k ih =>
    intro a last ha
    have hord : (List.range (k+1)).map (fun i => (a + i) % n)
        = a :: (List.range k).map (fun i => ((a + 1) % n + i) % n) := by
      rw [cyc_succ, List.range_succ_eq_map]; simp [Nat.mod_eq_of_lt ha]
    have h := ih ((a + 1) % n) (beh a) (Nat.mod_lt _ (by omega))
    simp only [hord]
    simp only [failRotateLoop]
    by_cases hok : ok (beh a) = true
    · rw [if_pos hok]
      exact ⟨.hit hok, .inl ⟨a, rfl, hok, rfl, rfl⟩⟩
    · rw [if_neg hok]
      simp only at h ⊢
      obtain ⟨h1, h2⟩ := h
      refine ⟨.miss hok h1, ?_⟩
      rcases h2 with ⟨m, hm, hm2, hm3, hm4⟩ | ⟨h3, h4, h5, h6⟩
      · left
        refine ⟨m, ?_, hm2, hm3, hm4⟩
        rw [List.getLast?_cons, hm]; rfl
      · right
        refine ⟨?_, by rw [h4], ?_, ?_⟩
        · intro m hm
          rcases List.mem_cons.mp hm with h | h
          · rw [h]; simpa using hok
          · exact h3 m h
        · rw [h5, List.getLast?_cons]
          cases (List.map (fun i => ((a + 1) % n + i) % n) (List.range k)).getLast? <;> rfl
        · rw [h6, Nat.mod_add_mod]; congr 1; omega

/-- C12: with no interference, fail-rotate asks the members cyclically from the active one, stopping at the first success, whose
reply it returns and which is active afterwards; otherwise every member failed, the reply is that of the member
asked last and the same member is active as before. -/
theorem failrotate_sequential (n : Nat) (ok : Res → Bool) (beh : Nat → Res) (a : Nat) (ha : a < n) :
    let out := failRotate n ok beh a
    Asked (fun m => ok (beh m) = true) (cyclic n a) out.2.2 ∧
    ((∃ m, out.2.2.getLast? = some m ∧ ok (beh m) = true ∧ out.1 = beh m ∧ out.2.1 = m) ∨
     ((∀ m, m < n → ok (beh m) = false) ∧ out.2.2 = cyclic n a ∧
       out.1 = beh ((a + (n - 1)) % n) ∧ out.2.1 = a)) := by
  obtain ⟨h1, h2⟩ := loop_spec n ok beh n a Res.drop ha
  refine ⟨h1, ?_⟩
  rcases h2 with h2 | ⟨h3, h4, h5, h6⟩
  · exact .inl h2
  · right
    refine ⟨?_, h4, ?_, ?_⟩
    · intro m hm
      apply h3
      refine List.mem_map.mpr ⟨(m + n - a) % n, List.mem_range.mpr (Nat.mod_lt _ (by omega)), ?_⟩
      rw [Nat.add_mod_mod, show a + (m + n - a) = m + n by omega, Nat.add_mod_right, Nat.mod_eq_of_lt hm]
    · have : ∃ k, n = k + 1 := ⟨n - 1, by omega⟩
      obtain ⟨k, rfl⟩ := this
      simp only [failRotate]
      rw [h5, List.range_succ, List.map_append, List.map_singleton, List.getLast?_concat]; rfl
    · show (failRotate n ok beh a).2.1 = a
      simp only [failRotate]
      rw [h6, Nat.add_mod_right, Nat.mod_eq_of_lt ha]

/-- C12: so a good answer is returned whenever some member would give one. -/
theorem failrotate_complete (n : Nat) (ok : Res → Bool) (beh : Nat → Res) (a : Nat) (ha : a < n)
    (g : Nat) (hg : g < n) (hok : ok (beh g) = true) : ok (failRotate n ok beh a).1 = true := by
  rcases (failrotate_sequential n ok beh a ha).2 with ⟨m, _, h, h2, _⟩ | ⟨h, _⟩
  · rw [h2]; exact h
  · rw [h g hg] at hok; cases hok

/-- Three members, the second active: it and the third fail, the first answers. -/
example : let r : Msg := {}
    failRotate 3 (succeeded true false) (fun m => if m = 0 then .ok r else if m = 1 then .fail "timeout" else .ok { r with rcode := 5 }) 1
      = (.ok r, 0, [1, 2, 0]) := by decide

/-! ### C13: interleavings of fail-rotate -/

/-- Member `g` replies with success whenever it is asked in this run. -/
def Rotate.Good (n : Nat) (ok : Res → Bool) (g : Nat) : Rotate.Sys → List Rotate.Ev → Prop
  | _, [] => True
  | s, e :: es =>
    (∀ k r i, e = .reply k r → s.queries[k]? = some (.calling i g) → ok r = true) ∧
    ∀ s', Rotate.step n ok s e = some s' → Rotate.Good n ok g s' es

/-- how far the active member has to move to get to `g` -/
private def dist (n g a : Nat) : Nat := if a ≤ g then g - a else g + n - a

private theorem dist_lt {n g a : Nat} (hg : g < n) (ha : a < n) : dist n g a < n := by
  unfold dist; split <;> omega

private theorem dist_zero {n g a : Nat} (hg : g < n) (ha : a < n) : dist n g a = 0 ↔ a = g := by
  unfold dist; split <;> omega

private theorem dist_inj {n g a b : Nat} (hg : g < n) (ha : a < n) (hb : b < n) : dist n g a = dist n g b → a = b := by
  unfold dist; split <;> split <;> omega

private theorem succ_mod {n a : Nat} (ha : a < n) : (a + 1) % n = if a + 1 = n then 0 else a + 1 := by
  split
  · next h => rw [h, Nat.mod_self]
  · exact Nat.mod_eq_of_lt (by omega)

private theorem dist_succ {n g a : Nat} (hg : g < n) (ha : a < n) (h : a ≠ g) :
    dist n g ((a + 1) % n) + 1 = dist n g a := by
  rw [succ_mod ha]; unfold dist; split <;> split <;> split <;> omega

/-- Bounds on the attempt counter and on indices. -/
private def PhaseOk (n : Nat) : Phase → Prop
  | .idle i _ => i < n
  | .calling i m => i < n ∧ m < n
  | .failed i m _ => i < n ∧ m < n
  | .sending i _ => i < n
  | .done _ => True

private theorem nextAttempt_ok (n i : Nat) (r : Res) : PhaseOk n (nextAttempt n i r) := by
  unfold nextAttempt; split
  · assumption
  · trivial

private theorem mem_set {α} {l : List α} {k : Nat} {x y : α} (h : y ∈ l.set k x) : y = x ∨ y ∈ l := by
  rcases List.mem_or_eq_of_mem_set h with h | h
  · exact .inr h
  · exact .inl h

private theorem mem_of_get {α} {l : List α} {k : Nat} {x : α} (h : l[k]? = some x) : x ∈ l :=
  List.mem_of_getElem? h

namespace Rotate
open Verif.Group.Rotate

private def Inv (n : Nat) (s : Sys) : Prop := (0 < n → s.active < n) ∧ ∀ p, p ∈ s.queries → PhaseOk n p

private theorem inv_step {n : Nat} {ok : Res → Bool} {s s' : Sys} {e : Ev} (h : Inv n s)
    (hs : step n ok s e = some s') : Inv n s' := by
  obtain ⟨ha, hq⟩ := h
  cases e with
  | start =>
    simp only [step, Option.some.injEq] at hs; subst hs
    refine ⟨ha, ?_⟩
    intro p hp
    rcases List.mem_append.mp hp with hp | hp
    · exact hq p hp
    · rw [List.mem_singleton] at hp; subst hp
      split
      · assumption
      · trivial
  | current k =>
    simp only [step] at hs; split at hs
    · next i l hk =>
      simp only [Option.some.injEq] at hs; subst hs
      have : i < n := hq _ (mem_of_get hk)
      refine ⟨ha, fun p hp => ?_⟩
      rcases mem_set hp with rfl | hp
      · exact ⟨this, ha (by omega)⟩
      · exact hq p hp
    · cases hs
  | reply k r =>
    simp only [step] at hs; split at hs
    · next i m hk =>
      simp only [Option.some.injEq] at hs; subst hs
      have : i < n ∧ m < n := hq _ (mem_of_get hk)
      refine ⟨ha, fun p hp => ?_⟩
      rcases mem_set hp with rfl | hp
      · split
        · trivial
        · exact this
      · exact hq p hp
    · cases hs
  | report k =>
    simp only [step] at hs; split at hs
    · next i m r hk =>
      simp only [Option.some.injEq] at hs; subst hs
      have : i < n ∧ m < n := hq _ (mem_of_get hk)
      refine ⟨?_, fun p hp => ?_⟩
      · intro hn; show (if m = s.active then (s.active + 1) % n else s.active) < n
        split
        · exact Nat.mod_lt _ hn
        · exact ha hn
      rcases mem_set hp with rfl | hp
      · exact nextAttempt_ok _ _ _
      · exact hq p hp
    · cases hs

private theorem run_inv {n : Nat} {ok : Res → Bool} : ∀ {es : List Ev} {s s' : Sys}, Inv n s →
    run n ok s es = some s' → Inv n s' := by
  intro es
  induction es with
  | nil => intro s s' h hr; simp only [run, Option.some.injEq] at hr; subst hr; exact h
  | cons e es ih =>
    intro s s' h hr
    simp only [run] at hr
    cases hs : step n ok s e with
    | none => rw [hs] at hr; cases hr
    | some s1 => rw [hs] at hr; exact ih (inv_step h hs) hr

/-- number of calls query `k` has made in a run -/
def calls (k : Nat) (es : List Ev) : Nat := (es.filter fun e => match e with | .current j => j == k | _ => false).length

/-- C13: in every interleaving the active member is a member, and a member being asked is one. -/
theorem failrotate_active_valid (n : Nat) (hn : 0 < n) (ok : Res → Bool) (es : List Ev) (s : Sys)
    (h : run n ok ⟨0, []⟩ es = some s) :
    s.active < n ∧ ∀ (k i m : Nat), s.queries[k]? = some (.calling i m) → m < n := by
  have := run_inv (n := n) (s := ⟨0, []⟩) ⟨fun _ => hn, fun p hp => by cases hp⟩ h
  exact ⟨this.1 hn, fun k i m hk => (this.2 _ (mem_of_get hk)).2⟩

/-- attempts a query in this phase has made so far -/
private def made : Phase → Nat → Prop
  | .idle i _, c => c = i
  | .calling i _, c => c = i + 1
  | .failed i _ _, c => c = i + 1
  | .sending i _, c => c = i + 1
  | .done _, _ => True

private theorem calls_append (k : Nat) (a b : List Ev) : calls k (a ++ b) = calls k a + calls k b := by
  simp [calls]

private theorem run_append {n : Nat} {ok : Res → Bool} : ∀ (a b : List Ev) (s : Sys),
    run n ok s (a ++ b) = (run n ok s a).bind fun t => run n ok t b := by
  intro a
  induction a with
  | nil => intro b s; rfl
  | cons e es ih =>
    intro b s
    simp only [List.cons_append, run]
    cases step n ok s e with
    | none => rfl
    | some t => exact ih b t

private def MadeInv (n : Nat) (h : List Ev) (s : Sys) : Prop :=
  (∀ k, s.queries.length ≤ k → calls k h = 0) ∧
  ∀ (k : Nat) p, s.queries[k]? = some p → made p (calls k h) ∧ calls k h ≤ n

private theorem set_get {α} {l : List α} {k j : Nat} {x y : α} (h : (l.set k x)[j]? = some y) :
    (k = j ∧ y = x) ∨ (k ≠ j ∧ l[j]? = some y) := by
  rw [List.getElem?_set] at h
  split at h
  · next hk => subst hk; split at h
               · left; simp only [Option.some.injEq] at h; exact ⟨rfl, h.symm⟩
               · cases h
  · next hk => exact .inr ⟨hk, h⟩

private theorem made_set {n : Nat} {h h' : List Ev} {s : Sys} {k : Nat} {p0 p : Phase} {a : Nat}
    (hI : MadeInv n h s) (hk : s.queries[k]? = some p0)
    (hc : ∀ j, j ≠ k → calls j h' = calls j h) (hm : made p (calls k h')) (hle : calls k h' ≤ n) :
    MadeInv n h' ⟨a, s.queries.set k p⟩ := by
  refine ⟨?_, ?_⟩
  · intro j hj
    simp only [List.length_set] at hj
    have hkl : k < s.queries.length := by
      rcases Nat.lt_or_ge k s.queries.length with h | h
      · exact h
      · rw [List.getElem?_eq_none h] at hk; cases hk
    rw [hc j (by omega)]; exact hI.1 j hj
  · intro j q hj
    rcases set_get hj with ⟨rfl, rfl⟩ | ⟨hne, hj⟩
    · exact ⟨hm, hle⟩
    · rw [hc j (fun e => hne e.symm)]; exact hI.2 j q hj

private theorem made_step {n : Nat} {ok : Res → Bool} {h : List Ev} {s s' : Sys} {e : Ev} (hI : MadeInv n h s) (hP : Inv n s)
    (hs : step n ok s e = some s') : MadeInv n (h ++ [e]) s' := by
  cases e with
  | start =>
    simp only [step, Option.some.injEq] at hs; subst hs
    have hc : ∀ k, calls k (h ++ [Ev.start]) = calls k h := fun k => by rw [calls_append]; simp [calls]
    refine ⟨?_, ?_⟩
    · intro k hk; rw [hc]; exact hI.1 k (by simp at hk; omega)
    · intro k p hk
      rw [hc]
      simp only [List.getElem?_append] at hk
      split at hk
      · exact hI.2 k p hk
      · next hlt =>
        have h0 := hI.1 k (by omega)
        have : k - s.queries.length = 0 := by
          rcases Nat.eq_zero_or_pos (k - s.queries.length) with h | h
          · exact h
          · rw [List.getElem?_eq_none (by simp; omega)] at hk; cases hk
        rw [this] at hk
        simp only [List.getElem?_cons_zero, Option.some.injEq] at hk
        subst hk
        rw [h0]; refine ⟨?_, by omega⟩
        split
        · rfl
        · trivial
  | current k =>
    simp only [step] at hs; split at hs
    · next i l hk =>
      simp only [Option.some.injEq] at hs; subst hs
      have hin : i < n := hP.2 _ (mem_of_get hk)
      have h1 : calls k h = i := (hI.2 k _ hk).1
      have h2 : calls k (h ++ [Ev.current k]) = i + 1 := by rw [calls_append, h1]; simp [calls]
      refine made_set hI hk ?_ ?_ (by omega)
      · intro j hj; rw [calls_append]; simp [calls, Ne.symm hj]
      · exact h2
    · cases hs
  | reply k r =>
    simp only [step] at hs; split at hs
    · next i m hk =>
      simp only [Option.some.injEq] at hs; subst hs
      have hc : ∀ j, calls j (h ++ [Ev.reply k r]) = calls j h := fun j => by rw [calls_append]; simp [calls]
      refine made_set hI hk (fun j _ => hc j) ?_ (by rw [hc]; exact (hI.2 k _ hk).2)
      rw [hc]
      split
      · trivial
      · exact (hI.2 k _ hk).1
    · cases hs
  | report k =>
    simp only [step] at hs; split at hs
    · next i m r hk =>
      simp only [Option.some.injEq] at hs; subst hs
      have hc : ∀ j, calls j (h ++ [Ev.report k]) = calls j h := fun j => by rw [calls_append]; simp [calls]
      refine made_set hI hk (fun j _ => hc j) ?_ (by rw [hc]; exact (hI.2 k _ hk).2)
      rw [hc]
      have := (hI.2 k _ hk).1
      unfold nextAttempt
      split
      · exact this
      · trivial
    · cases hs

private theorem made_run {n : Nat} {ok : Res → Bool} : ∀ {es h : List Ev} {s s' : Sys}, MadeInv n h s → Inv n s →
    run n ok s es = some s' → MadeInv n (h ++ es) s' := by
  intro es
  induction es with
  | nil => intro h s s' hI _ hr; simp only [run, Option.some.injEq] at hr; subst hr; simpa using hI
  | cons e es ih =>
    intro h s s' hI hP hr
    simp only [run] at hr
    cases hs : step n ok s e with
    | none => rw [hs] at hr; cases hr
    | some s1 =>
      rw [hs] at hr
      have := ih (made_step hI hP hs) (inv_step hP hs) hr
      simpa using this

/-- C13: in every interleaving no query asks members more than `n` times. -/
theorem failrotate_attempts (n : Nat) (hn : 0 < n) (ok : Res → Bool) (es : List Ev) (s : Sys) (k : Nat)
    (h : run n ok ⟨0, []⟩ es = some s) : calls k es ≤ n := by
  have := made_run (n := n) (h := []) (s := ⟨0, []⟩) ⟨fun k _ => rfl, fun k p hk => by simp at hk⟩
    ⟨fun _ => hn, fun p hp => by cases hp⟩ h
  simp only [List.nil_append] at this
  by_cases hk : k < s.queries.length
  · exact (this.2 k s.queries[k] (by simp)).2
  · rw [this.1 k (by omega)]; omega

/-- failovers in a run: how often the active member changed hands by `errorFrom` -/
def failovers (n : Nat) (ok : Res → Bool) : Sys → List Ev → List Nat
  | _, [] => []
  | s, e :: es => match step n ok s e with
    | none => []
    | some s' => match e with
      | .report k => match s.queries[k]? with
        | some (.failed _ m _) => if m = s.active then m :: failovers n ok s' es else failovers n ok s' es
        | _ => failovers n ok s' es
      | _ => failovers n ok s' es

/-- the failed replies in a run, by member -/
def failures (n : Nat) (ok : Res → Bool) : Sys → List Ev → List Nat
  | _, [] => []
  | s, e :: es => match step n ok s e with
    | none => []
    | some s' => match e with
      | .reply k r => match s.queries[k]? with
        | some (.calling _ m) => if ok r then failures n ok s' es else m :: failures n ok s' es
        | _ => failures n ok s' es
      | _ => failures n ok s' es

/-- queries holding an unreported failure of `m` -/
private def holding (m : Nat) (qs : List Phase) : Nat := qs.countP fun p => match p with | .failed _ m' _ => m' == m | _ => false

private theorem countP_set {α} (p : α → Bool) : ∀ (l : List α) (k : Nat) (x y : α), l[k]? = some x →
    (l.set k y).countP p + (if p x then 1 else 0) = l.countP p + (if p y then 1 else 0) := by
  intro l
  induction l with
  | nil => intro k x y h; simp at h
  | cons a l ih =>
    intro k x y h
    cases k with
    | zero =>
      simp only [List.getElem?_cons_zero, Option.some.injEq] at h; subst h
      simp only [List.set_cons_zero, List.countP_cons]; omega
    | succ k =>
      simp only [List.getElem?_cons_succ] at h
      have := ih k x y h
      simp only [List.set_cons_succ, List.countP_cons]; omega

private theorem failovers_bound {n : Nat} {ok : Res → Bool} (m : Nat) : ∀ {es : List Ev} {s s' : Sys}, run n ok s es = some s' →
    (failovers n ok s es).count m ≤ (failures n ok s es).count m + holding m s.queries := by
  intro es
  induction es with
  | nil => intro s s' _; simp [failovers]
  | cons e es ih =>
    intro s s' hr
    simp only [run] at hr
    cases hs : step n ok s e with
    | none => rw [hs] at hr; cases hr
    | some s1 =>
      rw [hs] at hr
      have hih := ih hr
      simp only [failovers, failures, hs]
      cases e with
      | start =>
        simp only [step, Option.some.injEq] at hs; subst hs
        simp only [holding, List.countP_append] at hih ⊢
        have : List.countP (fun p => match p with | .failed _ m' _ => m' == m | _ => false)
          [if 0 < n then Phase.idle 0 Res.drop else Phase.done Res.drop] = 0 := by
            by_cases h : 0 < n <;> simp [h]
        omega
      | current k =>
        simp only [step] at hs; split at hs
        · next i l hk =>
          simp only [Option.some.injEq] at hs; subst hs
          have := countP_set (fun p => match p with | .failed _ m' _ => m' == m | _ => false) _ _ _ (.calling i s.active) hk
          simp only [holding] at hih ⊢
          simp at this; omega
        · cases hs
      | reply k r =>
        simp only [step] at hs; split at hs
        · next i m0 hk =>
          simp only [Option.some.injEq] at hs; subst hs
          simp only [hk]
          have := countP_set (fun p => match p with | .failed _ m' _ => m' == m | _ => false) _ _ _
            (if ok r = true then Phase.done r else .failed i m0 r) hk
          simp only [holding] at hih ⊢
          by_cases hok : ok r = true
          · simp only [hok, if_true] at this hih ⊢
            simp at this; omega
          · simp only [hok, if_false, Bool.false_eq_true] at this hih ⊢
            rw [List.count_cons]
            simp at this hih ⊢; omega
        · cases hs
      | report k =>
        simp only [step] at hs; split at hs
        · next i m0 r hk =>
          simp only [Option.some.injEq] at hs; subst hs
          simp only [hk]
          have := countP_set (fun p => match p with | .failed _ m' _ => m' == m | _ => false) _ _ _ (nextAttempt n i r) hk
          have hna : (match nextAttempt n i r with | .failed _ m' _ => m' == m | _ => false) = false := by
            unfold nextAttempt; by_cases h : i + 1 < n <;> simp [h]
          simp only [holding] at hih ⊢
          simp only [hna] at this
          by_cases hma : m0 = s.active
          · simp only [hma, if_true] at this hih ⊢
            rw [List.count_cons]; simp at this ⊢; omega
          · simp only [hma, if_false] at this hih ⊢
            simp at this; omega
        · cases hs

/-- C13: the active member is left at most once per failure of that very member, in any interleaving. -/
theorem failrotate_failover_caused (n : Nat) (ok : Res → Bool) (es : List Ev) (s : Sys) (m : Nat)
    (h : run n ok ⟨0, []⟩ es = some s) :
    (failovers n ok ⟨0, []⟩ es).count m ≤ (failures n ok ⟨0, []⟩ es).count m := by
  simpa [holding] using failovers_bound m h

/-- C13: a failure report changes the active member only if that member is the one that failed, and then to the next one; nothing
else changes it. -/
theorem failrotate_report (n : Nat) (ok : Res → Bool) (s s' : Sys) (e : Ev) (h : step n ok s e = some s')
    (hne : s'.active ≠ s.active) :
    s'.active = (s.active + 1) % n ∧ ∃ (k i : Nat) (r : Res), e = .report k ∧ s.queries[k]? = some (.failed i s.active r) := by
  cases e with
  | start => simp only [step, Option.some.injEq] at h; subst h; exact absurd rfl hne
  | current k => simp only [step] at h; split at h <;> cases h; exact absurd rfl hne
  | reply k r => simp only [step] at h; split at h <;> cases h; exact absurd rfl hne
  | report k =>
    simp only [step] at h; split at h
    · next i m r hk =>
      simp only [Option.some.injEq] at h; subst h
      simp only at hne ⊢
      split at hne
      · next hm => rw [if_pos hm]; subst hm; exact ⟨rfl, k, i, r, rfl, hk⟩
      · exact absurd rfl hne
    · cases h

/-! #### The progress argument -/

private def Prog (n g a : Nat) : Phase → (Res → Bool) → Prop
  | .idle i _, _ => dist n g a + i < n
  | .calling i m, _ => m = g ∨ dist n g m + i < n ∧ dist n g a ≤ dist n g m
  | .failed i m _, _ => m ≠ g ∧ dist n g m + i < n ∧ dist n g a ≤ dist n g m
  | .sending _ _, _ => False
  | .done r, ok => ok r = true

private theorem prog_mono {n g a b : Nat} {ok : Res → Bool} (h : dist n g b ≤ dist n g a) {p : Phase} (hp : Prog n g a p ok) : Prog n g b p ok := by
  cases p <;> simp only [Prog] at hp ⊢ <;> omega

private theorem prog_step {n g : Nat} {ok : Res → Bool} {s s' : Sys} {e : Ev} (hg : g < n) (hI : Inv n s)
    (h : ∀ p, p ∈ s.queries → Prog n g s.active p ok)
    (hgood : ∀ k r i, e = .reply k r → s.queries[k]? = some (.calling i g) → ok r = true)
    (hs : step n ok s e = some s') : ∀ p, p ∈ s'.queries → Prog n g s'.active p ok := by
  have han : s.active < n := hI.1 (by omega)
  cases e with
  | start =>
    simp only [step, Option.some.injEq] at hs; subst hs
    intro p hp
    rcases List.mem_append.mp hp with hp | hp
    · exact h p hp
    · rw [List.mem_singleton] at hp; subst hp
      rw [if_pos (by omega)]
      have := dist_lt hg han
      simp only [Prog]; omega
  | current k =>
    simp only [step] at hs; split at hs
    · next i l hk =>
      simp only [Option.some.injEq] at hs; subst hs
      have hp0 := h _ (mem_of_get hk)
      intro p hp
      rcases mem_set hp with rfl | hp
      · simp only [Prog] at hp0 ⊢; right; omega
      · exact h p hp
    · cases hs
  | reply k r =>
    simp only [step] at hs; split at hs
    · next i m hk =>
      simp only [Option.some.injEq] at hs; subst hs
      have hp0 := h _ (mem_of_get hk)
      intro p hp
      rcases mem_set hp with rfl | hp
      · split
        · next hok => exact hok
        · next hok =>
          simp only [Prog] at hp0 ⊢
          rcases hp0 with rfl | hp0
          · exact absurd (hgood k r i rfl hk) hok
          · refine ⟨?_, hp0⟩
            rintro rfl
            exact absurd (hgood k r i rfl hk) hok
      · exact h p hp
    · cases hs
  | report k =>
    simp only [step] at hs; split at hs
    · next i m r hk =>
      simp only [Option.some.injEq] at hs; subst hs
      have hp0 := h _ (mem_of_get hk)
      obtain ⟨hmg, h1, h2⟩ := hp0
      have hmn : m < n := (hI.2 _ (mem_of_get hk)).2
      have hd : dist n g (if m = s.active then (s.active + 1) % n else s.active) < dist n g m
          ∧ dist n g (if m = s.active then (s.active + 1) % n else s.active) ≤ dist n g s.active := by
        split
        · next hma => subst hma; have := dist_succ hg hmn hmg; omega
        · next hma =>
          refine ⟨?_, Nat.le_refl _⟩
          rcases Nat.lt_or_ge (dist n g s.active) (dist n g m) with h | h
          · exact h
          · exact absurd (dist_inj hg hmn han (by omega)) hma
      intro p hp
      rcases mem_set hp with rfl | hp
      · unfold nextAttempt
        have : dist n g m ≠ 0 := fun h => hmg ((dist_zero hg hmn).mp h)
        by_cases hin : i + 1 < n
        · rw [if_pos hin]; simp only [Prog]; omega
        · omega
      · exact prog_mono hd.2 (h p hp)
    · cases hs

private theorem prog_run {n g : Nat} {ok : Res → Bool} (hg : g < n) : ∀ {es : List Ev} {s s' : Sys}, Inv n s →
    (∀ p, p ∈ s.queries → Prog n g s.active p ok) → Rotate.Good n ok g s es →
    run n ok s es = some s' → ∀ p, p ∈ s'.queries → Prog n g s'.active p ok := by
  intro es
  induction es with
  | nil => intro s s' _ h _ hr; simp only [run, Option.some.injEq] at hr; subst hr; exact h
  | cons e es ih =>
    intro s s' hI h hgood hr
    simp only [run] at hr
    cases hs : step n ok s e with
    | none => rw [hs] at hr; cases hr
    | some s1 =>
      rw [hs] at hr
      exact ih (inv_step hI hs) (prog_step hg hI h hgood.1 hs) (hgood.2 s1 hs) hr

/-- C13: if one member never fails, every query that finishes has succeeded, in every interleaving of any number
of queries and whatever the other members do. -/
theorem failrotate_concurrent_complete (n g : Nat) (hg : g < n) (ok : Res → Bool) (es : List Ev) (s : Sys)
    (hgood : Rotate.Good n ok g ⟨0, []⟩ es) (h : run n ok ⟨0, []⟩ es = some s) (k : Nat) (r : Res)
    (hk : s.queries[k]? = some (.done r)) : ok r = true :=
  prog_run hg (s := ⟨0, []⟩) ⟨fun _ => by show 0 < n; omega, fun p hp => by cases hp⟩ (fun p hp => by cases hp) hgood h _ (mem_of_get hk)

/-- Two queries meet the broken first member together; their two failure reports move on only once and both are answered by the
second. -/
example : let ok := succeeded true false
    let es : List Ev := [.start, .start, .current 0, .current 1, .reply 0 (.fail "timeout"), .reply 1 (.fail "timeout"),
      .report 1, .report 0, .current 0, .current 1, .reply 1 (.ok {}), .reply 0 (.ok {})]
    run 2 ok ⟨0, []⟩ es = some ⟨1, [.done (.ok {}), .done (.ok {})]⟩ ∧ failovers 2 ok ⟨0, []⟩ es = [0] := by decide

end Rotate

/-! ### C12, C14: fail-back -/

/-- C12, C14: with a reset time of zero every query asks the members in listed order, returning the first success, else the last
member's reply. -/
theorem failback_zero_reset (n : Nat) (ok : Res → Bool) (beh : Nat → Res) : ∀ (k i : Nat) (last : Res),
    let out := Back.perQuery n ok beh k i last
    Asked (fun m => ok (beh m) = true) (List.range' i k) out.2 ∧
    ((∃ m, out.2.getLast? = some m ∧ ok (beh m) = true ∧ out.1 = beh m) ∨
     ((∀ m, m ∈ List.range' i k → ok (beh m) = false) ∧ out.2 = List.range' i k ∧
       out.1 = if k = 0 then last else beh (i + k - 1))) := by
  intro k
  induction k with
  | zero => intro i last; simp [Back.perQuery, Asked.nil]
  | succ k ih =>
    intro i last
    have h := ih (i + 1) (beh i)
    simp only [Back.perQuery, List.range'_succ]
    by_cases hok : ok (beh i) = true
    · rw [if_pos hok]; exact ⟨.hit hok, .inl ⟨i, rfl, hok, rfl⟩⟩
    · rw [if_neg hok]
      simp only at h ⊢
      obtain ⟨h1, h2⟩ := h
      refine ⟨.miss hok h1, ?_⟩
      rcases h2 with ⟨m, hm, hm2, hm3⟩ | ⟨h3, h4, h5⟩
      · exact .inl ⟨m, by rw [List.getLast?_cons, hm]; rfl, hm2, hm3⟩
      · refine .inr ⟨?_, by rw [h4], ?_⟩
        · intro m hm
          rcases List.mem_cons.mp hm with h | h
          · rw [h]; simpa using hok
          · exact h3 m h
        · rw [h5]
          by_cases hk : k = 0
          · subst hk; simp
          · rw [if_neg hk, if_neg (by omega)]; congr 1; omega

example : Back.perQuery 3 (succeeded true false) (fun m => if m = 1 then .ok {} else .fail "down") 3 0 .drop
    = (.ok {}, [0, 1]) := by decide

namespace Back
open Verif.Group.Back

/-- Steps the group takes on its own: pending signals are sent, the timer goroutine receives them, the timer expires. -/
def internal : Ev → Bool
  | .send _ => true
  | .recv => true
  | .fire => true
  | _ => false

/-- queries still to send their signal -/
private def pending (qs : List Phase) : Nat := qs.countP fun p => match p with | .sending _ _ => true | _ => false

private def Inv (n : Nat) (s : Sys) : Prop :=
  (0 < n → s.active < n) ∧ (∀ p, p ∈ s.queries → PhaseOk n p) ∧ s.buf ≤ 1 ∧
  (s.timer = .off → s.active = 0 ∧ s.buf = 0 ∧ pending s.queries = 0) ∧
  (s.active ≠ 0 → s.timer = .armed ∨ 0 < s.buf ∨ 0 < pending s.queries)

private theorem pending_set {qs : List Phase} {k : Nat} {x : Phase} (y : Phase) (h : qs[k]? = some x) :
    pending (qs.set k y) + (match x with | .sending _ _ => 1 | _ => 0) = pending qs + (match y with | .sending _ _ => 1 | _ => 0) := by
  have := Rotate.countP_set (fun p => match p with | .sending _ _ => true | _ => false) qs k x y h
  unfold pending
  cases x <;> cases y <;> simpa using this

private theorem nextAttempt_pending (n i : Nat) (r : Res) : (match nextAttempt n i r with | .sending _ _ => 1 | _ => 0) = 0 := by
  unfold nextAttempt; by_cases h : i + 1 < n <;> simp [h]

private theorem ok_set {n : Nat} {qs : List Phase} {k : Nat} {y : Phase} (h : ∀ p, p ∈ qs → PhaseOk n p) (hy : PhaseOk n y) :
    ∀ p, p ∈ qs.set k y → PhaseOk n p := by
  intro p hp
  rcases mem_set hp with rfl | hp
  · exact hy
  · exact h p hp

private theorem inv_step {n : Nat} {ok : Res → Bool} {s s' : Sys} {e : Ev} (h : Inv n s)
    (hs : step n ok s e = some s') : Inv n s' := by
  obtain ⟨ha, hq, hb, hoff, hact⟩ := h
  cases e with
  | start =>
    simp only [step, Option.some.injEq] at hs; subst hs
    have hp0 : pending (s.queries ++ [if 0 < n then Phase.idle 0 Res.drop else Phase.done Res.drop]) = pending s.queries := by
      unfold pending; rw [List.countP_append]; by_cases h : 0 < n <;> simp [h]
    refine ⟨ha, ?_, hb, ?_, ?_⟩
    · intro p hp
      rcases List.mem_append.mp hp with hp | hp
      · exact hq p hp
      · rw [List.mem_singleton] at hp; subst hp
        split
        · assumption
        · trivial
    · simp only [hp0]; exact hoff
    · simp only [hp0]; exact hact
  | current k =>
    simp only [step] at hs; split at hs
    · next i l hk =>
      simp only [Option.some.injEq] at hs; subst hs
      have hi : i < n := hq _ (mem_of_get hk)
      have hp0 := pending_set (.calling i s.active) hk
      simp only [Nat.add_zero] at hp0
      exact ⟨ha, ok_set hq ⟨hi, ha (by omega)⟩, hb, by simp only [hp0]; exact hoff, by simp only [hp0]; exact hact⟩
    · cases hs
  | reply k r =>
    simp only [step] at hs; split at hs
    · next i m hk =>
      simp only [Option.some.injEq] at hs; subst hs
      have hi : i < n ∧ m < n := hq _ (mem_of_get hk)
      have hp0 := pending_set (if ok r = true then Phase.done r else .failed i m r) hk
      have hz : (match (if ok r = true then Phase.done r else .failed i m r) with | .sending _ _ => 1 | _ => 0) = 0 := by
        by_cases h : ok r = true <;> simp [h]
      rw [hz] at hp0
      simp only [Nat.add_zero] at hp0
      refine ⟨ha, ok_set hq ?_, hb, by simp only [hp0]; exact hoff, by simp only [hp0]; exact hact⟩
      split
      · trivial
      · exact hi
    · cases hs
  | report k =>
    simp only [step] at hs; split at hs
    · next i m r hk =>
      have hi : i < n ∧ m < n := hq _ (mem_of_get hk)
      split at hs
      · simp only [Option.some.injEq] at hs; subst hs
        have hp0 := pending_set (nextAttempt n i r) hk
        rw [nextAttempt_pending] at hp0
        simp only [Nat.add_zero] at hp0
        exact ⟨ha, ok_set hq (nextAttempt_ok _ _ _), hb, by simp only [hp0]; exact hoff, by simp only [hp0]; exact hact⟩
      · simp only [Option.some.injEq] at hs; subst hs
        have hp0 := pending_set (.sending i r) hk
        simp only [Nat.add_zero] at hp0
        refine ⟨fun hn => Nat.mod_lt _ hn, ok_set hq hi.1, hb, ?_, ?_⟩
        · intro ht
          simp only at ht
          split at ht
          · cases ht
          · next h => exact absurd ht h
        · intro _; right; right; show 0 < pending (s.queries.set k _); omega
    · cases hs
  | send k =>
    simp only [step] at hs; split at hs
    · next i r hk =>
      split at hs
      · next hlt =>
        simp only [Option.some.injEq] at hs; subst hs
        have hp0 := pending_set (nextAttempt n i r) hk
        rw [nextAttempt_pending] at hp0
        simp only [Nat.add_zero] at hp0
        refine ⟨ha, ok_set hq (nextAttempt_ok _ _ _), by show s.buf + 1 ≤ 1; omega, ?_, ?_⟩
        · intro ht; have := hoff ht; omega
        · intro _; right; left; show 0 < s.buf + 1; omega
      · cases hs
    · cases hs
  | recv =>
    simp only [step] at hs; split at hs
    · next h =>
      simp only [Option.some.injEq] at hs; subst hs
      refine ⟨ha, hq, by show s.buf - 1 ≤ 1; omega, ?_, ?_⟩
      · intro ht; cases ht
      · intro _; exact .inl rfl
    · cases hs
  | fire =>
    simp only [step] at hs; split at hs
    · next h =>
      simp only [Option.some.injEq] at hs; subst hs
      refine ⟨fun hn => hn, hq, hb, ?_, ?_⟩
      · intro ht; cases ht
      · intro h; exact absurd rfl h
    · cases hs

private theorem run_inv {n : Nat} {ok : Res → Bool} : ∀ {es : List Ev} {s s' : Sys}, Inv n s →
    run n ok s es = some s' → Inv n s' := by
  intro es
  induction es with
  | nil => intro s s' h hr; simp only [run, Option.some.injEq] at hr; subst hr; exact h
  | cons e es ih =>
    intro s s' h hr
    simp only [run] at hr
    cases hs : step n ok s e with
    | none => rw [hs] at hr; cases hr
    | some s1 => rw [hs] at hr; exact ih (inv_step h hs) hr

private theorem init_inv (n : Nat) : Inv n init :=
  ⟨fun h => h, fun p hp => (nomatch hp), by decide, fun _ => ⟨rfl, rfl, rfl⟩, fun h => absurd rfl h⟩

/-- C13: in every interleaving of queries, timer expiries and signals the active member is a member, and so is one being asked. -/
theorem failback_active_valid (n : Nat) (hn : 0 < n) (ok : Res → Bool) (es : List Ev) (s : Sys)
    (h : run n ok init es = some s) :
    s.active < n ∧ ∀ (k i m : Nat), s.queries[k]? = some (.calling i m) → m < n := by
  have := run_inv (init_inv n) h
  exact ⟨this.1 hn, fun k i m hk => (this.2.1 _ (mem_of_get hk)).2⟩

/-- C14: whenever another member than the first is active, the timer is running, or a signal for it is in the channel or about
to be sent by a query. -/
theorem failback_timer_or_signal (n : Nat) (ok : Res → Bool) (es : List Ev) (s : Sys)
    (h : run n ok init es = some s) (hne : s.active ≠ 0) :
    s.timer = .armed ∨ 0 < s.buf ∨ ∃ i r, Phase.sending i r ∈ s.queries := by
  rcases (run_inv (init_inv n) h).2.2.2.2 hne with h | h | h
  · exact .inl h
  · exact .inr (.inl h)
  · obtain ⟨p, hp, hp2⟩ := List.countP_pos_iff.mp h
    cases p with
    | sending i r => exact .inr (.inr ⟨i, r, hp⟩)
    | _ => cases hp2

private theorem pending_get {qs : List Phase} (h : 0 < pending qs) : ∃ (k i : Nat) (r : Res), qs[k]? = some (.sending i r) := by
  obtain ⟨p, hp, hp2⟩ := List.countP_pos_iff.mp h
  obtain ⟨k, hk⟩ := List.getElem?_of_mem hp
  cases p with
  | sending i r => exact ⟨k, i, r, hk⟩
  | _ => cases hp2

/-- C14: the group never gets stuck: while another member than the first is active, or a query waits to send its signal, some
internal step is possible. -/
theorem failback_progress (n : Nat) (ok : Res → Bool) (es : List Ev) (s : Sys)
    (h : run n ok init es = some s)
    (hwork : s.active ≠ 0 ∨ ∃ i r, Phase.sending i r ∈ s.queries) :
    ∃ e s', internal e = true ∧ step n ok s e = some s' := by
  obtain ⟨ha, hq, hb, hoff, hact⟩ := run_inv (init_inv n) h
  have hoff' : s.timer ≠ .off ∨ pending s.queries = 0 := by
    by_cases h : s.timer = .off
    · exact .inr (hoff h).2.2
    · exact .inl h
  have hpend : 0 < pending s.queries → ∃ e s', internal e = true ∧ step n ok s e = some s' := by
    intro hp
    obtain ⟨k, i, r, hk⟩ := pending_get hp
    by_cases hbuf : s.buf < 1
    · exact ⟨.send k, _, rfl, by simp only [step, hk, if_pos hbuf]; rfl⟩
    · refine ⟨.recv, { s with buf := s.buf - 1, timer := .armed }, rfl, ?_⟩
      simp only [step]
      rw [if_pos ⟨by rcases hoff' with h | h; exact h; omega, by omega⟩]
  rcases hwork with hne | ⟨i, r, hs⟩
  · rcases hact hne with h1 | h1 | h1
    · exact ⟨.fire, _, rfl, by simp only [step, if_pos h1]; rfl⟩
    · refine ⟨.recv, { s with buf := s.buf - 1, timer := .armed }, rfl, ?_⟩
      simp only [step]
      rw [if_pos ⟨fun h => hne (hoff h).1, h1⟩]
    · exact hpend h1
  · exact hpend (List.countP_pos_iff.mpr ⟨_, hs, rfl⟩)

private def measure (s : Sys) : Nat := 3 * pending s.queries + 2 * s.buf + (if s.timer = .armed then 1 else 0)

private theorem measure_step {n : Nat} {ok : Res → Bool} {s s' : Sys} {e : Ev} (hi : internal e = true)
    (hs : step n ok s e = some s') : measure s' < measure s := by
  cases e with
  | send k =>
    simp only [step] at hs; split at hs
    · next i r hk =>
      split at hs
      · simp only [Option.some.injEq] at hs; subst hs
        have hp0 := pending_set (nextAttempt n i r) hk
        rw [nextAttempt_pending] at hp0
        simp only [Nat.add_zero] at hp0
        simp only [measure]; omega
      · cases hs
    · cases hs
  | recv =>
    simp only [step] at hs; split at hs
    · next h =>
      simp only [Option.some.injEq] at hs; subst hs
      simp only [measure, if_true]; split <;> omega
    · cases hs
  | fire =>
    simp only [step] at hs; split at hs
    · next h =>
      simp only [Option.some.injEq] at hs; subst hs
      simp [measure, h]
    · cases hs
  | _ => cases hi

/-- C14: once no more failures are reported, the steps the group takes on its own come to an end after finitely many
(at most three per pending signal, plus three), whatever their order. -/
theorem failback_settles (n : Nat) (ok : Res → Bool) (s s' : Sys) (es : List Ev)
    (hi : ∀ e, e ∈ es → internal e = true) (h : run n ok s es = some s') :
    es.length ≤ 3 * s.queries.length + 2 * s.buf + 1 := by
  have key : ∀ (es : List Ev) (s : Sys), (∀ e, e ∈ es → internal e = true) → run n ok s es = some s' →
      es.length ≤ measure s := by
    intro es
    induction es with
    | nil => intro s _ _; simp
    | cons e es ih =>
      intro s hi hr
      simp only [run] at hr
      cases hs : step n ok s e with
      | none => rw [hs] at hr; cases hr
      | some s1 =>
        rw [hs] at hr
        have := ih s1 (fun e he => hi e (List.mem_cons_of_mem _ he)) hr
        have := measure_step (hi e List.mem_cons_self) hs
        simp only [List.length_cons]; omega
  have h1 := key es s hi h
  have h2 : pending s.queries ≤ s.queries.length := List.countP_le_length
  have h3 : (if s.timer = .armed then 1 else 0) ≤ 1 := by split <;> omega
  unfold measure at h1; omega

/-- C14: and where they end, the first member is active. -/
theorem failback_returns (n : Nat) (ok : Res → Bool) (es es' : List Ev) (s s' : Sys)
    (h : run n ok init es = some s) (h' : run n ok s es' = some s')
    (hend : ∀ e, internal e = true → step n ok s' e = none) :
    s'.active = 0 ∧ ¬ ∃ i r, Phase.sending i r ∈ s'.queries := by
  have happ : ∀ (a b : List Ev) (s : Sys), run n ok s (a ++ b) = (run n ok s a).bind fun t => run n ok t b := by
    intro a
    induction a with
    | nil => intro b s; rfl
    | cons e es ih =>
      intro b s
      simp only [List.cons_append, run]
      cases step n ok s e with
      | none => rfl
      | some t => exact ih b t
  have hr : run n ok init (es ++ es') = some s' := by rw [happ, h]; exact h'
  have : ¬ (s'.active ≠ 0 ∨ ∃ i r, Phase.sending i r ∈ s'.queries) := by
    intro hw
    obtain ⟨e, t, hi, ht⟩ := failback_progress n ok _ s' hr hw
    rw [hend e hi] at ht; cases ht
  exact ⟨by
    rcases Nat.eq_zero_or_pos s'.active with h | h
    · exact h
    · exact absurd (.inl (by omega)) this, fun h => this (.inr h)⟩

/-- Two queries fail over to the second and third member, their signals go through the channel of capacity one, the timer
expires and the first member is active again. -/
example : let ok := succeeded true false
    let down : Res := .fail "down"
    run 3 ok init [.start, .start, .current 0, .reply 0 down, .report 0, .current 1, .reply 1 down, .report 1,
      .send 0, .recv, .send 1, .recv] = some ⟨2, .armed, 0, [.idle 1 down, .idle 1 down]⟩ ∧
    run 3 ok ⟨2, .armed, 0, [.idle 1 down, .idle 1 down]⟩ [.fire] = some ⟨0, .parked, 0, [.idle 1 down, .idle 1 down]⟩ := by decide

/-- Member `g` replies with success whenever it is asked in this run. -/
def Good (n : Nat) (ok : Res → Bool) (g : Nat) : Sys → List Ev → Prop
  | _, [] => True
  | s, e :: es =>
    (∀ k r i, e = .reply k r → s.queries[k]? = some (.calling i g) → ok r = true) ∧
    ∀ s', step n ok s e = some s' → Good n ok g s' es

private def Prog (n g a : Nat) : Phase → (Res → Bool) → Prop
  | .idle i _, _ => dist n g a + i < n
  | .calling i m, _ => m = g ∨ dist n g m + i < n ∧ dist n g a ≤ dist n g m
  | .failed i m _, _ => m ≠ g ∧ dist n g m + i < n ∧ dist n g a ≤ dist n g m
  | .sending i _, _ => dist n g a + (i + 1) < n
  | .done r, ok => ok r = true

private theorem prog_mono {n g a b : Nat} {ok : Res → Bool} (h : dist n g b ≤ dist n g a) {p : Phase} (hp : Prog n g a p ok) : Prog n g b p ok := by
  cases p <;> simp only [Prog] at hp ⊢ <;> omega

private theorem prog_step {n g : Nat} {ok : Res → Bool} {s s' : Sys} {e : Ev} (hg : g < n) (hI : Inv n s)
    (h : ∀ p, p ∈ s.queries → Prog n g s.active p ok)
    (hgood : ∀ k r i, e = .reply k r → s.queries[k]? = some (.calling i g) → ok r = true) (hfire : e ≠ .fire)
    (hs : step n ok s e = some s') : ∀ p, p ∈ s'.queries → Prog n g s'.active p ok := by
  have han : s.active < n := hI.1 (by omega)
  cases e with
  | start =>
    simp only [step, Option.some.injEq] at hs; subst hs
    intro p hp
    rcases List.mem_append.mp hp with hp | hp
    · exact h p hp
    · rw [List.mem_singleton] at hp; subst hp
      rw [if_pos (by omega)]
      have := dist_lt hg han
      simp only [Prog]; omega
  | current k =>
    simp only [step] at hs; split at hs
    · next i l hk =>
      simp only [Option.some.injEq] at hs; subst hs
      have hp0 := h _ (mem_of_get hk)
      intro p hp
      rcases mem_set hp with rfl | hp
      · simp only [Prog] at hp0 ⊢; right; omega
      · exact h p hp
    · cases hs
  | reply k r =>
    simp only [step] at hs; split at hs
    · next i m hk =>
      simp only [Option.some.injEq] at hs; subst hs
      have hp0 := h _ (mem_of_get hk)
      intro p hp
      rcases mem_set hp with rfl | hp
      · split
        · next hok => exact hok
        · next hok =>
          simp only [Prog] at hp0 ⊢
          rcases hp0 with rfl | hp0
          · exact absurd (hgood k r i rfl hk) hok
          · refine ⟨?_, hp0⟩
            rintro rfl
            exact absurd (hgood k r i rfl hk) hok
      · exact h p hp
    · cases hs
  | report k =>
    simp only [step] at hs; split at hs
    · next i m r hk =>
      have hp0 := h _ (mem_of_get hk)
      obtain ⟨hmg, h1, h2⟩ := hp0
      have hmn : m < n := (hI.2.1 _ (mem_of_get hk)).2
      have : dist n g m ≠ 0 := fun h => hmg ((dist_zero hg hmn).mp h)
      split at hs
      · next hma =>
        simp only [Option.some.injEq] at hs; subst hs
        have hd : dist n g s.active < dist n g m := by
          rcases Nat.lt_or_ge (dist n g s.active) (dist n g m) with h | h
          · exact h
          · exact absurd (dist_inj hg hmn han (by omega)) hma
        intro p hp
        rcases mem_set hp with rfl | hp
        · unfold nextAttempt
          split
          · simp only [Prog]; omega
          · omega
        · exact h p hp
      · next hma =>
        simp only [Option.some.injEq] at hs; subst hs
        have hma' : m = s.active := by omega
        have hd := dist_succ hg han (hma' ▸ hmg)
        intro p hp
        rcases mem_set hp with rfl | hp
        · simp only [Prog]; rw [hma'] at h1; omega
        · exact prog_mono (by simp only; omega) (h p hp)
    · cases hs
  | send k =>
    simp only [step] at hs; split at hs
    · next i r hk =>
      have hp0 := h _ (mem_of_get hk)
      split at hs
      · simp only [Option.some.injEq] at hs; subst hs
        intro p hp
        simp only [Prog] at hp0
        rcases mem_set hp with rfl | hp
        · unfold nextAttempt
          split
          · simp only [Prog]; omega
          · omega
        · exact h p hp
      · cases hs
    · cases hs
  | recv =>
    simp only [step] at hs; split at hs
    · simp only [Option.some.injEq] at hs; subst hs; exact h
    · cases hs
  | fire => exact absurd rfl hfire

/-- C13: while the timer does not expire, every query that finishes has succeeded if some member never fails; in every
interleaving. `s0` is any reachable state with no query under way. -/
theorem failback_concurrent_complete (n g : Nat) (hg : g < n) (ok : Res → Bool) (es0 es : List Ev) (s0 s : Sys)
    (h0 : run n ok init es0 = some s0) (hidle : ∀ p, p ∈ s0.queries → ∃ r, p = .done r ∧ ok r = true)
    (hgood : Good n ok g s0 es) (hfire : .fire ∉ es) (h : run n ok s0 es = some s) (k : Nat) (r : Res)
    (hk : s.queries[k]? = some (.done r)) : ok r = true := by
  have key : ∀ (es : List Ev) (s s' : Sys), Inv n s → (∀ p, p ∈ s.queries → Prog n g s.active p ok) → Good n ok g s es →
      .fire ∉ es → run n ok s es = some s' → ∀ p, p ∈ s'.queries → Prog n g s'.active p ok := by
    intro es
    induction es with
    | nil => intro s s' _ h _ _ hr; simp only [run, Option.some.injEq] at hr; subst hr; exact h
    | cons e es ih =>
      intro s s' hI h hgood hf hr
      simp only [run] at hr
      cases hs : step n ok s e with
      | none => rw [hs] at hr; cases hr
      | some s1 =>
        rw [hs] at hr
        exact ih s1 s' (inv_step hI hs) (prog_step hg hI h hgood.1 (fun e => hf (e ▸ List.mem_cons_self)) hs) (hgood.2 s1 hs)
          (fun he => hf (List.mem_cons_of_mem _ he)) hr
  refine key es s0 s (run_inv (init_inv n) h0) ?_ hgood hfire h _ (mem_of_get hk)
  intro p hp
  obtain ⟨r, rfl, hr⟩ := hidle p hp
  exact hr

/-- The restriction is needed: if the timer expires between a query's two attempts, the query asks the broken first member twice
and fails although the second one always answers. -/
theorem failback_reset_loses_query : ∃ (es : List Ev) (s : Sys), let ok := succeeded true false
    run 2 ok init es = some s ∧ s.queries[0]? = some (.done (.fail "down")) ∧ Good 2 ok 1 init es := by
  refine ⟨[.start, .current 0, .reply 0 (.fail "down"), .report 0, .send 0, .fire, .current 0, .reply 0 (.fail "down"), .report 0,
    .recv, .send 0], _, rfl, by decide, ?_⟩
  simp [Good, step, init, succeeded, Res.fail, nextAttempt]
  constructor <;> (rintro k r i rfl rfl h; simp at h)

end Back

/-! ### C15: round-robin -/

private theorem picks_eq (n : Nat) (hn : 0 < n) : ∀ (k c : Nat), c < n →
    roundRobinPicks n k c = (List.range k).map fun i => (c + i) % n := by
  intro k
  induction k with
  | zero => intro c _; rfl
  | succ k ih =>
    intro c hc
    simp only [roundRobinPicks, roundRobinPick]
    rw [ih _ (Nat.mod_lt _ hn), cyc_succ, List.range_succ_eq_map]
    simp [Nat.mod_eq_of_lt hc]

private theorem count_shift (n : Nat) (hn : 0 < n) (j c : Nat) :
    ((List.range n).map fun i => (c + 1 + i) % n).count j = ((List.range n).map fun i => (c + i) % n).count j := by
  obtain ⟨k, rfl⟩ : ∃ k, n = k + 1 := ⟨n - 1, by omega⟩
  have h1 : ((List.range (k+1)).map fun i => (c + i) % (k+1))
      = c % (k+1) :: ((List.range k).map fun i => (c + 1 + i) % (k+1)) := by
    rw [List.range_succ_eq_map]; simp only [List.map_cons, List.map_map, Nat.add_zero]
    congr 1; apply List.map_congr_left; intro i _; simp only [Function.comp]; congr 1; omega
  have h2 : ((List.range (k+1)).map fun i => (c + 1 + i) % (k+1))
      = ((List.range k).map fun i => (c + 1 + i) % (k+1)) ++ [c % (k+1)] := by
    rw [List.range_succ, List.map_append, List.map_singleton]
    congr 2; rw [show c + 1 + k = c + (k + 1) by omega, Nat.add_mod_right]
  rw [h1, h2, List.count_append]; simp only [List.count_cons, List.count_nil]; omega

private theorem count_full (n : Nat) (hn : 0 < n) (j : Nat) (hj : j < n) : ∀ c,
    ((List.range n).map fun i => (c + i) % n).count j = 1 := by
  intro c
  induction c with
  | zero =>
    have : ((List.range n).map fun i => (0 + i) % n) = List.range n := by
      conv => rhs; rw [← List.map_id (List.range n)]
      apply List.map_congr_left; intro i hi
      rw [Nat.zero_add]; exact Nat.mod_eq_of_lt (List.mem_range.mp hi)
    rw [this]
    rw [(List.nodup_range).count]; simp [hj]
  | succ c ih => rw [count_shift n hn, ih]

/-- C15: of any `k` consecutive queries, from any state of the group, each of the `n` members gets `⌊k/n⌋` or `⌈k/n⌉`. The
list is in the order in which the queries take the lock, so this covers every interleaving. -/
theorem roundrobin_fair (n : Nat) (hn : 0 < n) (c : Nat) (hc : c < n) (k j : Nat) (hj : j < n) :
    k / n ≤ (roundRobinPicks n k c).count j ∧ (roundRobinPicks n k c).count j ≤ (k + n - 1) / n := by
  have key : ∀ (q r c : Nat), r < n →
      q ≤ ((List.range (q * n + r)).map fun i => (c + i) % n).count j ∧
      ((List.range (q * n + r)).map fun i => (c + i) % n).count j ≤ q + (if r = 0 then 0 else 1) := by
    intro q
    induction q with
    | zero =>
      intro r c hr
      refine ⟨Nat.zero_le _, ?_⟩
      by_cases h0 : r = 0
      · subst h0; simp
      · rw [if_neg h0]
        have hsub : List.Sublist ((List.range (0 * n + r)).map fun i => (c + i) % n) ((List.range n).map fun i => (c + i) % n) := by
          apply List.Sublist.map
          rw [List.range_sublist]; omega
        have := hsub.count_le j
        rw [count_full n hn j hj] at this
        simpa using this
    | succ q ih =>
      intro r c hr
      have hsplit : ((List.range ((q + 1) * n + r)).map fun i => (c + i) % n)
          = ((List.range n).map fun i => (c + i) % n) ++ ((List.range (q * n + r)).map fun i => (c + n + i) % n) := by
        rw [show (q + 1) * n + r = n + (q * n + r) by rw [Nat.add_mul]; omega, List.range_add, List.map_append, List.map_map]
        congr 1; apply List.map_congr_left; intro i _; simp only [Function.comp]; congr 1; omega
      rw [hsplit, List.count_append, count_full n hn j hj]
      have := ih r (c + n) hr
      omega
  rw [picks_eq n hn k c hc]
  have hk : k = k / n * n + k % n := by rw [Nat.mul_comm]; exact (Nat.div_add_mod k n).symm
  have h := key (k / n) (k % n) c (Nat.mod_lt _ hn)
  rw [← hk] at h
  refine ⟨h.1, Nat.le_trans h.2 ?_⟩
  have hm := Nat.mod_lt k hn
  split
  · next h0 => exact Nat.div_le_div_right (by omega)
  · next h0 =>
    rw [Nat.le_div_iff_mul_le hn, Nat.add_mul]; omega

/-- C15: and the position stays valid. -/
theorem roundrobin_valid (n : Nat) (hn : 0 < n) (k c : Nat) (hc : c < n) : ∀ m, m ∈ roundRobinPicks n k c → m < n := by
  rw [picks_eq n hn k c hc]; intro m hm
  obtain ⟨i, _, rfl⟩ := List.mem_map.mp hm
  exact Nat.mod_lt _ hn

example : roundRobinPicks 3 7 1 = [1, 2, 0, 1, 2, 0, 1] := by decide

/-! ### C16: random -/
namespace Random
open Verif.Group.Random

private theorem filter_perm (l : List Nat) (m : Nat) :
    (l.filter (fun x => ¬ x = m) ++ l.filter (fun x => x = m)).Perm l := by
  induction l with
  | nil => exact .refl _
  | cons a l ih =>
    by_cases h : a = m
    · simp only [List.filter_cons, h, decide_true, not_true_eq_false, decide_false, if_true]
      exact List.perm_middle.trans (by simpa using List.Perm.cons m ih)
    · simp only [List.filter_cons, h, decide_false, not_false_eq_true, decide_true, if_true]
      simpa using List.Perm.cons a ih

/-- C16: at every moment the active members and those waiting to come back are exactly the configured ones. -/
theorem random_loses_nothing (ok : Res → Bool) : ∀ (es : List Ev) (s s' : Sys), run ok s es = some s' →
    (s'.active ++ s'.waiting).Perm (s.active ++ s.waiting) := by
  intro es
  induction es with
  | nil => intro s s' h; simp only [run, Option.some.injEq] at h; subst h; exact .refl _
  | cons e es ih =>
    intro s s' h
    simp only [run] at h
    cases hs : step ok s e with
    | none => rw [hs] at h; cases h
    | some s1 =>
      rw [hs] at h
      refine (ih s1 s' h).trans ?_
      cases e with
      | start => simp only [step, Option.some.injEq] at hs; subst hs; exact .refl _
      | pick k d =>
        simp only [step] at hs
        cases hk : s.queries[k]? with
        | none => simp [hk] at hs
        | some p =>
          cases p with
          | idle =>
            simp only [hk] at hs
            split at hs
            · simp only [Option.some.injEq] at hs; subst hs; exact .refl _
            · split at hs
              · simp only [Option.some.injEq] at hs; subst hs; exact .refl _
              · cases hs
          | _ => simp [hk] at hs
      | reply k r =>
        simp only [step] at hs; split at hs
        · simp only [Option.some.injEq] at hs; subst hs; exact .refl _
        · cases hs
      | deactivate k =>
        simp only [step] at hs; split at hs
        · next m hk =>
          simp only [Option.some.injEq] at hs; subst hs
          rw [← List.append_assoc]
          exact (filter_perm s.active m).append_right _
        · cases hs
      | reactivate m =>
        simp only [step] at hs; split at hs
        · next hm =>
          simp only [Option.some.injEq] at hs; subst hs
          rw [List.append_assoc]
          exact (List.perm_cons_erase hm).symm.append_left _
        · cases hs

/-- C16: a query ends only with a success, or at a moment when no member is active. -/
theorem random_ends (ok : Res → Bool) (s s' : Sys) (e : Ev) (k : Nat) (o : Option Res) (h : step ok s e = some s')
    (hk : s'.queries[k]? = some (.done o)) :
    s.queries[k]? = some (.done o) ∨ (∃ r, o = some r ∧ ok r = true ∧ e = .reply k r) ∨ (o = none ∧ s.active = []) := by
  cases e with
  | start =>
    simp only [step, Option.some.injEq] at h; subst h
    left
    simp only [List.getElem?_append] at hk
    split at hk
    · exact hk
    · cases hj : k - s.queries.length with
      | zero => rw [hj] at hk; simp at hk
      | succ j => rw [hj] at hk; simp at hk
  | pick j d =>
    simp only [step] at h
    cases hj : s.queries[j]? with
    | none => simp [hj] at h
    | some p =>
      cases p with
      | idle =>
        simp only [hj] at h
        split at h
        · next he =>
          simp only [Option.some.injEq] at h; subst h
          rcases Rotate.set_get hk with ⟨rfl, h⟩ | ⟨_, h⟩
          · cases h; exact .inr (.inr ⟨rfl, he⟩)
          · exact .inl h
        · split at h
          · simp only [Option.some.injEq] at h; subst h
            rcases Rotate.set_get hk with ⟨rfl, h⟩ | ⟨_, h⟩
            · cases h
            · exact .inl h
          · cases h
      | _ => simp [hj] at h
  | reply j r =>
    simp only [step] at h; split at h
    · simp only [Option.some.injEq] at h; subst h
      rcases Rotate.set_get hk with ⟨rfl, h⟩ | ⟨_, h⟩
      · split at h
        · next hok => cases h; exact .inr (.inl ⟨r, rfl, hok, rfl⟩)
        · cases h
      · exact .inl h
    · cases h
  | deactivate j =>
    simp only [step] at h; split at h
    · simp only [Option.some.injEq] at h; subst h
      rcases Rotate.set_get hk with ⟨rfl, h⟩ | ⟨_, h⟩
      · cases h
      · exact .inl h
    · cases h
  | reactivate m =>
    simp only [step] at h; split at h
    · simp only [Option.some.injEq] at h; subst h; exact .inl hk
    · cases h

private theorem absent_step {ok : Res → Bool} {s s' : Sys} {e : Ev} {m : Nat} (hm : m ∉ s.active) (he : e ≠ .reactivate m)
    (h : step ok s e = some s') : m ∉ s'.active := by
  cases e with
  | start => simp only [step, Option.some.injEq] at h; subst h; exact hm
  | pick j d =>
    simp only [step] at h
    cases hj : s.queries[j]? with
    | none => simp [hj] at h
    | some p =>
      cases p with
      | idle =>
        simp only [hj] at h
        split at h
        · simp only [Option.some.injEq] at h; subst h; exact hm
        · split at h
          · simp only [Option.some.injEq] at h; subst h; exact hm
          · cases h
      | _ => simp [hj] at h
  | reply j r =>
    simp only [step] at h; split at h
    · simp only [Option.some.injEq] at h; subst h; exact hm
    · cases h
  | deactivate j =>
    simp only [step] at h; split at h
    · simp only [Option.some.injEq] at h; subst h
      exact fun h => hm (List.mem_filter.mp h).1
    · cases h
  | reactivate m' =>
    simp only [step] at h; split at h
    · simp only [Option.some.injEq] at h; subst h
      intro h
      rcases List.mem_append.mp h with h | h
      · exact hm h
      · rw [List.mem_singleton] at h; subst h; exact he rfl
    · cases h

/-- C16: once a query has reported the failure of `m`, no query picks `m` before it was re-activated. -/
theorem random_failed_not_picked (ok : Res → Bool) (s0 s1 s2 s3 : Sys) (k j d m : Nat) (es : List Ev)
    (hf : s0.queries[k]? = some (.failed m)) (h1 : step ok s0 (.deactivate k) = some s1)
    (h2 : run ok s1 es = some s2) (hno : .reactivate m ∉ es)
    (h3 : step ok s2 (.pick j d) = some s3) : s3.queries[j]? ≠ some (.calling m) := by
  have hm1 : m ∉ s1.active := by
    simp only [step, hf, Option.some.injEq] at h1; subst h1
    intro h; have := (List.mem_filter.mp h).2; simp at this
  have key : ∀ (es : List Ev) (s s' : Sys), m ∉ s.active → .reactivate m ∉ es → run ok s es = some s' → m ∉ s'.active := by
    intro es
    induction es with
    | nil => intro s s' hm _ h; simp only [run, Option.some.injEq] at h; subst h; exact hm
    | cons e es ih =>
      intro s s' hm hno h
      simp only [run] at h
      cases hs : step ok s e with
      | none => rw [hs] at h; cases h
      | some s1 =>
        rw [hs] at h
        exact ih s1 s' (absent_step hm (fun he => hno (he ▸ List.mem_cons_self)) hs) (fun h => hno (List.mem_cons_of_mem _ h)) h
  have hm2 := key es s1 s2 hm1 hno h2
  simp only [step] at h3
  cases hj : s2.queries[j]? with
  | none => simp [hj] at h3
  | some p =>
    cases p with
    | idle =>
      simp only [hj] at h3
      split at h3
      · simp only [Option.some.injEq] at h3; subst h3
        intro h
        rcases Rotate.set_get h with ⟨_, h⟩ | ⟨h, _⟩
        · cases h
        · exact h rfl
      · split at h3
        · next m' hd =>
          simp only [Option.some.injEq] at h3; subst h3
          intro h
          rcases Rotate.set_get h with ⟨_, h⟩ | ⟨h, _⟩
          · cases h; exact hm2 (List.mem_of_getElem? hd)
          · exact h rfl
        · cases h3
    | _ => simp [hj] at h3

/-- Two queries hold a failure of the same member; it is taken out once and comes back once. -/
example : let ok := succeeded true false
    run ok ⟨[0, 1], [], []⟩ [.start, .start, .pick 0 0, .pick 1 0, .reply 0 (.fail "x"), .reply 1 (.fail "x"), .deactivate 0, .deactivate 1,
      .pick 1 0, .reactivate 0] = some ⟨[1, 0], [], [.idle, .calling 1]⟩ := by decide

end Random
end Verif.Props.Group
