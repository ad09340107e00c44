import Verif.Model.Lua
set_option linter.unusedVariables false
set_option linter.unusedSimpArgs false
/-
C74: scripts are run one query at a time per script state, and queries get exactly what the script returns.
-/
namespace Verif.Props.Lua
open Verif Verif.Lua

variable {σ : Type}

/-- The script state a query holds. -/
def holds : Phase → Option Nat
  | .using k => some k
  | .returning k _ => some k
  | _ => none

/-- The script states held, by query. -/
def held (qs : List (Msg × ClientInfo × Phase)) : List Nat := qs.filterMap fun x => holds x.2.2

structure Inv (n : Nat) (s : Sys σ) : Prop where
  scripts : s.scripts.length = n
  all : (s.pool ++ held s.queries).Perm (List.range n)

private theorem held_append (qs : List (Msg × ClientInfo × Phase)) (q : Msg) (ci : ClientInfo) : held (qs ++ [(q, ci, .waiting)]) = held qs := by
  simp [held, holds]

private theorem held_split {qs : List (Msg × ClientInfo × Phase)} {i : Nat} {x : Msg × ClientInfo × Phase} (h : qs[i]? = some x) :
    ∃ a b, held qs = a ++ (holds x.2.2).toList ++ b ∧ ∀ y, held (qs.set i y) = a ++ (holds y.2.2).toList ++ b := by
  induction qs generalizing i with
  | nil => simp at h
  | cons z qs ih =>
    cases i with
    | zero =>
      simp only [List.getElem?_cons_zero, Option.some.injEq] at h
      subst h
      refine ⟨[], held qs, ?_, fun y => ?_⟩ <;> simp only [held, List.set_cons_zero, List.filterMap_cons]
      · cases holds z.2.2 <;> simp
      · cases holds y.2.2 <;> simp
    | succ i =>
      simp only [List.getElem?_cons_succ] at h
      obtain ⟨a, b, h1, h2⟩ := ih h
      refine ⟨(holds z.2.2).toList ++ a, b, ?_, fun y => ?_⟩
      · have : held (z :: qs) = (holds z.2.2).toList ++ held qs := by
          simp only [held, List.filterMap_cons]; cases holds z.2.2 <;> simp
        rw [this, h1]; simp
      · have : held (z :: qs.set i y) = (holds z.2.2).toList ++ held (qs.set i y) := by
          simp only [held, List.filterMap_cons]; cases holds z.2.2 <;> simp
        rw [List.set_cons_succ, this, h2]; simp

private theorem step_inv {c : Code σ} {n : Nat} {s s' : Sys σ} (hi : Inv n s) (e : Ev) (hs : step c s e = some s') : Inv n s' := by
  cases e with
  | arrive q ci =>
    simp only [step, Option.some.injEq] at hs
    subst hs
    exact ⟨hi.scripts, by simpa only [held_append] using hi.all⟩
  | take i =>
    simp only [step] at hs
    split at hs
    · rename_i q ci k rest hq hp
      simp only [Option.some.injEq] at hs
      subst hs
      obtain ⟨a, b, h1, h2⟩ := held_split hq
      refine ⟨hi.scripts, ?_⟩
      have h := hi.all
      rw [hp, h1] at h
      rw [h2]
      simp only [holds, Option.toList_none, Option.toList_some, List.append_nil, List.append_assoc] at h ⊢
      refine List.Perm.trans ?_ h
      rw [← List.append_assoc]
      exact (List.perm_middle).trans (by simp)
    · simp at hs
  | call i =>
    simp only [step] at hs
    split at hs
    · rename_i q ci k hq
      split at hs
      · rename_i x hx
        simp only [Option.some.injEq] at hs
        subst hs
        obtain ⟨a, b, h1, h2⟩ := held_split hq
        refine ⟨by simpa using hi.scripts, ?_⟩
        have h := hi.all
        rw [h1] at h
        rw [h2]
        exact h
      · simp at hs
    · simp at hs
  | put i =>
    simp only [step] at hs
    split at hs
    · rename_i q ci k r hq
      split at hs
      · simp only [Option.some.injEq] at hs
        subst hs
        obtain ⟨a, b, h1, h2⟩ := held_split hq
        refine ⟨hi.scripts, ?_⟩
        have h := hi.all
        rw [h1] at h
        rw [h2]
        simp only [holds, Option.toList_none, Option.toList_some, List.append_nil, List.append_assoc] at h ⊢
        refine List.Perm.trans ?_ h
        apply List.Perm.append_left
        exact (List.perm_middle (a := k) (l₁ := a) (l₂ := b)).symm
      · simp at hs
    · simp at hs

/-- how many script states there are -/
def count (concurrency : Nat) : Nat := if concurrency = 0 then 4 else concurrency

private theorem start_inv (n : Nat) (x : Script σ) : Inv (count n) (start n x) := by
  unfold start count
  exact ⟨by simp, by simp [held]⟩

private theorem run_inv {c : Code σ} {n : Nat} {s s' : Sys σ} (hi : Inv n s) (es : List Ev) (h : run c s es = some s') : Inv n s' := by
  induction es generalizing s with
  | nil => simp only [run, Option.some.injEq] at h; subst h; exact hi
  | cons e es ih =>
    obtain ⟨s1, h1, h2⟩ := Option.bind_eq_some_iff.mp h
    exact ih (step_inv hi e h1) h2

private theorem held_mem {qs : List (Msg × ClientInfo × Phase)} {i k : Nat} {x : Msg × ClientInfo × Phase} (h : qs[i]? = some x)
    (hk : holds x.2.2 = some k) : k ∈ held qs := by
  obtain ⟨a, b, h1, -⟩ := held_split h
  rw [h1, hk]; simp

/-- **C74.** No script state is ever used by two queries at once, and at most as many scripts run at once as configured (4 by default). -/
theorem lua_exclusive (c : Code σ) (n : Nat) (x : Script σ) (es : List Ev) (s : Sys σ) (h : run c (start n x) es = some s) :
    (∀ (i j : Nat) (xi xj : Msg × ClientInfo × Phase) (k : Nat), s.queries[i]? = some xi → s.queries[j]? = some xj → holds xi.2.2 = some k → holds xj.2.2 = some k → i = j) ∧
    (held s.queries).length ≤ count n := by
  have hi := run_inv (start_inv n x) es h
  have hnd : (s.pool ++ held s.queries).Nodup := hi.all.nodup_iff.mpr List.nodup_range
  refine ⟨?_, ?_⟩
  · intro i j xi xj k h1 h2 k1 k2
    have hn := (List.nodup_append.mp hnd).2.1
    apply Classical.byContradiction
    intro hij
    have key : ∀ (qs : List (Msg × ClientInfo × Phase)) (i j : Nat), i < j → qs[i]? = some xi ∨ qs[i]? = some xj → ∀ y, qs[i]? = some y → holds y.2.2 = some k →
        ∀ z, qs[j]? = some z → holds z.2.2 = some k → ¬ (held qs).Nodup := by
      intro qs i j hlt _ y hy hky z hz hkz hnd
      induction qs generalizing i j with
      | nil => simp at hy
      | cons w qs ih =>
        have hc : held (w :: qs) = (holds w.2.2).toList ++ held qs := by
          simp only [held, List.filterMap_cons]; cases holds w.2.2 <;> simp
        rw [hc] at hnd
        cases j with
        | zero => omega
        | succ j =>
          simp only [List.getElem?_cons_succ] at hz
          cases i with
          | zero =>
            simp only [List.getElem?_cons_zero, Option.some.injEq] at hy
            subst hy
            rw [hky] at hnd
            simp only [Option.toList_some, List.singleton_append, List.nodup_cons] at hnd
            exact hnd.1 (held_mem hz hkz)
          | succ i =>
            simp only [List.getElem?_cons_succ] at hy
            exact ih i j (by omega) (by assumption) hy hz (List.nodup_append.mp hnd).2.1
    rcases Nat.lt_or_gt_of_ne hij with hlt | hgt
    · exact key s.queries i j hlt (Or.inl h1) xi h1 k1 xj h2 k2 hn
    · exact key s.queries j i hgt (Or.inr h2) xj h2 k2 xi h1 k1 hn
  · have := hi.all.length_eq
    simp at this
    omega

/-- **C74.** Queries only wait while all script states are in use: some query can always go on, and one that runs its script or hands the
script state back is never held up. -/
theorem lua_progress (c : Code σ) (n : Nat) (x : Script σ) (es : List Ev) (s : Sys σ) (h : run c (start n x) es = some s) (i : Nat)
    (q : Msg) (ci : ClientInfo) (p : Phase) (hq : s.queries[i]? = some (q, ci, p)) :
    match p with
    | .waiting => (step c s (.take i)).isSome = true ∨ (held s.queries).length = count n
    | .using _ => (step c s (.call i)).isSome = true
    | .returning _ _ => (step c s (.put i)).isSome = true
    | .through _ => True := by
  have hi := run_inv (start_inv n x) es h
  have hl := hi.all.length_eq
  simp only [List.length_append, List.length_range] at hl
  cases p with
  | waiting =>
    simp only [step, hq]
    cases hp : s.pool with
    | nil => right; rw [hp] at hl; simpa using hl
    | cons k rest => left; rfl
  | «using» k =>
    simp only [step, hq]
    have hk : k < s.scripts.length := by
      rw [hi.scripts]
      have := held_mem hq (k := k) rfl
      have := hi.all.mem_iff (a := k) |>.mp (by simp [this])
      simpa using this
    simp [List.getElem?_eq_getElem hk]
  | returning k r =>
    simp only [step, hq]
    have := held_mem hq (k := k) rfl
    have h0 : 0 < (held s.queries).length := List.length_pos_of_mem this
    rw [if_pos (by rw [hi.scripts]; omega)]
    rfl
  | through r => trivial

/-- The message a Lua value stands for: nil is none. -/
def asMsg : Val → Option (Option Msg)
  | .nil => some none
  | .msg m => some (some m)
  | _ => none

/-- The error a Lua value stands for: nil is none. -/
def asErr : Val → Option (Option Str)
  | .nil => some none
  | .err e => some (some e)
  | _ => none

/-- **C74.** A query gets exactly the message and error its script returned (nil for none); if the script fails, or returns anything but a
message and an error, the query fails. -/
theorem lua_reply (c : Code σ) (x : Script σ) (q : Msg) (ci : ClientInfo) (hroom : x.stack.length + c.need x.vars q ci ≤ c.room)
    (answer : Option Msg) (error : Option Str) :
    reply (call c x q ci).2 = .done answer error ↔
      ∃ a b, (c.exec x.vars q ci).2 = .values a b ∧ asMsg a = some answer ∧ asErr b = some error := by
  unfold call callByParam
  rw [if_neg (by omega)]
  cases hx : c.exec x.vars q ci with
  | mk v e =>
    cases e with
    | failed e => simp [reply]
    | values a b =>
      simp only [collect]
      cases a <;> cases b <;> simp [Val.supported, reply, reply.second, asMsg, asErr] <;> grind

/-- **C74.** What a call leaves on the stack of its script state, exactly: as before, but if the second value has an unsupported type (a number, a
table, …) the first one stays there. The script's variables are as the script left them. -/
theorem lua_stack (c : Code σ) (x : Script σ) (q : Msg) (ci : ClientInfo) (hroom : x.stack.length + c.need x.vars q ci ≤ c.room) :
    (call c x q ci).1.vars = (c.exec x.vars q ci).1 ∧
    (call c x q ci).1.stack = match (c.exec x.vars q ci).2 with
      | .values a .other => a :: x.stack
      | _ => x.stack := by
  unfold call callByParam
  rw [if_neg (by omega)]
  cases hx : c.exec x.vars q ci with
  | mk v e =>
    cases e with
    | failed e => simp
    | values a b =>
      simp only [collect]
      cases a <;> cases b <;> simp [Val.supported]

/-- The reply a query has got so far. -/
def got : Phase → Option Reply
  | .returning _ r => some r
  | .through r => some r
  | _ => none

private theorem own_step {c : Code σ} {s s' : Sys σ}
    (hi : ∀ (i : Nat) (q : Msg) (ci : ClientInfo) (p : Phase) (r : Reply), s.queries[i]? = some (q, ci, p) → got p = some r →
      ∃ x : Script σ, r = reply (call c x q ci).2) (e : Ev) (hs : step c s e = some s') :
    ∀ (i : Nat) (q : Msg) (ci : ClientInfo) (p : Phase) (r : Reply), s'.queries[i]? = some (q, ci, p) → got p = some r →
      ∃ x : Script σ, r = reply (call c x q ci).2 := by
  intro i q ci p r hq hg
  cases e with
  | arrive q' ci' =>
    simp only [step, Option.some.injEq] at hs
    subst hs
    simp only [List.getElem?_append] at hq
    split at hq
    · exact hi i q ci p r hq hg
    · have hm := List.mem_of_getElem? hq
      simp only [List.mem_singleton, Prod.mk.injEq] at hm
      rw [hm.2.2] at hg
      simp [got] at hg
  | take j =>
    simp only [step] at hs
    split at hs
    · rename_i q' ci' k rest hj hp
      simp only [Option.some.injEq] at hs
      subst hs
      simp only [List.getElem?_set] at hq
      split at hq
      · split at hq
        · simp only [Option.some.injEq, Prod.mk.injEq] at hq
          rw [← hq.2.2] at hg
          simp [got] at hg
        · simp at hq
      · exact hi i q ci p r hq hg
    · simp at hs
  | call j =>
    simp only [step] at hs
    split at hs
    · rename_i q' ci' k hj
      split at hs
      · rename_i x hx
        simp only [Option.some.injEq] at hs
        subst hs
        simp only [List.getElem?_set] at hq
        split at hq
        · split at hq
          · simp only [Option.some.injEq, Prod.mk.injEq] at hq
            rw [← hq.2.2] at hg
            simp only [got, Option.some.injEq] at hg
            exact ⟨x, by rw [← hg, ← hq.1, ← hq.2.1]⟩
          · simp at hq
        · exact hi i q ci p r hq hg
      · simp at hs
    · simp at hs
  | put j =>
    simp only [step] at hs
    split at hs
    · rename_i q' ci' k r' hj
      split at hs
      · simp only [Option.some.injEq] at hs
        subst hs
        simp only [List.getElem?_set] at hq
        split at hq
        · split at hq
          · simp only [Option.some.injEq, Prod.mk.injEq] at hq
            rw [← hq.2.2] at hg
            obtain ⟨x, hx⟩ := hi j q' ci' _ r' hj rfl
            simp only [got, Option.some.injEq] at hg
            exact ⟨x, by rw [← hg, ← hq.1, ← hq.2.1]; exact hx⟩
          · simp at hq
        · exact hi i q ci p r hq hg
      · simp at hs
    · simp at hs

/-- **C74.** However queries overlap, the reply of each is that of a call of the script with this very query and client. -/
theorem lua_own_reply (c : Code σ) (n : Nat) (x0 : Script σ) (es : List Ev) (s : Sys σ) (h : run c (start n x0) es = some s)
    (i : Nat) (q : Msg) (ci : ClientInfo) (r : Reply) (hq : s.queries[i]? = some (q, ci, .through r)) :
    ∃ x : Script σ, r = reply (call c x q ci).2 := by
  have key : ∀ (es : List Ev) (s0 : Sys σ), (∀ (i : Nat) (q : Msg) (ci : ClientInfo) (p : Phase) (r : Reply), s0.queries[i]? = some (q, ci, p) →
      got p = some r → ∃ x : Script σ, r = reply (call c x q ci).2) → run c s0 es = some s →
      ∀ (i : Nat) (q : Msg) (ci : ClientInfo) (p : Phase) (r : Reply), s.queries[i]? = some (q, ci, p) → got p = some r →
        ∃ x : Script σ, r = reply (call c x q ci).2 := by
    intro es
    induction es with
    | nil => intro s0 h0 h; simp only [run, Option.some.injEq] at h; subst h; exact h0
    | cons e es ih =>
      intro s0 h0 h
      obtain ⟨s1, h1, h2⟩ := Option.bind_eq_some_iff.mp h
      exact ih s1 (own_step h0 e h1) h2
  exact key es (start n x0) (by simp [start]) h i q ci _ r hq rfl

/-- Sequential queries: each waits for the one before. -/
def serve (c : Code σ) : List (Script σ) → List (Msg × ClientInfo) → List (Script σ) × List Reply
  | pool, [] => (pool, [])
  | [], _ :: _ => ([], [])
  | x :: rest, (q, ci) :: qs =>
    let r := serve c (rest ++ [(call c x q ci).1]) qs
    (r.1, reply (call c x q ci).2 :: r.2)

private theorem serve_append (c : Code σ) (pool : List (Script σ)) (hp : pool ≠ []) (a b : List (Msg × ClientInfo)) :
    serve c pool (a ++ b) = ((serve c (serve c pool a).1 b).1, (serve c pool a).2 ++ (serve c (serve c pool a).1 b).2) := by
  induction a generalizing pool with
  | nil => simp [serve]
  | cons y a ih =>
    cases pool with
    | nil => simp at hp
    | cons x rest =>
      obtain ⟨q, ci⟩ := y
      simp only [List.cons_append, serve]
      rw [ih _ (by simp)]

private theorem serve_round (c : Code σ) (q : Msg) (ci : ClientInfo) (done todo : List (Script σ)) :
    (serve c (todo ++ done) (List.replicate todo.length (q, ci))).1 = done ++ todo.map fun x => (call c x q ci).1 := by
  induction todo generalizing done with
  | nil => simp [serve]
  | cons x rest ih =>
    simp only [List.length_cons, List.replicate_succ, List.cons_append, serve, List.map_cons]
    rw [List.append_assoc, ih]
    simp

/-- A script state whose stack is so full that no call has room any more. -/
def Dead (c : Code σ) (x : Script σ) : Prop := ∀ q ci, x.stack.length + c.need x.vars q ci > c.room

private theorem dead_call {c : Code σ} {x : Script σ} (h : Dead c x) (q : Msg) (ci : ClientInfo) :
    (call c x q ci).1 = x ∧ reply (call c x q ci).2 = .bad := by
  unfold call callByParam
  rw [if_pos (h q ci)]
  simp [reply]

private theorem dead_serve {c : Code σ} {pool : List (Script σ)} (h : ∀ x ∈ pool, Dead c x) (qs : List (Msg × ClientInfo)) :
    ∀ r ∈ (serve c pool qs).2, r = .bad := by
  induction qs generalizing pool with
  | nil => simp [serve]
  | cons y qs ih =>
    obtain ⟨q, ci⟩ := y
    cases pool with
    | nil => simp [serve]
    | cons x rest =>
      have hd := dead_call (h x (by simp)) q ci
      simp only [serve, List.mem_cons]
      rintro r (rfl | hr)
      · exact hd.2
      · refine ih ?_ r hr
        intro y hy
        simp only [List.mem_append, List.mem_singleton] at hy
        rcases hy with hy | rfl
        · exact h y (by simp [hy])
        · rw [hd.1]; exact h x (by simp)

/-- **C74, finding.** If for some query the script returns a second value of an unsupported type, each such query takes room on the stack for
good. After enough of them every query fails, also those the script would answer. (`need` is at least 1 and, for simplicity, the same
for all queries.) -/
theorem lua_wears_out (c : Code σ) (need : Nat) (hneed : ∀ v q ci, c.need v q ci = need) (n : Nat) (hn : 0 < n)
    (q : Msg) (ci : ClientInfo) (hbad : ∀ v, ∃ a, (c.exec v q ci).2 = .values a .other) (v : σ) :
    ∃ k, ∀ qs, ∀ r ∈ (serve c (serve c (List.replicate n ⟨v, []⟩) (List.replicate k (q, ci))).1 qs).2, r = .bad := by
  have one : ∀ x : Script σ, Dead c x ∨ (call c x q ci).1.stack.length = x.stack.length + 1 := by
    intro x
    by_cases h : x.stack.length + need > c.room
    · left; intro q ci; rw [hneed]; exact h
    · right
      have := (lua_stack c x q ci (by rw [hneed]; omega)).2
      obtain ⟨a, ha⟩ := hbad x.vars
      rw [ha] at this
      simp [this]
  have rounds : ∀ m, ∃ k, ∀ pool : List (Script σ), pool.length = n →
      ((serve c pool (List.replicate k (q, ci))).1).length = n ∧
      ∀ x ∈ (serve c pool (List.replicate k (q, ci))).1, Dead c x ∨ m ≤ x.stack.length := by
    intro m
    induction m with
    | zero => exact ⟨0, fun pool hp => by simp [serve, hp]⟩
    | succ m ih =>
      obtain ⟨k, hk⟩ := ih
      refine ⟨k + n, fun pool hp => ?_⟩
      obtain ⟨h1, h2⟩ := hk pool hp
      have hne : pool ≠ [] := by intro h; simp [h] at hp; omega
      rw [← List.replicate_append_replicate, serve_append c pool hne]
      simp only []
      generalize hP : (serve c pool (List.replicate k (q, ci))).1 = P at h1 h2 ⊢
      have hr := serve_round c q ci [] P
      rw [List.append_nil, h1, List.nil_append] at hr
      rw [hr]
      refine ⟨by simpa using h1, ?_⟩
      intro y hy
      simp only [List.mem_map] at hy
      obtain ⟨x, hx, rfl⟩ := hy
      rcases h2 x hx with hd | hm
      · left; rw [(dead_call hd q ci).1]; exact hd
      · rcases one x with hd | h'
        · left; rw [(dead_call hd q ci).1]; exact hd
        · right; omega
  obtain ⟨k, hk⟩ := rounds (c.room + 1)
  refine ⟨k, fun qs => dead_serve ?_ qs⟩
  intro x hx
  rcases (hk (List.replicate n ⟨v, []⟩) (by simp)).2 x hx with hd | hm
  · exact hd
  · intro q ci; omega

/-- A script that answers queries with an ID below 10 and returns a number as error for others. -/
def picky : Code Nat where
  exec v q _ := if q.id < 10 then (v + 1, .values (.msg q) .nil) else (v, .values .nil .other)
  need _ _ _ := 3
  room := 5

example : reply (call picky ⟨0, []⟩ { id := 3 } {}).2 = .done (some { id := 3 }) none ∧ (call picky ⟨0, []⟩ { id := 3 } {}).1.vars = 1 ∧
    reply (call picky ⟨0, []⟩ { id := 30 } {}).2 = .bad ∧ (call picky ⟨0, []⟩ { id := 30 } {}).1.stack = [.nil] ∧
    (serve picky [⟨0, []⟩] [({ id := 30 }, {}), ({ id := 30 }, {}), ({ id := 30 }, {}), ({ id := 3 }, {})]).2 = [.bad, .bad, .bad, .bad] := by
  decide +kernel

example : ((run picky (start 1 ⟨0, []⟩) [.arrive { id := 3 } {}, .arrive { id := 4 } {}, .take 1, .call 1, .put 1, .take 0]).map
    fun s => s.queries.map fun x => x.2.2) = some [.using 0, .through (.done (some { id := 4 }) none)] ∧
    (run picky (start 1 ⟨0, []⟩) [.arrive { id := 3 } {}, .arrive { id := 4 } {}, .take 1, .take 0]).isNone := by
  decide +kernel

end Verif.Props.Lua
