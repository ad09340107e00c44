import Verif.Spec.FdListen
/-
C88: the fd-server takes over sockets that nobody uses, and leaves those in use alone.
-/
namespace Verif.Props.FdListen
open Verif Verif.FdListen Verif.Spec.FdListen
set_option linter.unusedVariables false
set_option linter.unusedSimpArgs false

/-- All cases of a step. -/
local macro "splits" h:ident : tactic => `(tactic| (repeat' split at $h:ident) <;> cases $h:ident)

/-- Whose socket it is. -/
private def owner : Option Node → Option Nat
  | some (.sock i _) => some i
  | _ => none

private theorem owner_iff {s : Sys} {i : Nat} (h : owner s.node = some i) : IsSocketOf s i := by
  unfold IsSocketOf
  unfold owner at h
  split at h
  · rename_i p hp; cases h; exact ⟨_, hp⟩
  · cases h

private structure Inv (c : Cfg) (s : Sys) : Prop where
  holds : ∀ i, s.srv i = .bound ∨ s.srv i = .listening ∨ s.srv i = .up → owner s.node = some i
  one : ∀ i j, Opening s i → Opening s j → i = j
  refused : ∀ i, s.srv i = .refused → ∀ j, s.srv j ≠ .bound ∧ s.srv j ≠ .listening ∧ s.srv j ≠ .up
  removed : ∀ i, s.srv i = .removed → ∀ j, s.srv j ≠ .bound ∧ s.srv j ≠ .listening ∧ s.srv j ≠ .up
  mode : c.abstract = false → c.mode ≠ 0 → ∀ i, s.srv i = .up → s.node = some (.sock i (some c.mode))

private theorem inv_step {c : Cfg} {s s' : Sys} {e : Ev} (h : Inv c s) (hs : step c s e = some s') (h1 : ∀ n, e ≠ .outside n) (h2 : ∀ i err, e = .bind i err → ∀ j, ¬ Opening s j) : Inv c s' := by
  obtain ⟨a, b, r, m, md⟩ := h
  unfold Opening at *
  cases e
  case outside n => exact (h1 _ rfl).elim
  all_goals
    simp only [step] at hs
    splits hs <;> (try dsimp only at *) <;> (constructor <;> intros <;> simp only [setPhase, Opening, closed, freed, isOf, chmodded, answers, owner] at * <;> grind)

private theorem orderly_inv {c : Cfg} {s s' : Sys} {es : List Ev} (h : Inv c s) (ho : Orderly c s es) (hr : run c s es = some s') : Inv c s' := by
  induction ho with
  | done s => simp only [run, Option.some.injEq] at hr; exact hr ▸ h
  | @step s t e es h1 h2 h3 _ ih =>
    simp only [run, h1, Option.bind_some] at hr
    exact ih (inv_step h h1 h2 h3) hr

private theorem quiet_inv {c : Cfg} {s : Sys} (h : Quiet s) : Inv c s := by
  unfold Quiet at h
  constructor <;> intros <;> (try simp only [Opening] at *) <;> grind

/-- When servers start one after the other: the file at the path is the socket of the server that holds one, so at most one server accepts connections. -/
theorem one_server (c : Cfg) (s s' : Sys) (es : List Ev) (hq : Quiet s) (ho : Orderly c s es) (hr : run c s es = some s') :
    (∀ i, Holds s' i → IsSocketOf s' i) ∧ (∀ i j, Holds s' i → Holds s' j → i = j) := by
  have h := orderly_inv (quiet_inv hq) ho hr
  have h1 : ∀ i, Holds s' i → IsSocketOf s' i := fun i hi => owner_iff (h.holds i (by unfold Holds Accepts at hi; exact hi))
  refine ⟨h1, fun i j hi hj => ?_⟩
  obtain ⟨p, hp⟩ := h1 i hi
  obtain ⟨q, hq⟩ := h1 j hj
  rw [hp] at hq
  cases hq
  rfl

/-- The permissions are those configured when `listen` has returned, and stay so. -/
theorem permissions (c : Cfg) (s s' : Sys) (es : List Ev) (hq : Quiet s) (ho : Orderly c s es) (hr : run c s es = some s') (hc : c.abstract = false) (hm : c.mode ≠ 0)
    (i : Nat) (hi : s'.srv i = .up) : s'.node = some (.sock i (some c.mode)) :=
  (orderly_inv (quiet_inv hq) ho hr).mode hc hm i hi

/-- A server that starts does not touch the socket of one that accepts connections. -/
theorem others_socket_kept (c : Cfg) (s t t' : Sys) (es : List Ev) (hq : Quiet s) (ho : Orderly c s es) (hr : run c s es = some t) (i j : Nat) (hij : i ≠ j) (hj : Accepts t j)
    (e : Ev) (he : StartOf i e) (hs : step c t e = some t') : t'.node = t.node ∧ Accepts t' j := by
  obtain ⟨a, b, r, m, md⟩ := orderly_inv (quiet_inv hq) ho hr
  unfold Accepts at *
  cases e
  case outside n => exact he.elim
  case stop n => exact he.elim
  case crash n => exact he.elim
  all_goals
    simp only [StartOf] at he
    simp only [step] at hs
    splits hs <;> (try dsimp only at *) <;> simp only [setPhase, Opening, closed, freed, isOf, chmodded, answers, owner] at * <;> grind

/-- Another server, or another program, accepts connections there: the new one finds the address in use and gives up, and nothing has changed. -/
theorem in_use (c : Cfg) (s : Sys) (i : Nat) (err : Bool) (hc : c.abstract = false) (hi : s.srv i = .idle)
    (hu : s.node = some .foreign ∨ ∃ j, j ≠ i ∧ Accepts s j ∧ IsSocketOf s j) :
    ∃ s', run c s [.bind i false, .dial i err] = some s' ∧ s'.srv i = .failed ∧ s'.node = s.node ∧ ∀ j, j ≠ i → s'.srv j = s.srv j := by
  have hn : s.node ≠ none := by
    rcases hu with h | ⟨j, _, _, p, h⟩ <;> simp [h]
  have ha : answers { s with srv := setPhase s i .inUse } = true := by
    unfold answers
    rcases hu with h | ⟨j, hj, h1, p, h⟩
    · simp [h]
    · simp only [h, setPhase, hj, if_false]
      exact decide_eq_true h1
  have h1 : step c s (.bind i false) = some { s with srv := setPhase s i .inUse } := by simp [step, hi, hn, hc]
  have h2 : step c { s with srv := setPhase s i .inUse } (.dial i err) = some { node := s.node, srv := setPhase { s with srv := setPhase s i .inUse } i .failed } := by
    simp [step, ha]
    simp [setPhase]
  refine ⟨{ node := s.node, srv := setPhase { s with srv := setPhase s i .inUse } i .failed }, ?_, by simp [setPhase], rfl, ?_⟩
  · simp only [run, h1, Option.bind_some, h2]
  · intro j hj; simp [setPhase, hj]

/-- An abstract name in use: the new server gives up, and nothing has changed. -/
theorem abstract_in_use (c : Cfg) (s : Sys) (i : Nat) (hc : c.abstract = true) (hi : s.srv i = .idle) (hn : s.node ≠ none) :
    ∃ s', step c s (.bind i false) = some s' ∧ s'.srv i = .failed ∧ s'.node = s.node ∧ ∀ j, j ≠ i → s'.srv j = s.srv j :=
  ⟨{ s with srv := setPhase s i .failed }, by simp [step, hi, hn, hc], by simp [setPhase], rfl, fun j hj => by simp [setPhase, hj]⟩

/-- The socket of another program stays, whatever servers start, stop and crash, also at the same time. -/
theorem foreign_kept (c : Cfg) (s s' : Sys) (es : List Ev) (hq : Quiet s) (hf : s.node = some .foreign) (ho : ∀ n, .outside n ∉ es) (hr : run c s es = some s') :
    s'.node = some .foreign := by
  have key : ∀ (es : List Ev) (s s' : Sys), (∀ i, s.srv i = .idle ∨ s.srv i = .inUse ∨ s.srv i = .failed ∨ s.srv i = .gone) → s.node = some .foreign → (∀ n, .outside n ∉ es) →
      run c s es = some s' → s'.node = some .foreign := by
    intro es
    induction es with
    | nil => intro s s' _ hf _ hr; simp only [run, Option.some.injEq] at hr; exact hr ▸ hf
    | cons e es ih =>
      intro s s' hq hf ho hr
      simp only [run] at hr
      cases hs : step c s e with
      | none => rw [hs] at hr; cases hr
      | some t =>
        rw [hs] at hr
        have h1 : (∀ i, t.srv i = .idle ∨ t.srv i = .inUse ∨ t.srv i = .failed ∨ t.srv i = .gone) ∧ t.node = some .foreign := by
          cases e
          case outside n => exact (ho n (List.mem_cons_self ..)).elim
          all_goals
            simp only [step] at hs
            splits hs <;> (try dsimp only at *) <;> (constructor <;> intros <;> (try simp only [setPhase, closed, freed, isOf, chmodded, answers] at *) <;> grind)
        exact ih t s' h1.1 h1.2 (fun n hn => ho n (List.mem_cons_of_mem _ hn)) hr
  exact key es s s' (fun i => by rcases hq i with h | h | h <;> simp [h]) hf ho hr

/-- Something is at the path to which nobody listens: it is removed, and the server serves there, with the permissions configured. -/
theorem stale_taken_over (c : Cfg) (s : Sys) (i : Nat) (hc : c.abstract = false) (hi : s.srv i = .idle) (hn : s.node ≠ none) (hf : s.node ≠ some .foreign)
    (hd : ∀ j, Accepts s j → ¬ IsSocketOf s j) :
    ∃ s', run c s [.bind i false, .dial i false, .remove i true, .rebind i false, .listen i true, .chmod i true] = some s' ∧ s'.srv i = .up ∧
      s'.node = some (.sock i (if c.mode = 0 then none else some c.mode)) ∧ ∀ j, j ≠ i → s'.srv j = s.srv j := by
  have ha : ∀ f, (∀ j, j ≠ i → f j = s.srv j) → f i = .inUse → answers { s with srv := f } = false := by
    intro f hf1 hf2
    unfold answers
    cases hs : s.node with
    | none => rfl
    | some n => cases n with
      | dead => rfl
      | foreign => exact (hf hs).elim
      | sock j p =>
        dsimp only
        apply decide_eq_false
        by_cases hj : j = i
        · subst hj; rw [hf2]; simp
        · rw [hf1 j hj]; exact fun h => hd j h ⟨p, hs⟩
  have ha := ha (setPhase s i .inUse) (fun j hj => by simp [setPhase, hj]) (by simp [setPhase])
  have h1 : step c s (.bind i false) = some { s with srv := setPhase s i .inUse } := by simp [step, hi, hn, hc]
  have h2 : step c { s with srv := setPhase s i .inUse } (.dial i false) = some { node := s.node, srv := setPhase { s with srv := setPhase s i .inUse } i .refused } := by
    simp [step, ha, hn]
    simp [setPhase]
  simp only [run, h1, Option.bind_some, h2]
  simp only [step, setPhase, if_true, Bool.false_eq_true, false_or, hn, if_false, Option.bind_some, ne_eq, not_true_eq_false, hc, or_false, reduceCtorEq, chmodded, Bool.true_eq_false]
  by_cases hm : c.mode = 0
  · simp only [hm, if_true, Option.some.injEq, exists_eq_left', true_and, Option.bind_some]
    exact ⟨by simp [setPhase], fun j hj => by simp [setPhase, hj]⟩
  · simp only [hm, if_false, Option.some.injEq, exists_eq_left', true_and, if_true, Option.bind_some]
    exact ⟨by simp [setPhase], fun j hj => by simp [setPhase, hj]⟩

/-- Nothing is at the path: the server serves there. -/
theorem free_taken (c : Cfg) (s : Sys) (i : Nat) (hi : s.srv i = .idle) (hn : s.node = none) :
    ∃ s', run c s [.bind i false, .listen i true, .chmod i true] = some s' ∧ s'.srv i = .up ∧
      s'.node = some (.sock i (if c.mode = 0 ∨ c.abstract = true then none else some c.mode)) ∧ ∀ j, j ≠ i → s'.srv j = s.srv j := by
  simp only [run, step, hi, hn, setPhase, if_true, Bool.false_eq_true, if_false, Option.bind_some, chmodded, Bool.true_eq_false, false_or, reduceCtorEq]
  by_cases hm : c.mode = 0 ∨ c.abstract = true
  · simp only [hm, if_true, Option.bind_some, Option.some.injEq, exists_eq_left', true_and]
    exact ⟨by simp [setPhase], fun j hj => by simp [setPhase, hj]⟩
  · simp only [hm, if_false, Option.bind_some, Option.some.injEq, exists_eq_left', true_and, if_true]
    exact ⟨by simp [setPhase], fun j hj => by simp [setPhase, hj]⟩

/-- Stopped: nothing is left at the path. -/
theorem stop_cleans (c : Cfg) (s t t' : Sys) (es : List Ev) (hq : Quiet s) (ho : Orderly c s es) (hr : run c s es = some t) (i : Nat) (hs : step c t (.stop i) = some t') :
    t'.node = none ∧ ∀ j, ¬ Holds t' j := by
  obtain ⟨a, b, r, m, md⟩ := orderly_inv (quiet_inv hq) ho hr
  unfold Holds Accepts
  simp only [step] at hs
  splits hs
  simp only [setPhase, closed, freed, isOf, owner] at *
  grind

private structure Abs (s : Sys) : Prop where
  holds : ∀ i, s.srv i = .bound ∨ s.srv i = .listening ∨ s.srv i = .up → owner s.node = some i
  back : ∀ i, s.srv i ≠ .inUse ∧ s.srv i ≠ .refused ∧ s.srv i ≠ .removed

/-- With an abstract name this holds however servers start, stop and crash at the same time: the kernel gives the name to one. -/
theorem abstract_one_server (c : Cfg) (hc : c.abstract = true) (s s' : Sys) (es : List Ev) (hq : Quiet s) (hr : run c s es = some s') :
    (∀ i, Holds s' i → IsSocketOf s' i) ∧ (∀ i j, Holds s' i → Holds s' j → i = j) := by
  have hstep : ∀ s e s', Abs s → step c s e = some s' → Abs s' := by
    intro s e s' h hs
    obtain ⟨a, b⟩ := h
    cases e <;> simp only [step] at hs <;> splits hs <;> (try dsimp only at *) <;>
      (constructor <;> intros <;> simp only [setPhase, closed, freed, isOf, chmodded, answers, owner] at * <;> grind)
  have h : Abs s' := by
    have h0 : Abs s := by unfold Quiet at hq; constructor <;> intros <;> grind
    clear hq
    induction es generalizing s with
    | nil => simp only [run, Option.some.injEq] at hr; exact hr ▸ h0
    | cons e es ih =>
      simp only [run, Option.bind_eq_some_iff] at hr
      obtain ⟨t, h1, h2⟩ := hr
      exact ih t h2 (hstep _ _ _ h0 h1)
  have h1 : ∀ i, Holds s' i → IsSocketOf s' i := fun i hi => owner_iff (h.holds i (by unfold Holds Accepts at hi; exact hi))
  refine ⟨h1, fun i j hi hj => ?_⟩
  obtain ⟨p, hp⟩ := h1 i hi
  obtain ⟨q, hq⟩ := h1 j hj
  rw [hp] at hq
  cases hq
  rfl

/-! ### The mode of the command line -/

private theorem foldl_ge (s : Str) (acc : Nat) : acc ≤ s.foldl (fun acc b => acc * 8 + (b.toNat - 0x30)) acc := by
  induction s generalizing acc with
  | nil => exact Nat.le_refl _
  | cons b bs ih => exact Nat.le_trans (show acc ≤ acc * 8 + (b.toNat - 0x30) by omega) (ih _)

private theorem octal_some {s : Str} {acc n : Nat} : octal acc s = some n → (∀ b ∈ s, 0x30 ≤ b.toNat ∧ b.toNat ≤ 0x37) ∧ n = s.foldl (fun acc b => acc * 8 + (b.toNat - 0x30)) acc := by
  induction s generalizing acc with
  | nil => intro h; simp only [octal, Option.some.injEq] at h; exact ⟨by simp, h.symm⟩
  | cons b bs ih =>
    intro h
    unfold octal at h
    split at h
    · rename_i hb
      split at h
      · obtain ⟨h1, h2⟩ := ih h
        refine ⟨?_, h2⟩
        intro x hx
        cases List.mem_cons.mp hx with
        | inl he => subst he; omega
        | inr hm => exact h1 x hm
      · cases h
    · cases h

private theorem octal_of {s : Str} {acc : Nat} (h : ∀ b ∈ s, 0x30 ≤ b.toNat ∧ b.toNat ≤ 0x37) (hn : s.foldl (fun acc b => acc * 8 + (b.toNat - 0x30)) acc < 4294967296) :
    octal acc s = some (s.foldl (fun acc b => acc * 8 + (b.toNat - 0x30)) acc) := by
  induction s generalizing acc with
  | nil => rfl
  | cons b bs ih =>
    have hb := h b List.mem_cons_self
    unfold octal
    rw [List.foldl_cons] at *
    rw [if_pos (by omega), if_pos (Nat.lt_of_le_of_lt (foldl_ge bs _) hn)]
    exact ih (fun x hx => h x (List.mem_cons_of_mem _ hx)) hn

/-- The mode is accepted exactly when it is written in octal digits and sets nothing but permission bits, and it is the one written. -/
theorem mode_read (arg : Str) (h : arg ≠ []) (m : Nat) : modeOf arg = some m ↔ Denotes arg m ∧ m ≤ 0o777 := by
  unfold modeOf Denotes
  rw [if_neg h]
  constructor
  · intro hm
    split at hm
    · rename_i n hn
      obtain ⟨h1, h2⟩ := octal_some hn
      split at hm
      · cases hm
      · cases hm; exact ⟨⟨h, h1, h2⟩, by omega⟩
    · cases hm
  · rintro ⟨⟨_, h1, h2⟩, h3⟩
    rw [octal_of h1 (by rw [← h2]; omega), ← h2]
    dsimp only
    rw [if_neg (by omega)]

/-- Finding: a mode of 0 is taken for none: the socket keeps the permissions that the umask left. -/
theorem mode_zero_ignored (c : Cfg) (s s' : Sys) (i : Nat) (ok : Bool) (hm : modeOf (str "000") = some c.mode) (hs : step c s (.chmod i ok) = some s') : s'.node = s.node ∧ s'.srv i = .up := by
  have h0 : c.mode = 0 := by
    have : modeOf (str "000") = some 0 := by decide +kernel
    rw [this] at hm
    exact (Option.some.inj hm).symm
  simp only [step, h0, true_or, if_true] at hs
  split at hs
  · cases hs; exact ⟨rfl, by simp [setPhase]⟩
  · cases hs

section Examples

example : modeOf (str "0660") = some 0o660 := by decide +kernel
example : modeOf (str "0o660") = none ∧ modeOf (str "1777") = none ∧ modeOf (str "+660") = none ∧ modeOf [] = some 0 := by decide +kernel

private def view (o : Option Sys) : Option (Option Node × Phase × Phase) := o.map fun s => (s.node, s.srv 0, s.srv 1)

/-- Two servers one after the other: the second fails; when the first has crashed, a third one takes over. -/
example : view (run { mode := 0o660 } { node := some .dead } [.bind 0 false, .dial 0 false, .remove 0 true, .rebind 0 false, .listen 0 true, .chmod 0 true,
    .bind 1 false, .dial 1 false, .crash 0, .bind 2 false, .dial 2 false, .remove 2 true, .rebind 2 false, .listen 2 true, .chmod 2 true]) = some (some (.sock 2 (some 0o660)), .gone, .failed) := by
  decide +kernel

/-- Finding: two servers that start at the same time and both find a stale socket end up both serving; the second has removed the socket of the first. -/
example : view (run {} { node := some .dead } [.bind 0 false, .bind 1 false, .dial 0 false, .dial 1 false, .remove 0 true, .rebind 0 false, .listen 0 true, .chmod 0 true,
    .remove 1 true, .rebind 1 false, .listen 1 true, .chmod 1 true]) = some (some (.sock 1 none), .up, .up) := by
  decide +kernel

/-- Finding: also when nothing was at the path, if the second looks between the first one's `bind` and `listen`. -/
example : view (run {} {} [.bind 0 false, .bind 1 false, .dial 1 false, .listen 0 true, .chmod 0 true, .remove 1 true, .rebind 1 false, .listen 1 true, .chmod 1 true]) =
    some (some (.sock 1 none), .up, .up) := by
  decide +kernel

/-- Finding: after that, stopping the first removes the socket of the second, which serves on where nobody can reach it. -/
example : view (run {} {} [.bind 0 false, .bind 1 false, .dial 1 false, .listen 0 true, .chmod 0 true, .remove 1 true, .rebind 1 false, .listen 1 true, .chmod 1 true, .stop 0]) =
    some (none, .gone, .up) := by
  decide +kernel

/-- Finding: between `listen` and `chmod` connections are accepted with the permissions that the umask left. -/
example : view (run { mode := 0o600 } {} [.bind 0 false, .listen 0 true]) = some (some (.sock 0 none), .listening, .idle) := by decide +kernel

/-- A mode that cannot be set: the socket is closed and removed. -/
example : view (run { mode := 0o600 } {} [.bind 0 false, .listen 0 true, .chmod 0 false]) = some (none, .failed, .idle) := by decide +kernel

example : Quiet {} := fun i => Or.inl rfl
example : Orderly {} {} [.bind 0 false, .listen 0 true] := by
  refine .step (s' := { node := some (.sock 0 none), srv := setPhase {} 0 .bound }) rfl (by simp) ?_ (.step (s' := _) rfl (by simp) (by simp) (.done _))
  intro i err _ j h
  rcases h with h | h | h | h | h <;> cases h

/-- Two servers try for the abstract name of another program, one of them crashes. -/
example : view (run { abstract := true } { node := some .foreign } [.bind 0 false, .bind 1 true, .crash 0]) = some (some .foreign, .gone, .failed) := by decide +kernel
end Examples

end Verif.Props.FdListen
