import Verif.Model.Races
/-
C106: no data races in the state shared by goroutines. C107: no deadlocks on locks, locks are released by who took them.

The proof follows a discipline for every variable (`Policy`), checked on the code by computation (`check`), and a theorem that
the discipline excludes races in every execution with any number of goroutines. The theorems about the elements speak of executions only.
-/
namespace Verif.Props.Races
open Verif.Spec.Races Verif.Races

section Method
variable {L X C G R : Type} [DecidableEq L] [DecidableEq X] [DecidableEq C] [DecidableEq G] [DecidableEq R]

/-- how a variable is protected -/
inductive Policy (L X C G R : Type) where
  /-- by a lock: exclusively for writing -/
  | guarded (m : L)
  /-- written by one goroutine with the lock, read by others with the lock -/
  | owned (m : L) (r : R)
  /-- set once with the lock, read with the lock or after having seen it set -/
  | once (m : L)
  /-- written by one goroutine before it closes a channel, read by others after receiving from it -/
  | publish (c : C) (r : R)
  | frozen
  | atomic
deriving DecidableEq

/-- the protection of the variables of an element, who closes which channel, what was set when a goroutine is started, and an
order of the locks -/
structure Plan (L X C G R : Type) where
  policy : X → Policy L X C G R
  closer : C → R
  inherits : G → List X
  rank : L → Nat
  bound : Nat

/-- what is known about a goroutine at a place in its code -/
structure Ctx (L X C G : Type) where
  held : List (L × Mode)
  got : List C
  ensured : List X
  closed : List C
deriving DecidableEq

def Ctx.empty : Ctx L X C G := ⟨[], [], [], []⟩

def Ctx.step (p : Plan L X C G R) (σ : Ctx L X C G) : Act L X C G → Ctx L X C G
  | .acquire m md => { σ with held := (m, md) :: σ.held }
  | .release m md => { σ with held := σ.held.erase (m, md) }
  | .ensure x => { σ with ensured := x :: σ.ensured }
  | .close c => { σ with closed := c :: σ.closed }
  | .recv c => { σ with got := c :: σ.got }
  | .start g => { σ with ensured := p.inherits g ++ σ.ensured }
  | _ => σ

def Ctx.run (p : Plan L X C G R) : Ctx L X C G → List (Act L X C G) → Ctx L X C G
  | σ, [] => σ
  | σ, a :: as => Ctx.run p (σ.step p a) as

def holdsAny (σ : Ctx L X C G) (m : L) : Bool := σ.held.contains (m, .shared) || σ.held.contains (m, .exclusive)
def holdsX (σ : Ctx L X C G) (m : L) : Bool := σ.held.contains (m, .exclusive)

variable (S : System L X C G R) (p : Plan L X C G R)

/-- an action is in order -/
def okAct (r : R) (σ : Ctx L X C G) : Act L X C G → Bool
  | .acquire m _ => (σ.held.all fun h => p.rank h.1 < p.rank m) && p.rank m < p.bound
  | .release m md => σ.held.contains (m, md)
  | .read x => match p.policy x with
    | .guarded m => holdsAny σ m
    | .owned m r' => r == r' || holdsAny σ m
    | .once m => σ.ensured.contains x || holdsAny σ m
    | .publish c r' => r == r' || σ.got.contains c
    | .frozen => true
    | .atomic => false
  | .write x => match p.policy x with
    | .guarded m => holdsX σ m
    | .owned m r' => r == r' && S.unique r' && holdsX σ m
    | .once _ => false
    | .publish c r' => r == r' && S.unique r' && p.closer c == r' && !σ.closed.contains c
    | .frozen => false
    | .atomic => false
  | .ensure x => match p.policy x with
    | .once m => holdsX σ m
    | _ => false
  | .atomic x => p.policy x == .atomic
  | .close c => r == p.closer c
  | .recv _ => true
  | .spawn g => (p.inherits g).all σ.ensured.contains
  | .start _ => true

/-- the code is in order from a place on; `fin` is what must be known at its end -/
def check (r : R) (fin : Ctx L X C G → Bool) : Ctx L X C G → Code L X C G → Bool
  | σ, .done => fin σ
  | σ, .act a k => okAct S p r σ a && check r fin (σ.step p a) k
  | σ, .branch a b => check r fin σ a && check r fin σ b
  | σ, .loop b k => check r (fun τ => τ.held == σ.held && τ.closed == σ.closed) σ b && check r fin σ k

/-- the code of a kind of goroutine is in order, and it ends without locks -/
def okCode (r : R) : Bool := check S p r (fun τ => τ.held == []) Ctx.empty (S.code r)

/-- knows at least as much -/
structure Le (σ τ : Ctx L X C G) : Prop where
  held : τ.held = σ.held
  closed : τ.closed = σ.closed
  got : ∀ c, c ∈ σ.got → c ∈ τ.got
  ensured : ∀ x, x ∈ σ.ensured → x ∈ τ.ensured

omit [DecidableEq X] [DecidableEq C] [DecidableEq G] [DecidableEq R] in
theorem Le.step {σ τ : Ctx L X C G} (h : Le σ τ) (a : Act L X C G) : Le (σ.step p a) (τ.step p a) := by
  cases a <;> simp only [Ctx.step]
  case acquire => exact ⟨by simp only [h.held], h.closed, h.got, h.ensured⟩
  case release => exact ⟨by simp only [h.held], h.closed, h.got, h.ensured⟩
  case ensure x => exact ⟨h.held, h.closed, h.got, fun y hy => by
    simp only [List.mem_cons] at hy ⊢
    exact hy.imp id (h.ensured y)⟩
  case close => exact ⟨h.held, by simp only [h.closed], h.got, h.ensured⟩
  case recv => exact ⟨h.held, h.closed, fun y hy => by
    simp only [List.mem_cons] at hy ⊢
    exact hy.imp id (h.got y), h.ensured⟩
  case start => exact ⟨h.held, h.closed, h.got, fun y hy => by
    simp only [List.mem_append] at hy ⊢
    exact hy.imp id (h.ensured y)⟩
  all_goals exact h

theorem okAct_mono {r : R} {σ τ : Ctx L X C G} (h : Le σ τ) {a : Act L X C G} (ha : okAct S p r σ a = true) : okAct S p r τ a = true := by
  have hany : ∀ m, holdsAny σ m = true → holdsAny τ m = true := by
    intro m hm
    simpa only [holdsAny, h.held] using hm
  have hx : ∀ m, holdsX σ m = true → holdsX τ m = true := by
    intro m hm
    simpa only [holdsX, h.held] using hm
  cases a <;> simp only [okAct] at ha ⊢
  case acquire => simpa only [h.held] using ha
  case release => simpa only [h.held] using ha
  case read x =>
    cases hp : p.policy x <;> rw [hp] at ha <;> simp only [Bool.or_eq_true, List.contains_iff_mem] at ha ⊢
    case guarded m => exact hany m ha
    case owned m r' => exact ha.imp id (hany m)
    case once m => exact ha.imp (h.ensured x) (hany m)
    case publish c r' => exact ha.imp id (h.got c)
    case atomic => exact ha
  case write x =>
    cases hp : p.policy x <;> rw [hp] at ha <;> simp only [Bool.and_eq_true] at ha ⊢
    case guarded m => exact hx m ha
    case owned m r' => exact ⟨ha.1, hx m ha.2⟩
    case publish c r' => simpa only [h.closed] using ha
    all_goals exact ha
  case ensure x =>
    cases hp : p.policy x <;> rw [hp] at ha <;> simp only at ha ⊢
    case once m => exact hx m ha
    all_goals exact ha
  case atomic => exact ha
  case close => exact ha
  case spawn g =>
    simp only [List.all_eq_true, List.contains_iff_mem] at ha ⊢
    exact fun x hx => h.ensured x (ha x hx)

/-- every action of a list is in order, from a place on -/
def OkAll (r : R) : Ctx L X C G → List (Act L X C G) → Prop
  | _, [] => True
  | σ, a :: as => okAct S p r σ a = true ∧ OkAll r (σ.step p a) as

theorem OkAll.append {r : R} : ∀ {l l' : List (Act L X C G)} {σ : Ctx L X C G}, OkAll S p r σ l → OkAll S p r (σ.run p l) l' → OkAll S p r σ (l ++ l')
  | [], _, _, _, h' => h'
  | _ :: _, _, _, h, h' => ⟨h.1, OkAll.append h.2 h'⟩

omit [DecidableEq X] [DecidableEq C] [DecidableEq G] [DecidableEq R] in
theorem run_append : ∀ (l l' : List (Act L X C G)) (σ : Ctx L X C G), σ.run p (l ++ l') = (σ.run p l).run p l'
  | [], _, _ => rfl
  | a :: l, l', σ => run_append l l' (σ.step p a)

omit [DecidableEq X] [DecidableEq C] [DecidableEq G] [DecidableEq R] in
/-- what was received or set is not forgotten -/
theorem run_keeps : ∀ (l : List (Act L X C G)) (σ : Ctx L X C G),
    (∀ c, c ∈ σ.got → c ∈ (σ.run p l).got) ∧ ∀ x, x ∈ σ.ensured → x ∈ (σ.run p l).ensured
  | [], _ => ⟨fun _ h => h, fun _ h => h⟩
  | a :: l, σ => by
    obtain ⟨h₁, h₂⟩ := run_keeps l (σ.step p a)
    refine ⟨fun c hc => h₁ c ?_, fun x hx => h₂ x ?_⟩
    · cases a <;> simp only [Ctx.step] <;> first | exact hc | exact List.mem_cons_of_mem _ hc
    · cases a <;> simp only [Ctx.step] <;> first | exact hx | exact List.mem_cons_of_mem _ hx | exact List.mem_append_right _ hx

theorem full_ok {r : R} {c : Code L X C G} {l : List (Act L X C G)} (hf : Full c l) :
    ∀ {fin : Ctx L X C G → Bool} {σ τ : Ctx L X C G}, (∀ a b : Ctx L X C G, Le a b → fin a = true → fin b = true) →
    check S p r fin σ c = true → Le σ τ → OkAll S p r τ l ∧ fin (τ.run p l) = true := by
  induction hf with
  | done =>
    intro fin σ τ hfin hc h
    exact ⟨trivial, hfin σ τ h hc⟩
  | act _ ih =>
    intro fin σ τ hfin hc h
    simp only [check, Bool.and_eq_true] at hc
    obtain ⟨h₁, h₂⟩ := ih hfin hc.2 (h.step p _)
    exact ⟨⟨okAct_mono S p h hc.1, h₁⟩, h₂⟩
  | left _ ih =>
    intro fin σ τ hfin hc h
    simp only [check, Bool.and_eq_true] at hc
    exact ih hfin hc.1 h
  | right _ ih =>
    intro fin σ τ hfin hc h
    simp only [check, Bool.and_eq_true] at hc
    exact ih hfin hc.2 h
  | out _ ih =>
    intro fin σ τ hfin hc h
    simp only [check, Bool.and_eq_true] at hc
    exact ih hfin hc.2 h
  | @round b k l₁ l₂ _ _ ihb ihr =>
    intro fin σ τ hfin hc h
    have hc' := hc
    simp only [check, Bool.and_eq_true] at hc
    have hmono : ∀ a b : Ctx L X C G, Le a b → (a.held == σ.held && a.closed == σ.closed) = true → (b.held == σ.held && b.closed == σ.closed) = true := by
      intro a b hab ha
      simpa only [hab.held, hab.closed] using ha
    obtain ⟨h₁, h₂⟩ := ihb hmono hc.1 h
    simp only [Bool.and_eq_true, beq_iff_eq] at h₂
    have hk := run_keeps p l₁ τ
    obtain ⟨h₃, h₄⟩ := ihr hfin hc' ⟨h₂.1, h₂.2, fun c hcσ => hk.1 c (h.got c hcσ), fun x hx => hk.2 x (h.ensured x hx)⟩
    exact ⟨OkAll.append S p h₁ h₃, by rw [run_append]; exact h₄⟩

theorem runs_ok {r : R} {c : Code L X C G} {l : List (Act L X C G)} (hr : Runs c l) :
    ∀ {fin : Ctx L X C G → Bool} {σ τ : Ctx L X C G}, check S p r fin σ c = true → Le σ τ → OkAll S p r τ l := by
  induction hr with
  | here => intros; trivial
  | act _ ih =>
    intro fin σ τ hc h
    simp only [check, Bool.and_eq_true] at hc
    exact ⟨okAct_mono S p h hc.1, ih hc.2 (h.step p _)⟩
  | left _ ih =>
    intro fin σ τ hc h
    simp only [check, Bool.and_eq_true] at hc
    exact ih hc.1 h
  | right _ ih =>
    intro fin σ τ hc h
    simp only [check, Bool.and_eq_true] at hc
    exact ih hc.2 h
  | out _ ih =>
    intro fin σ τ hc h
    simp only [check, Bool.and_eq_true] at hc
    exact ih hc.2 h
  | inside _ ih =>
    intro fin σ τ hc h
    simp only [check, Bool.and_eq_true] at hc
    exact ih hc.1 h
  | @round b k l₁ l₂ hb _ ihr =>
    intro fin σ τ hc h
    have hc' := hc
    simp only [check, Bool.and_eq_true] at hc
    have hmono : ∀ a b : Ctx L X C G, Le a b → (a.held == σ.held && a.closed == σ.closed) = true → (b.held == σ.held && b.closed == σ.closed) = true := by
      intro a b hab ha
      simpa only [hab.held, hab.closed] using ha
    obtain ⟨h₁, h₂⟩ := full_ok S p hb hmono hc.1 h
    simp only [Bool.and_eq_true, beq_iff_eq] at h₂
    have hk := run_keeps p l₁ τ
    exact OkAll.append S p h₁ (ihr hc' ⟨h₂.1, h₂.2, fun c hcσ => hk.1 c (h.got c hcσ), fun x hx => hk.2 x (h.ensured x hx)⟩)

/-! ### From the code to executions -/

omit [DecidableEq L] [DecidableEq X] [DecidableEq C] [DecidableEq G] in
theorem proj_split {es : List (Tid × Act L X C G)} : ∀ {i : Nat} {t : Tid} {a : Act L X C G}, es[i]? = some (t, a) →
    proj t es = proj t (es.take i) ++ a :: proj t (es.drop (i + 1)) := by
  intro i t a h
  have hes : es = es.take i ++ (t, a) :: es.drop (i + 1) := by
    obtain ⟨hi, he⟩ := List.getElem?_eq_some_iff.1 h
    rw [← he, List.getElem_cons_drop, List.take_append_drop]
  conv => lhs; rw [hes]
  simp only [proj, List.filter_append, List.map_append, List.filter_cons, beq_self_eq_true, if_true, List.map_cons]

omit [DecidableEq L] [DecidableEq X] [DecidableEq C] [DecidableEq G] in
theorem proj_succ (es : List (Tid × Act L X C G)) (t : Tid) (i : Nat) :
    proj t (es.take (i + 1)) = proj t (es.take i) ∨ ∃ a, es[i]? = some (t, a) ∧ proj t (es.take (i + 1)) = proj t (es.take i) ++ [a] := by
  rw [List.take_add_one]
  cases h : es[i]? with
  | none => left; simp only [Option.toList_none, List.append_nil]
  | some e =>
    obtain ⟨t', a⟩ := e
    by_cases ht : t' = t
    · subst ht
      refine .inr ⟨a, rfl, ?_⟩
      simp [proj]
    · refine .inl ?_
      simp [proj, ht]

theorem OkAll.mid {r : R} : ∀ {l : List (Act L X C G)} {a : Act L X C G} {l' : List (Act L X C G)} {σ : Ctx L X C G},
    OkAll S p r σ (l ++ a :: l') → okAct S p r (σ.run p l) a = true
  | [], _, _, _, h => h.1
  | _ :: l, _, _, _, h => OkAll.mid (l := l) h.2

omit [DecidableEq X] [DecidableEq C] [DecidableEq G] [DecidableEq R] in
theorem run_held : ∀ (l : List (Act L X C G)) (σ : Ctx L X C G), (σ.run p l).held = heldAfter σ.held l
  | [], _ => rfl
  | a :: l, σ => by
    rw [Ctx.run, run_held l]
    cases a <;> rfl

/-- what is known about goroutine `t` when event `i` happens -/
def ctxAt (es : List (Tid × Act L X C G)) (t : Tid) (i : Nat) : Ctx L X C G := Ctx.empty.run p (proj t (es.take i))

omit [DecidableEq X] [DecidableEq C] [DecidableEq G] [DecidableEq R] in
theorem holds_iff {es : List (Tid × Act L X C G)} {t : Tid} {m : L} {md : Mode} {i : Nat} :
    Holds es t m md i ↔ (m, md) ∈ (ctxAt p es t i).held := by
  rw [ctxAt, run_held]
  rfl

omit [DecidableEq X] [DecidableEq C] [DecidableEq G] in
theorem heldAfter_snoc : ∀ (l : List (Act L X C G)) (h : List (L × Mode)) (a : Act L X C G),
    heldAfter h (l ++ [a]) = heldAfter (heldAfter h l) [a]
  | [], _, _ => rfl
  | b :: l, h, a => by cases b <;> exact heldAfter_snoc l _ a

omit [DecidableEq X] [DecidableEq C] [DecidableEq G] in
theorem holds_back {es : List (Tid × Act L X C G)} {t : Tid} {m : L} {md : Mode} {i : Nat} (h : Holds es t m md (i + 1)) :
    Holds es t m md i ∨ es[i]? = some (t, Act.acquire m md) := by
  rcases proj_succ es t i with hp | ⟨a, ha, hp⟩
  · left
    rw [Holds, hp] at h
    exact h
  · rw [Holds, hp, heldAfter_snoc] at h
    cases a
    case acquire m' md' =>
      simp only [heldAfter, List.mem_cons, Prod.mk.injEq] at h
      rcases h with ⟨rfl, rfl⟩ | h
      · exact .inr ha
      · exact .inl h
    case release => exact .inl (List.mem_of_mem_erase h)
    all_goals exact .inl h

omit [DecidableEq X] [DecidableEq C] [DecidableEq G] in
theorem holds_on {es : List (Tid × Act L X C G)} {t : Tid} {m : L} {md : Mode} {i : Nat} (h : Holds es t m md i) :
    Holds es t m md (i + 1) ∨ es[i]? = some (t, Act.release m md) := by
  rcases proj_succ es t i with hp | ⟨a, ha, hp⟩
  · left
    rw [Holds, hp]
    exact h
  · rw [Holds, hp, heldAfter_snoc]
    cases a
    case acquire m' md' => exact .inl (List.mem_cons_of_mem _ h)
    case release m' md' =>
      by_cases he : (m, md) = (m', md')
      · simp only [Prod.mk.injEq] at he
        obtain ⟨rfl, rfl⟩ := he
        exact .inr ha
      · exact .inl ((List.mem_erase_of_ne he).2 h)
    all_goals exact .inl h

omit [DecidableEq X] [DecidableEq C] [DecidableEq G] in
/-- who holds a lock took it and has held it since -/
theorem holds_since {es : List (Tid × Act L X C G)} {t : Tid} {m : L} {md : Mode} : ∀ {j : Nat}, Holds es t m md j →
    ∃ k, k < j ∧ es[k]? = some (t, Act.acquire m md) ∧ ∀ l, k < l → l ≤ j → Holds es t m md l := by
  intro j
  induction j with
  | zero =>
    intro h
    simp only [Holds, List.take_zero] at h
    exact absurd h (by simp [proj, heldAfter])
  | succ j ih =>
    intro h
    rcases holds_back h with h' | h'
    · obtain ⟨k, hk, he, hl⟩ := ih h'
      refine ⟨k, by omega, he, fun l h₁ h₂ => ?_⟩
      rcases Nat.lt_or_ge j l with hlt | hge
      · have : l = j + 1 := by omega
        subst this
        exact h
      · exact hl l h₁ hge
    · refine ⟨j, by omega, h', fun l h₁ h₂ => ?_⟩
      have : l = j + 1 := by omega
      subst this
      exact h

omit [DecidableEq X] [DecidableEq C] [DecidableEq G] in
/-- who held a lock and does not any more has released it -/
theorem released {es : List (Tid × Act L X C G)} {t : Tid} {m : L} {md : Mode} {i : Nat} : ∀ (d : Nat), Holds es t m md i →
    ¬ Holds es t m md (i + d) → ∃ r, i ≤ r ∧ r < i + d ∧ es[r]? = some (t, Act.release m md) := by
  intro d
  induction d with
  | zero => intro h hn; exact absurd h hn
  | succ d ih =>
    intro h hn
    by_cases hd : Holds es t m md (i + d)
    · rcases holds_on hd with h' | h'
      · exact absurd h' hn
      · exact ⟨i + d, by omega, by omega, h'⟩
    · obtain ⟨r, h₁, h₂, h₃⟩ := ih h hd
      exact ⟨r, h₁, by omega, h₃⟩

omit [DecidableEq X] [DecidableEq C] [DecidableEq G] in
/-- locks are never held in conflicting ways -/
theorem exclusion {e : Exec L X C G} (hp : e.Possible) : ∀ (i : Nat) {t t' : Tid} {m : L} {md md' : Mode}, t ≠ t' →
    Holds e.events t m md i → Holds e.events t' m md' i → md = .shared ∧ md' = .shared := by
  intro i
  induction i with
  | zero =>
    intro t t' m md md' _ h
    simp only [Holds, List.take_zero] at h
    exact absurd h (by simp [proj, heldAfter])
  | succ i ih =>
    intro t t' m md md' hne h h'
    rcases holds_back h with h₁ | h₁ <;> rcases holds_back h' with h₂ | h₂
    · exact ih hne h₁ h₂
    · exact (hp.locks i t' m md' h₂ t md h₁).symm
    · exact hp.locks i t m md h₁ t' md' h₂
    · rw [h₁] at h₂
      simp only [Option.some.injEq, Prod.mk.injEq] at h₂
      exact absurd h₂.1 hne

omit [DecidableEq X] [DecidableEq C] [DecidableEq G] in
/-- two events with one lock held, not both in shared mode, are ordered -/
theorem lock_order {e : Exec L X C G} (hp : e.Possible) {i j : Nat} {t t' : Tid} {m : L} {md md' : Mode} {a b : Act L X C G} (hij : i < j)
    (hne : t ≠ t') (hi : e.events[i]? = some (t, a)) (hj : e.events[j]? = some (t', b)) (ha : ∀ md, a ≠ .release m md)
    (h : Holds e.events t m md i) (h' : Holds e.events t' m md' j) (hc : ¬(md = .shared ∧ md' = .shared)) : HB e i j := by
  obtain ⟨k, hkj, hk, hsince⟩ := holds_since h'
  rcases Nat.lt_or_ge i k with hik | hki
  · -- taken after event `i`
    have hn : ¬ Holds e.events t m md k := fun hh => hc (by
      obtain ⟨h₁, h₂⟩ := hp.locks k t' m md' hk t md hh
      exact ⟨h₂, h₁⟩)
    obtain ⟨d, rfl⟩ := Nat.exists_eq_add_of_le (Nat.le_of_lt hik)
    obtain ⟨r, hr₁, hr₂, hr⟩ := released d h hn
    have hri : i ≠ r := by
      intro he
      rw [← he, hi] at hr
      simp only [Option.some.injEq, Prod.mk.injEq] at hr
      exact ha md hr.2
    exact .trans (.po (by omega) hi hr) (.trans (.lock (by omega) hr hk hc) (.po hkj hk hj))
  · -- taken before: both hold it at `i`
    rcases Nat.lt_or_ge k i with hlt | hge
    · exact absurd (exclusion hp i hne h (hsince i hlt (by omega))) hc
    · have : k = i := by omega
      subst this
      rw [hi] at hk
      simp only [Option.some.injEq, Prod.mk.injEq] at hk
      exact absurd hk.1 hne

omit [DecidableEq X] [DecidableEq C] [DecidableEq G] [DecidableEq R] in
theorem run_snoc (l : List (Act L X C G)) (σ : Ctx L X C G) (a : Act L X C G) : σ.run p (l ++ [a]) = (σ.run p l).step p a := by
  rw [run_append]
  rfl

omit [DecidableEq X] [DecidableEq C] [DecidableEq G] [DecidableEq R] in
theorem ctxAt_zero (es : List (Tid × Act L X C G)) (t : Tid) : ctxAt p es t 0 = Ctx.empty := by
  simp only [ctxAt, List.take_zero]
  rfl

omit [DecidableEq X] [DecidableEq C] [DecidableEq G] [DecidableEq R] in
theorem ctxAt_succ (es : List (Tid × Act L X C G)) (t : Tid) (i : Nat) :
    ctxAt p es t (i + 1) = ctxAt p es t i ∨ ∃ a, es[i]? = some (t, a) ∧ ctxAt p es t (i + 1) = (ctxAt p es t i).step p a := by
  rcases proj_succ es t i with h | ⟨a, ha, h⟩
  · left; rw [ctxAt, h]; rfl
  · refine .inr ⟨a, ha, ?_⟩
    rw [ctxAt, h, run_snoc]
    rfl

omit [DecidableEq X] [DecidableEq C] [DecidableEq G] [DecidableEq R] in
theorem got_since {es : List (Tid × Act L X C G)} {t : Tid} {c : C} : ∀ {j : Nat}, c ∈ (ctxAt p es t j).got →
    ∃ k, k < j ∧ es[k]? = some (t, Act.recv c) := by
  intro j
  induction j with
  | zero => intro h; rw [ctxAt_zero] at h; cases h
  | succ j ih =>
    intro h
    have keep : c ∈ (ctxAt p es t j).got → ∃ k, k < j + 1 ∧ es[k]? = some (t, Act.recv c) := fun h => by
      obtain ⟨k, hk, he⟩ := ih h
      exact ⟨k, by omega, he⟩
    rcases ctxAt_succ p es t j with he | ⟨a, ha, he⟩
    · rw [he] at h
      exact keep h
    · rw [he] at h
      cases a
      case recv c' =>
        simp only [Ctx.step, List.mem_cons] at h
        rcases h with rfl | h
        · exact ⟨j, by omega, ha⟩
        · exact keep h
      all_goals exact keep h

omit [DecidableEq X] [DecidableEq C] [DecidableEq G] [DecidableEq R] in
/-- what a goroutine closed is in its record -/
theorem closed_in {es : List (Tid × Act L X C G)} {t : Tid} {c : C} {k : Nat} (hk : es[k]? = some (t, Act.close c)) :
    ∀ (j : Nat), k < j → c ∈ (ctxAt p es t j).closed := by
  intro j
  induction j with
  | zero => intro h; omega
  | succ j ih =>
    intro h
    rcases Nat.lt_or_ge k j with hlt | hge
    · have hin := ih hlt
      rcases ctxAt_succ p es t j with he | ⟨a, ha, he⟩
      · rw [he]; exact hin
      · rw [he]
        cases a <;> first | exact hin | exact List.mem_cons_of_mem _ hin
    · have : k = j := by omega
      subst this
      rcases ctxAt_succ p es t k with he | ⟨a, ha, he⟩
      · exfalso
        have hlen : (proj t (es.take (k + 1))) = proj t (es.take k) ++ [Act.close c] := by
          rw [List.take_add_one, hk]
          simp [proj]
        have : (ctxAt p es t (k + 1)).closed = c :: (ctxAt p es t k).closed := by
          rw [ctxAt, hlen, run_snoc]
          rfl
        rw [he] at this
        exact absurd (congrArg List.length this) (by simp)
      · rw [hk] at ha
        simp only [Option.some.injEq, Prod.mk.injEq, true_and] at ha
        subst ha
        rw [he]
        exact List.mem_cons_self ..

variable {S p}
variable {kind : Tid → Option R} {e : Exec L X C G}

/-- every event of an execution is in order -/
theorem event_ok (hok : ∀ r, okCode S p r = true) (hx : S.Executes kind e) {i : Nat} {t : Tid} {a : Act L X C G}
    (h : e.events[i]? = some (t, a)) : ∃ r, kind t = some r ∧ okAct S p r (ctxAt p e.events t i) a = true := by
  have hs := proj_split h
  cases hk : kind t with
  | none =>
    rw [hx.absent t hk] at hs
    exact absurd hs.symm (by simp)
  | some r =>
    refine ⟨r, rfl, ?_⟩
    have hr := hx.runs t r hk
    rw [hs] at hr
    exact OkAll.mid S p (runs_ok S p hr (hok r) ⟨rfl, rfl, fun _ h => h, fun _ h => h⟩)

/-- what is known to be set was set, and that happened before -/
theorem ensured_since (hok : ∀ r, okCode S p r = true) (hx : S.Executes kind e) {x : X} : ∀ (j : Nat) {t : Tid} {a : Act L X C G},
    x ∈ (ctxAt p e.events t j).ensured → e.events[j]? = some (t, a) →
    ∃ k t', k < j ∧ e.events[k]? = some (t', Act.ensure x) ∧ HB e k j := by
  intro j
  induction j using Nat.strongRecOn with
  | ind j ih =>
    intro t a h hj
    -- the event of `t` from which `x` is known
    have hcause : ∀ j' : Nat, x ∈ (ctxAt p e.events t j').ensured → ∃ k, k < j' ∧
        (e.events[k]? = some (t, Act.ensure x) ∨ ∃ g, e.events[k]? = some (t, Act.start g) ∧ x ∈ p.inherits g) := by
      intro j'
      induction j' with
      | zero => intro h; rw [ctxAt_zero] at h; cases h
      | succ j' ih' =>
        intro h
        have keep : x ∈ (ctxAt p e.events t j').ensured → ∃ k, k < j' + 1 ∧
            (e.events[k]? = some (t, Act.ensure x) ∨ ∃ g, e.events[k]? = some (t, Act.start g) ∧ x ∈ p.inherits g) := fun h => by
          obtain ⟨k, hk, he⟩ := ih' h
          exact ⟨k, by omega, he⟩
        rcases ctxAt_succ p e.events t j' with he | ⟨a, ha, he⟩
        · rw [he] at h
          exact keep h
        · rw [he] at h
          cases a
          case ensure y =>
            simp only [Ctx.step, List.mem_cons] at h
            rcases h with rfl | h
            · exact ⟨j', by omega, .inl ha⟩
            · exact keep h
          case start g =>
            simp only [Ctx.step, List.mem_append] at h
            rcases h with h | h
            · exact ⟨j', by omega, .inr ⟨g, ha, h⟩⟩
            · exact keep h
          all_goals exact keep h
    obtain ⟨k, hk, hc⟩ := hcause j h
    rcases hc with hc | ⟨g, hc, hg⟩
    · exact ⟨k, t, hk, hc, .po hk hc hj⟩
    · obtain ⟨hlt, t', hs⟩ := hx.possible.starts k t g hc
      obtain ⟨r, hr, hoka⟩ := event_ok hok hx hs
      simp only [okAct, List.all_eq_true, List.contains_iff_mem] at hoka
      obtain ⟨k', t'', hk', he', hb⟩ := ih (e.starter k) (by omega) (hoka x hg) hs
      exact ⟨k', t'', by omega, he', .trans hb (.trans (.go hs hc) (.po hk hc hj))⟩

omit [DecidableEq X] [DecidableEq C] [DecidableEq G] [DecidableEq R] in
theorem of_holdsAny {es : List (Tid × Act L X C G)} {t : Tid} {m : L} {i : Nat} (h : holdsAny (ctxAt p es t i) m = true) : ∃ md, Holds es t m md i := by
  simp only [holdsAny, Bool.or_eq_true, List.contains_iff_mem] at h
  rcases h with h | h
  · exact ⟨_, (holds_iff p).2 h⟩
  · exact ⟨_, (holds_iff p).2 h⟩

omit [DecidableEq X] [DecidableEq C] [DecidableEq G] [DecidableEq R] in
theorem of_holdsX {es : List (Tid × Act L X C G)} {t : Tid} {m : L} {i : Nat} (h : holdsX (ctxAt p es t i) m = true) : Holds es t m .exclusive i := by
  simp only [holdsX, List.contains_iff_mem] at h
  exact (holds_iff p).2 h

/-- actions that read or write a variable -/
def IsAccess (x : X) (a : Act L X C G) : Prop := a = .read x ∨ a = .write x ∨ a = .ensure x ∨ a = .atomic x

omit [DecidableEq X] [DecidableEq C] [DecidableEq G] in
theorem ordered_by_lock (hp : e.Possible) {w o : Nat} {t t' : Tid} {m : L} {md : Mode} {a b : Act L X C G} {x : X} (hne : t ≠ t')
    (hw : e.events[w]? = some (t, a)) (ho : e.events[o]? = some (t', b)) (ha : IsAccess x a) (hb : IsAccess x b)
    (h : Holds e.events t m .exclusive w) (h' : Holds e.events t' m md o) : (w < o → HB e w o) ∧ (o < w → HB e o w) := by
  have hra : ∀ md, a ≠ .release m md := by
    rintro md rfl
    rcases ha with h | h | h | h <;> cases h
  have hrb : ∀ md, b ≠ .release m md := by
    rintro md rfl
    rcases hb with h | h | h | h <;> cases h
  exact ⟨fun hlt => lock_order hp hlt hne hw ho hra h h' (fun hc => by cases hc.1),
    fun hlt => lock_order hp hlt (Ne.symm hne) ho hw hrb h' h (fun hc => by cases hc.2)⟩

/-- a write and another access to the same variable by another goroutine are ordered -/
theorem ordered (hok : ∀ r, okCode S p r = true) (hx : S.Executes kind e) {w o : Nat} {t t' : Tid} {a b : Act L X C G} {x : X}
    (hne : t ≠ t') (hw : e.events[w]? = some (t, a)) (ho : e.events[o]? = some (t', b)) (hb : IsAccess x b)
    (hna : ¬(a = .atomic x ∧ b = .atomic x))
    (ha : a = .write x ∨ a = .atomic x ∨ (a = .ensure x ∧ ∀ (k : Nat) (t' : Tid), e.events[k]? = some (t', Act.ensure x) → w ≤ k)) :
    (w < o → HB e w o) ∧ (o < w → HB e o w) := by
  obtain ⟨r, hkr, hokw⟩ := event_ok hok hx hw
  obtain ⟨r', hkr', hoko⟩ := event_ok hok hx ho
  have haa : IsAccess x a := by
    rcases ha with h | h | h
    · exact .inr (.inl h)
    · exact .inr (.inr (.inr h))
    · exact .inr (.inr (.inl h.1))
  cases hpol : p.policy x with
  | guarded m =>
    have h₁ : Holds e.events t m .exclusive w := by
      rcases ha with rfl | rfl | ⟨rfl, _⟩ <;> simp only [okAct, hpol] at hokw
      · exact of_holdsX hokw
      · exact absurd hokw (by simp)
      · exact absurd hokw (by simp)
    have h₂ : ∃ md, Holds e.events t' m md o := by
      rcases hb with rfl | rfl | rfl | rfl <;> simp only [okAct, hpol] at hoko
      · exact of_holdsAny hoko
      · exact ⟨_, of_holdsX hoko⟩
      · exact absurd hoko (by simp)
      · exact absurd hoko (by simp)
    obtain ⟨md, h₂⟩ := h₂
    exact ordered_by_lock hx.possible hne hw ho haa hb h₁ h₂
  | owned m q =>
    rcases ha with rfl | rfl | ⟨rfl, _⟩ <;> simp only [okAct, hpol] at hokw
    rotate_left
    · exact absurd hokw (by simp)
    · exact absurd hokw (by simp)
    simp only [Bool.and_eq_true, beq_iff_eq] at hokw
    obtain ⟨⟨rfl, hu⟩, hh⟩ := hokw
    have hnr : r' ≠ r := by
      rintro rfl
      exact hne (hx.one t t' r' hkr hkr' hu)
    have h₂ : ∃ md, Holds e.events t' m md o := by
      rcases hb with rfl | rfl | rfl | rfl <;> simp only [okAct, hpol] at hoko
      · simp only [Bool.or_eq_true, beq_iff_eq] at hoko
        exact of_holdsAny (hoko.resolve_left hnr)
      · simp only [Bool.and_eq_true, beq_iff_eq] at hoko
        exact absurd hoko.1.1 hnr
      · exact absurd hoko (by simp)
      · exact absurd hoko (by simp)
    obtain ⟨md, h₂⟩ := h₂
    exact ordered_by_lock hx.possible hne hw ho haa hb (of_holdsX hh) h₂
  | once m =>
    rcases ha with rfl | rfl | ⟨rfl, hfirst⟩ <;> simp only [okAct, hpol] at hokw
    · exact absurd hokw (by simp)
    · exact absurd hokw (by simp)
    have h₁ := of_holdsX hokw
    rcases hb with rfl | rfl | rfl | rfl <;> simp only [okAct, hpol] at hoko
    · simp only [Bool.or_eq_true, List.contains_iff_mem] at hoko
      rcases hoko with hoko | hoko
      · obtain ⟨k, t'', hko, hk, hbk⟩ := ensured_since hok hx o hoko ho
        have hwk := hfirst k t'' hk
        refine ⟨fun hlt => ?_, fun hlt => by omega⟩
        rcases Nat.lt_or_ge w k with hlt' | hge
        · by_cases htt : t = t''
          · subst htt
            exact .trans (.po hlt' hw hk) hbk
          · obtain ⟨r'', _, hokk⟩ := event_ok hok hx hk
            simp only [okAct, hpol] at hokk
            exact .trans ((ordered_by_lock (x := x) hx.possible htt hw hk (.inr (.inr (.inl rfl))) (.inr (.inr (.inl rfl))) h₁
              (of_holdsX hokk)).1 hlt') hbk
        · have : k = w := by omega
          subst this
          exact hbk
      · obtain ⟨md, h₂⟩ := of_holdsAny hoko
        exact ordered_by_lock hx.possible hne hw ho haa (.inl rfl) h₁ h₂
    · exact absurd hoko (by simp)
    · exact ordered_by_lock hx.possible hne hw ho haa (.inr (.inr (.inl rfl))) h₁ (of_holdsX hoko)
    · exact absurd hoko (by simp)
  | publish c q =>
    rcases ha with rfl | rfl | ⟨rfl, _⟩ <;> simp only [okAct, hpol] at hokw
    rotate_left
    · exact absurd hokw (by simp)
    · exact absurd hokw (by simp)
    simp only [Bool.and_eq_true, beq_iff_eq, Bool.not_eq_true', List.contains_eq_mem, decide_eq_false_iff_not] at hokw
    obtain ⟨⟨⟨rfl, hu⟩, hcl⟩, hnc⟩ := hokw
    have hnr : r' ≠ r := by
      rintro rfl
      exact hne (hx.one t t' r' hkr hkr' hu)
    have hgot : c ∈ (ctxAt p e.events t' o).got := by
      rcases hb with rfl | rfl | rfl | rfl <;> simp only [okAct, hpol] at hoko
      · simp only [Bool.or_eq_true, beq_iff_eq, List.contains_iff_mem] at hoko
        exact hoko.resolve_left hnr
      · simp only [Bool.and_eq_true, beq_iff_eq] at hoko
        exact absurd hoko.1.1.1 hnr
      · exact absurd hoko (by simp)
      · exact absurd hoko (by simp)
    obtain ⟨k, hko, hk⟩ := got_since p hgot
    obtain ⟨l, t'', hlk, hl⟩ := hx.possible.recvs k t' c hk
    obtain ⟨r'', hkr'', hokl⟩ := event_ok hok hx hl
    simp only [okAct, beq_iff_eq] at hokl
    have ht : t'' = t := hx.one t'' t r (by rw [hkr'', hokl, hcl]) hkr hu
    subst ht
    have hwl : w ≤ l := by
      rcases Nat.lt_or_ge l w with h | h
      · exact absurd (closed_in p hl w h) hnc
      · exact h
    have hwl' : w ≠ l := by
      rintro rfl
      rw [hw] at hl
      simp at hl
    exact ⟨fun _ => .trans (.po (by omega) hw hl) (.trans (.chan hlk hl hk) (.po hko hk ho)), fun hlt => by omega⟩
  | frozen =>
    rcases ha with rfl | rfl | ⟨rfl, _⟩ <;> simp only [okAct, hpol] at hokw <;> exact absurd hokw (by simp)
  | atomic =>
    rcases ha with rfl | rfl | ⟨rfl, _⟩ <;> simp only [okAct, hpol] at hokw
    · exact absurd hokw (by simp)
    · rcases hb with rfl | rfl | rfl | rfl <;> simp only [okAct, hpol] at hoko
      · exact absurd hoko (by simp)
      · exact absurd hoko (by simp)
      · exact absurd hoko (by simp)
      · exact absurd ⟨rfl, rfl⟩ hna
    · exact absurd hokw (by simp)

omit [DecidableEq L] [DecidableEq X] [DecidableEq C] [DecidableEq G] in
theorem access_of {i : Nat} {x : X} (h : Accesses e i x) : ∃ t a, e.events[i]? = some (t, a) ∧ IsAccess x a := by
  obtain ⟨t, h | h | h | h⟩ := h
  · exact ⟨t, _, h, .inl rfl⟩
  · exact ⟨t, _, h, .inr (.inl rfl)⟩
  · exact ⟨t, _, h, .inr (.inr (.inl rfl))⟩
  · exact ⟨t, _, h, .inr (.inr (.inr rfl))⟩

omit [DecidableEq L] [DecidableEq X] [DecidableEq C] [DecidableEq G] in
theorem write_of {i : Nat} {x : X} {t : Tid} {a : Act L X C G} (h : Writes e i x) (hi : e.events[i]? = some (t, a)) :
    a = .write x ∨ a = .atomic x ∨ (a = .ensure x ∧ ∀ (k : Nat) (t' : Tid), e.events[k]? = some (t', Act.ensure x) → i ≤ k) := by
  obtain ⟨t', h⟩ := h
  rw [hi] at h
  simp only [Option.some.injEq, Prod.mk.injEq] at h
  rcases h with h | h | h
  · exact .inl h.2
  · exact .inr (.inl h.2)
  · exact .inr (.inr ⟨h.1.2, h.2⟩)

/-- **The method is sound**: if the code of all goroutines of an element is in order, none of its executions has a data race. -/
theorem no_race (hok : ∀ r, okCode S p r = true) (hx : S.Executes kind e) : ¬ Race e := by
  rintro ⟨i, j, x, hij, hai, haj, hw, hat, hnb⟩
  obtain ⟨t, a, hi, ha⟩ := access_of hai
  obtain ⟨t', b, hj, hb⟩ := access_of haj
  by_cases htt : t = t'
  · subst htt
    exact hnb (.po hij hi hj)
  · have hna : ¬(a = .atomic x ∧ b = .atomic x) := by
      rintro ⟨rfl, rfl⟩
      exact hat ⟨⟨t, hi⟩, ⟨t', hj⟩⟩
    rcases hw with hw | hw
    · exact hnb ((ordered hok hx htt hi hj hb hna (write_of hw hi)).1 hij)
    · exact hnb ((ordered hok hx (Ne.symm htt) hj hi ha (fun h => hna h.symm) (write_of hw hj)).2 hij)

/-! ### Locks -/

/-- a goroutine that is about to do something: it can still do that -/
def AboutTo (S : System L X C G R) (kind : Tid → Option R) (e : Exec L X C G) (next : Tid → Option (Act L X C G)) : Prop :=
  ∀ t a, next t = some a → ∃ r, kind t = some r ∧ Runs (S.code r) (proj t e.events ++ [a])

omit [DecidableEq X] [DecidableEq C] [DecidableEq G] [DecidableEq R] in
theorem ctxAt_end (es : List (Tid × Act L X C G)) (t : Tid) : ctxAt p es t es.length = Ctx.empty.run p (proj t es) := by
  rw [ctxAt, List.take_length]

/-- what a goroutine is about to do is in order -/
theorem next_ok (hok : ∀ r, okCode S p r = true) {next : Tid → Option (Act L X C G)} (hn : AboutTo S kind e next) {t : Tid}
    {a : Act L X C G} (h : next t = some a) : ∃ r, okAct S p r (ctxAt p e.events t e.events.length) a = true := by
  obtain ⟨r, _, hr⟩ := hn t a h
  refine ⟨r, ?_⟩
  rw [ctxAt_end]
  exact OkAll.mid S p (l' := []) (runs_ok S p hr (hok r) ⟨rfl, rfl, fun _ h => h, fun _ h => h⟩)

/-- **No deadlock** by locks: goroutines never wait in a circle for locks they hold, nor one for a lock of its own. -/
theorem no_deadlock (hok : ∀ r, okCode S p r = true) {next : Tid → Option (Act L X C G)} (hn : AboutTo S kind e next) (Q : Tid → Prop) :
    ¬ Deadlock e next Q := by
  rintro ⟨⟨t, ht⟩, hall⟩
  -- ranks of wanted locks grow for ever
  have hgrow : ∀ n : Nat, ∃ t m md, Q t ∧ next t = some (Act.acquire m md) ∧ n ≤ p.rank m := by
    intro n
    induction n with
    | zero =>
      obtain ⟨m, md, hm, _⟩ := hall t ht
      exact ⟨t, m, md, ht, hm, Nat.zero_le _⟩
    | succ n ih =>
      obtain ⟨t₁, m₁, md₁, hQ₁, hm₁, hle⟩ := ih
      obtain ⟨m, md, hm, t', md', hQ', hh⟩ := hall t₁ hQ₁
      rw [hm₁] at hm
      cases hm
      obtain ⟨m₂, md₂, hm₂, _⟩ := hall t' hQ'
      refine ⟨t', m₂, md₂, hQ', hm₂, ?_⟩
      obtain ⟨r, hr⟩ := next_ok hok hn hm₂
      simp only [okAct, Bool.and_eq_true, List.all_eq_true, decide_eq_true_eq] at hr
      have := hr.1 _ ((holds_iff p).1 hh)
      simp only at this
      omega
  obtain ⟨t', m, md, _, hm, hle⟩ := hgrow p.bound
  obtain ⟨r, hr⟩ := next_ok hok hn hm
  simp only [okAct, Bool.and_eq_true, decide_eq_true_eq] at hr
  omega

/-- **Locks are released by who holds them**: no `Unlock` or `RUnlock` of a lock that the goroutine does not hold in that way. -/
theorem release_held (hok : ∀ r, okCode S p r = true) (hx : S.Executes kind e) {i : Nat} {t : Tid} {m : L} {md : Mode}
    (h : e.events[i]? = some (t, Act.release m md)) : Holds e.events t m md i := by
  obtain ⟨r, _, hr⟩ := event_ok hok hx h
  simp only [okAct, List.contains_iff_mem] at hr
  exact (holds_iff p).2 hr

/-- **Locks are released**: a goroutine that came to its end holds none. -/
theorem end_free (hok : ∀ r, okCode S p r = true) {r : R} {l : List (Act L X C G)} (hf : Full (S.code r) l) : heldAfter [] l = [] := by
  have h := (full_ok S p hf (fin := fun τ => τ.held == []) (fun a b hab ha => by simpa only [hab.held] using ha) (hok r)
    (τ := Ctx.empty) ⟨rfl, rfl, fun _ h => h, fun _ h => h⟩).2
  simp only [beq_iff_eq, run_held] at h
  exact h

end Method

/-- What C107 says of an element: goroutines never wait for each other's locks in a circle (nor for a lock of their own), every release is
by a holder, and who came to the end holds no lock. -/
structure LocksSound {L X C G R : Type} [DecidableEq L] (S : System L X C G R) : Prop where
  deadlock : ∀ (kind : Tid → Option R) (e : Exec L X C G) (next : Tid → Option (Act L X C G)) (Q : Tid → Prop), S.Executes kind e →
    AboutTo S kind e next → ¬ Deadlock e next Q
  release : ∀ (kind : Tid → Option R) (e : Exec L X C G) (i : Nat) (t : Tid) (m : L) (md : Mode), S.Executes kind e →
    e.events[i]? = some (t, Act.release m md) → Holds e.events t m md i
  free : ∀ (r : R) (l : List (Act L X C G)), Full (S.code r) l → heldAfter [] l = []

/-- What C106 says of an element: no execution by any number of goroutines has a data race. -/
def RaceFree {L X C G R : Type} [DecidableEq L] (S : System L X C G R) : Prop :=
  ∀ (kind : Tid → Option R) (e : Exec L X C G), S.Executes kind e → ¬ Race e

section
variable {L X C G R : Type} [DecidableEq L] [DecidableEq X] [DecidableEq C] [DecidableEq G] [DecidableEq R]

theorem raceFree_of {S : System L X C G R} (p : Plan L X C G R) (hok : ∀ r, okCode S p r = true) : RaceFree S :=
  fun _ _ hx => no_race hok hx

theorem locksSound_of {S : System L X C G R} (p : Plan L X C G R) (hok : ∀ r, okCode S p r = true) : LocksSound S where
  deadlock := fun _ _ _ Q _ hn => no_deadlock hok hn Q
  release := fun _ _ _ _ _ _ hx h => release_held hok hx h
  free := fun _ _ hf => end_free hok hf

end

/-! ### The elements -/

private def failbackPlan : Plan Mu FailBack.X Nothing Nothing FailBack.R where
  policy := fun x => match x with
    | .active => .guarded .mu
    | .failCh => .once .mu
    | .available => .atomic
    | .failover => .atomic
  closer := fun c => nomatch c
  inherits := fun g => nomatch g
  rank := fun _ => 0
  bound := 1

private theorem failback_ok : ∀ r, okCode FailBack.system failbackPlan r = true := by
  intro r
  cases r <;> decide

/-- No data races in the fail-back group. -/
theorem failback_no_race : RaceFree FailBack.system := raceFree_of failbackPlan failback_ok

/-- Locks of the fail-back group: no deadlock, released by holders, none kept. -/
theorem failback_locks : LocksSound FailBack.system := locksSound_of failbackPlan failback_ok

private def failrotatePlan : Plan Mu FailRotate.X Nothing Nothing Unit where
  policy := fun x => match x with
    | .active => .guarded .mu
    | .failover => .atomic
  closer := fun c => nomatch c
  inherits := fun g => nomatch g
  rank := fun _ => 0
  bound := 1

private theorem failrotate_ok : ∀ r, okCode FailRotate.system failrotatePlan r = true := by
  intro r
  cases r
  decide

/-- No data races in the fail-rotate group. -/
theorem failrotate_no_race : RaceFree FailRotate.system := raceFree_of failrotatePlan failrotate_ok

/-- Locks of the fail-rotate group: no deadlock, released by holders, none kept. -/
theorem failrotate_locks : LocksSound FailRotate.system := locksSound_of failrotatePlan failrotate_ok

private def roundrobinPlan : Plan Mu RoundRobin.X Nothing Nothing Unit where
  policy := fun x => match x with
    | .current => .guarded .mu
    | .route => .atomic
    | .failure => .atomic
  closer := fun c => nomatch c
  inherits := fun g => nomatch g
  rank := fun _ => 0
  bound := 1

private theorem roundrobin_ok : ∀ r, okCode RoundRobin.system roundrobinPlan r = true := by
  intro r
  cases r
  decide

/-- No data races in the round-robin group. -/
theorem roundrobin_no_race : RaceFree RoundRobin.system := raceFree_of roundrobinPlan roundrobin_ok

/-- Locks of the round-robin group: no deadlock, released by holders, none kept. -/
theorem roundrobin_locks : LocksSound RoundRobin.system := locksSound_of roundrobinPlan roundrobin_ok

private def randomPlan : Plan Mu Random.X Nothing Random.G Random.R where
  policy := fun x => match x with
    | .resolvers => .guarded .mu
    | .available => .atomic
    | .failover => .atomic
  closer := fun c => nomatch c
  inherits := fun _ => []
  rank := fun _ => 0
  bound := 1

private theorem random_ok : ∀ r, okCode Random.system randomPlan r = true := by
  intro r
  cases r <;> decide

/-- No data races in the random group. -/
theorem random_no_race : RaceFree Random.system := raceFree_of randomPlan random_ok

/-- Locks of the random group: no deadlock, released by holders, none kept. -/
theorem random_locks : LocksSound Random.system := locksSound_of randomPlan random_ok

private def loadbalancePlan : Plan Mu LoadBalance.X Nothing Nothing Unit where
  policy := fun x => match x with
    | .rttEMA => .guarded .mu
    | .count => .guarded .mu
    | .emaInflated => .guarded .mu
    | .consecFails => .atomic
    | .rttVar => .atomic
  closer := fun c => nomatch c
  inherits := fun g => nomatch g
  rank := fun _ => 0
  bound := 1

private theorem loadbalance_ok : ∀ r, okCode LoadBalance.system loadbalancePlan r = true := by
  intro r
  cases r
  decide

/-- No data races in the load-balancing group. -/
theorem loadbalance_no_race : RaceFree LoadBalance.system := raceFree_of loadbalancePlan loadbalance_ok

/-- Locks of the load-balancing group: no deadlock, released by holders, none kept. -/
theorem loadbalance_locks : LocksSound LoadBalance.system := locksSound_of loadbalancePlan loadbalance_ok

private def ratelimiterPlan : Plan Mu RateLimiter.X Nothing Nothing Unit where
  policy := fun x => match x with
    | .currWinID => .guarded .mu
    | .counters => .guarded .mu
    | .counter => .guarded .mu
    | .metrics => .atomic
  closer := fun c => nomatch c
  inherits := fun g => nomatch g
  rank := fun _ => 0
  bound := 1

private theorem ratelimiter_ok : ∀ r, okCode RateLimiter.system ratelimiterPlan r = true := by
  intro r
  cases r
  decide

/-- No data races in the rate limiter. -/
theorem ratelimiter_no_race : RaceFree RateLimiter.system := raceFree_of ratelimiterPlan ratelimiter_ok

/-- Locks of the rate limiter: no deadlock, released by holders, none kept. -/
theorem ratelimiter_locks : LocksSound RateLimiter.system := locksSound_of ratelimiterPlan ratelimiter_ok

private def blocklistPlan : Plan Mu Blocklist.X Nothing Nothing Blocklist.R where
  policy := fun x => match x with
    | .blocklistDB => .owned .mu .refreshBlock
    | .allowlistDB => .owned .mu .refreshAllow
  closer := fun c => nomatch c
  inherits := fun g => nomatch g
  rank := fun _ => 0
  bound := 1

private theorem blocklist_ok : ∀ r, okCode Blocklist.system blocklistPlan r = true := by
  intro r
  cases r <;> decide

/-- No data races in the query blocklist. -/
theorem blocklist_no_race : RaceFree Blocklist.system := raceFree_of blocklistPlan blocklist_ok

/-- Locks of the query blocklist: no deadlock, released by holders, none kept. -/
theorem blocklist_locks : LocksSound Blocklist.system := locksSound_of blocklistPlan blocklist_ok

private def listsPlan : Plan Mu ListElement.X Nothing Nothing ListElement.R where
  policy := fun _ => .owned .mu .refresh
  closer := fun c => nomatch c
  inherits := fun g => nomatch g
  rank := fun _ => 0
  bound := 1

private theorem lists_ok : ∀ r, okCode ListElement.system listsPlan r = true := by
  intro r
  cases r <;> decide

/-- No data races in the client blocklist and the response blocklists. -/
theorem lists_no_race : RaceFree ListElement.system := raceFree_of listsPlan lists_ok

/-- Locks of the client blocklist and the response blocklists: no deadlock, released by holders, none kept. -/
theorem lists_locks : LocksSound ListElement.system := locksSound_of listsPlan lists_ok

private def memoryPlan : Plan Memory.L Memory.X Nothing Nothing Memory.R where
  policy := fun x => match x with
    | .lru => .guarded .mu
    | .blob => .frozen
    | .file => .guarded .saveMu
  closer := fun c => nomatch c
  inherits := fun g => nomatch g
  rank := fun m => match m with
    | .saveMu => 0
    | .mu => 1
  bound := 2

private theorem memory_ok : ∀ r, okCode Memory.system memoryPlan r = true := by
  intro r
  cases r <;> decide

/-- No data races in the memory cache and its file. -/
theorem memory_no_race : RaceFree Memory.system := raceFree_of memoryPlan memory_ok

/-- Locks of the memory cache and its file: no deadlock, released by holders, none kept. -/
theorem memory_locks : LocksSound Memory.system := locksSound_of memoryPlan memory_ok

private def shufflePlan : Plan Shuffle.L Shuffle.X Nothing Shuffle.G Shuffle.R where
  policy := fun x => match x with
    | .state => .once .once
    | .map => .guarded .mu
    | .reads => .atomic
    | .expiry => .frozen
  closer := fun c => nomatch c
  inherits := fun _ => [.state]
  rank := fun _ => 0
  bound := 1

private theorem shuffle_ok : ∀ r, okCode Shuffle.system shufflePlan r = true := by
  intro r
  cases r <;> decide

/-- No data races in the state of round-robin shuffling. -/
theorem shuffle_no_race : RaceFree Shuffle.system := raceFree_of shufflePlan shuffle_ok

/-- Locks of the state of round-robin shuffling: no deadlock, released by holders, none kept. -/
theorem shuffle_locks : LocksSound Shuffle.system := locksSound_of shufflePlan shuffle_ok

private def dedupPlan : Plan Mu Dedup.X Dedup.C Nothing Dedup.R where
  policy := fun x => match x with
    | .inflight => .guarded .mu
    | _ => .publish .done .leader
  closer := fun _ => .leader
  inherits := fun g => nomatch g
  rank := fun _ => 0
  bound := 1

private theorem dedup_ok : ∀ r, okCode Dedup.system dedupPlan r = true := by
  intro r
  cases r <;> decide

/-- No data races in the de-duplication of requests. -/
theorem dedup_no_race : RaceFree Dedup.system := raceFree_of dedupPlan dedup_ok

/-- Locks of the de-duplication of requests: no deadlock, released by holders, none kept. -/
theorem dedup_locks : LocksSound Dedup.system := locksSound_of dedupPlan dedup_ok

private def pipelinePlan : Plan Mu Pipeline.X Pipeline.C Nothing Pipeline.R where
  policy := fun x => match x with
    | .requests => .guarded .mu
    | .maxLen => .guarded .mu
    | .id => .guarded .mu
    | .answer => .publish .done .completer
    | .err => .publish .done .completer
    | .query => .frozen
  closer := fun _ => .completer
  inherits := fun g => nomatch g
  rank := fun _ => 0
  bound := 1

private theorem pipeline_ok : ∀ r, okCode Pipeline.system pipelinePlan r = true := by
  intro r
  cases r <;> decide

/-- No data races in pipelined connections. -/
theorem pipeline_no_race : RaceFree Pipeline.system := raceFree_of pipelinePlan pipeline_ok

/-- Locks of pipelined connections: no deadlock, released by holders, none kept. -/
theorem pipeline_locks : LocksSound Pipeline.system := locksSound_of pipelinePlan pipeline_ok

private def quicPlan : Plan Mu Quic.X Nothing Nothing Unit where
  policy := fun _ => .guarded .mu
  closer := fun c => nomatch c
  inherits := fun g => nomatch g
  rank := fun _ => 0
  bound := 1

private theorem quic_ok : ∀ r, okCode Quic.system quicPlan r = true := by
  intro r
  cases r
  decide

/-- No data races in DNS-over-QUIC connections. -/
theorem quic_no_race : RaceFree Quic.system := raceFree_of quicPlan quic_ok

/-- Locks of DNS-over-QUIC connections: no deadlock, released by holders, none kept. -/
theorem quic_locks : LocksSound Quic.system := locksSound_of quicPlan quic_ok

private def odohPlan : Plan Mu Odoh.X Nothing Nothing Unit where
  policy := fun _ => .guarded .mu
  closer := fun c => nomatch c
  inherits := fun g => nomatch g
  rank := fun _ => 0
  bound := 1

private theorem odoh_ok : ∀ r, okCode Odoh.system odohPlan r = true := by
  intro r
  cases r
  decide

/-- No data races in the key of the ODoH client. -/
theorem odoh_no_race : RaceFree Odoh.system := raceFree_of odohPlan odoh_ok

/-- Locks of the key of the ODoH client: no deadlock, released by holders, none kept. -/
theorem odoh_locks : LocksSound Odoh.system := locksSound_of odohPlan odoh_ok

private def keystorePlan : Plan Keystore.L Keystore.X Nothing Nothing Unit where
  policy := fun x => match x with
    | .store => .guarded .store
    | .keys => .guarded .entry
    | .ds => .guarded .entry
  closer := fun c => nomatch c
  inherits := fun g => nomatch g
  rank := fun _ => 0
  bound := 1

private theorem keystore_ok : ∀ r, okCode Keystore.system keystorePlan r = true := by
  intro r
  cases r
  decide

/-- No data races in the key store of the validator. -/
theorem keystore_no_race : RaceFree Keystore.system := raceFree_of keystorePlan keystore_ok

/-- Locks of the key store of the validator: no deadlock, released by holders, none kept. -/
theorem keystore_locks : LocksSound Keystore.system := locksSound_of keystorePlan keystore_ok

private def listenerPlan : Plan Mu Listener.X Nothing Nothing Listener.R where
  policy := fun _ => .guarded .mu
  closer := fun c => nomatch c
  inherits := fun g => nomatch g
  rank := fun _ => 0
  bound := 1

private theorem listener_ok : ∀ r, okCode Listener.system listenerPlan r = true := by
  intro r
  cases r <;> decide

/-- No data races in the admin, DoH and DoQ listeners. -/
theorem listener_no_race : RaceFree Listener.system := raceFree_of listenerPlan listener_ok

/-- Locks of the admin, DoH and DoQ listeners: no deadlock, released by holders, none kept. -/
theorem listener_locks : LocksSound Listener.system := locksSound_of listenerPlan listener_ok

private def xsocketPlan : Plan Mu XSocket.X Nothing Nothing XSocket.R where
  policy := fun _ => .guarded .mu
  closer := fun c => nomatch c
  inherits := fun g => nomatch g
  rank := fun _ => 0
  bound := 1

private theorem xsocket_ok : ∀ r, okCode XSocket.system xsocketPlan r = true := by
  intro r
  cases r <;> decide

/-- No data races in the socket server. -/
theorem xsocket_no_race : RaceFree XSocket.system := raceFree_of xsocketPlan xsocket_ok

/-- Locks of the socket server: no deadlock, released by holders, none kept. -/
theorem xsocket_locks : LocksSound XSocket.system := locksSound_of xsocketPlan xsocket_ok

private def watcherPlan : Plan Watcher.L Watcher.X Nothing Watcher.G Watcher.R where
  policy := fun x => match x with
    | .nsWatcher => .once .once
    | .nsWatcherErr => .once .once
    | _ => .guarded .mu
  closer := fun c => nomatch c
  inherits := fun _ => []
  rank := fun _ => 0
  bound := 1

private theorem watcher_ok : ∀ r, okCode Watcher.system watcherPlan r = true := by
  intro r
  cases r <;> decide

/-- No data races in the watcher of network namespaces. -/
theorem watcher_no_race : RaceFree Watcher.system := raceFree_of watcherPlan watcher_ok

/-- Locks of the watcher of network namespaces: no deadlock, released by holders, none kept. -/
theorem watcher_locks : LocksSound Watcher.system := locksSound_of watcherPlan watcher_ok

private def socksPlan : Plan Socks.L Socks.X Nothing Nothing Unit where
  policy := fun _ => .once .once
  closer := fun c => nomatch c
  inherits := fun g => nomatch g
  rank := fun _ => 0
  bound := 1

private theorem socks_ok : ∀ r, okCode Socks.system socksPlan r = true := by
  intro r
  cases r
  decide

/-- No data races in the SOCKS5 dialer. -/
theorem socks_no_race : RaceFree Socks.system := raceFree_of socksPlan socks_ok

/-- Locks of the SOCKS5 dialer: no deadlock, released by holders, none kept. -/
theorem socks_locks : LocksSound Socks.system := locksSound_of socksPlan socks_ok

section Examples

/-! Deciding whether a list of events is an execution, for the examples. -/

section Decide
variable {L X C G R : Type} [DecidableEq L] [DecidableEq X] [DecidableEq C] [DecidableEq G] [DecidableEq R]

/-- what is left of the actions after the whole code -/
private def fulls : Nat → Code L X C G → List (Act L X C G) → List (List (Act L X C G))
  | 0, _, _ => []
  | _ + 1, .done, l => [l]
  | n + 1, .act a k, l => match l with
    | b :: l' => if a = b then fulls n k l' else []
    | [] => []
  | n + 1, .branch a b, l => fulls n a l ++ fulls n b l
  | n + 1, .loop b k, l => fulls n k l ++ (fulls n b l).flatMap (fulls n (.loop b k))

private def runsB : Nat → Code L X C G → List (Act L X C G) → Bool
  | 0, _, _ => false
  | _ + 1, .done, l => l.isEmpty
  | n + 1, .act a k, l => match l with
    | b :: l' => a = b && runsB n k l'
    | [] => true
  | n + 1, .branch a b, l => runsB n a l || runsB n b l
  | n + 1, .loop b k, l => runsB n k l || runsB n b l || (fulls n b l).any (runsB n (.loop b k))

private theorem fulls_sound : ∀ (n : Nat) (c : Code L X C G) (l l' : List (Act L X C G)), l' ∈ fulls n c l → ∃ l₁, l = l₁ ++ l' ∧ Full c l₁ := by
  intro n
  induction n with
  | zero => intro c l l' h; cases h
  | succ n ih =>
    intro c l l' h
    cases c with
    | done =>
      simp only [fulls, List.mem_singleton] at h
      exact ⟨[], by simp [h], .done⟩
    | act a k =>
      cases l with
      | nil => simp [fulls] at h
      | cons b l =>
        simp only [fulls] at h
        split at h
        · next hab =>
          subst hab
          obtain ⟨l₁, rfl, hf⟩ := ih k l l' h
          exact ⟨a :: l₁, rfl, .act hf⟩
        · cases h
    | branch a b =>
      simp only [fulls, List.mem_append] at h
      rcases h with h | h
      · obtain ⟨l₁, hl, hf⟩ := ih a l l' h
        exact ⟨l₁, hl, .left hf⟩
      · obtain ⟨l₁, hl, hf⟩ := ih b l l' h
        exact ⟨l₁, hl, .right hf⟩
    | loop b k =>
      simp only [fulls, List.mem_append, List.mem_flatMap] at h
      rcases h with h | ⟨l₂, h₁, h₂⟩
      · obtain ⟨l₁, hl, hf⟩ := ih k l l' h
        exact ⟨l₁, hl, .out hf⟩
      · obtain ⟨l₁, rfl, hf⟩ := ih b l l₂ h₁
        obtain ⟨l₃, rfl, hf'⟩ := ih (.loop b k) l₂ l' h₂
        exact ⟨l₁ ++ l₃, by simp, .round hf hf'⟩

private theorem runsB_sound : ∀ (n : Nat) (c : Code L X C G) (l : List (Act L X C G)), runsB n c l = true → Runs c l := by
  intro n
  induction n with
  | zero => intro c l h; cases h
  | succ n ih =>
    intro c l h
    cases c with
    | done =>
      simp only [runsB, List.isEmpty_iff] at h
      subst h
      exact .here
    | act a k =>
      cases l with
      | nil => exact .here
      | cons b l =>
        simp only [runsB, Bool.and_eq_true, decide_eq_true_eq] at h
        obtain ⟨rfl, h⟩ := h
        exact .act (ih k l h)
    | branch a b =>
      simp only [runsB, Bool.or_eq_true] at h
      exact h.elim (fun h => .left (ih a l h)) (fun h => .right (ih b l h))
    | loop b k =>
      simp only [runsB, Bool.or_eq_true, List.any_eq_true] at h
      rcases h with (h | h) | ⟨l', h₁, h₂⟩
      · exact .out (ih k l h)
      · exact .inside (ih b l h)
      · obtain ⟨l₁, rfl, hf⟩ := fulls_sound n b l l' h₁
        exact .round hf (ih (.loop b k) l' h₂)

private def possibleB (e : Exec L X C G) : Bool :=
  (List.range e.events.length).all fun k => match e.events[k]? with
    | some (_, .acquire m md) => e.events.all fun ev => (heldAfter [] (proj ev.1 (e.events.take k))).all fun h =>
        h.1 != m || (md == .shared && h.2 == .shared)
    | some (_, .recv c) => (List.range k).any fun i => match e.events[i]? with
      | some (_, .close c') => c = c'
      | _ => false
    | some (_, .start g) => decide (e.starter k < k) && match e.events[e.starter k]? with
      | some (_, .spawn g') => g = g'
      | _ => false
    | _ => true

omit [DecidableEq X] in
private theorem possibleB_sound {e : Exec L X C G} (h : possibleB e = true) : e.Possible := by
  simp only [possibleB, List.all_eq_true, List.mem_range] at h
  have hlen : ∀ {k : Nat} {ev : Tid × Act L X C G}, e.events[k]? = some ev → k < e.events.length := fun hk => (List.getElem?_eq_some_iff.1 hk).1
  refine ⟨?_, ?_, ?_⟩
  · intro k t m md hk t' md' hh
    have h' := h k (hlen hk)
    rw [hk] at h'
    simp only [List.all_eq_true, Bool.or_eq_true, bne_iff_ne, ne_eq, Bool.and_eq_true, beq_iff_eq] at h'
    have hne : proj t' (e.events.take k) ≠ [] := by
      intro hn
      rw [Holds, hn] at hh
      cases hh
    obtain ⟨a, ha⟩ := List.exists_mem_of_ne_nil _ hne
    simp only [proj, List.mem_map, List.mem_filter, beq_iff_eq] at ha
    obtain ⟨ev, ⟨hev, ht⟩, _⟩ := ha
    have := h' ev (List.mem_of_mem_take hev) (m, md') (by rw [ht]; exact hh)
    exact this.resolve_left (fun h => h rfl)
  · intro k t c hk
    have h' := h k (hlen hk)
    rw [hk] at h'
    simp only [List.any_eq_true, List.mem_range] at h'
    obtain ⟨i, hik, hi⟩ := h'
    split at hi
    · next t' c' he =>
      simp only [decide_eq_true_eq] at hi
      subst hi
      exact ⟨i, t', hik, he⟩
    · cases hi
  · intro k t g hk
    have h' := h k (hlen hk)
    rw [hk] at h'
    simp only [Bool.and_eq_true, decide_eq_true_eq] at h'
    refine ⟨h'.1, ?_⟩
    have h'' := h'.2
    split at h''
    · next t' g' he =>
      simp only [decide_eq_true_eq] at h''
      subst h''
      exact ⟨t', he⟩
    · cases h''

/-- goroutines 0, 1, … of the given kinds execute the events -/
private def executesB (S : System L X C G R) (kinds : List R) (e : Exec L X C G) : Bool :=
  possibleB e && (e.events.all fun ev => decide (ev.1 < kinds.length)) &&
  ((List.range kinds.length).all fun t => match kinds[t]? with
    | some r => runsB 100 (S.code r) (proj t e.events) &&
      (!S.unique r || (List.range kinds.length).all fun t' => t' == t || kinds[t']? != some r)
    | none => true)

private theorem executesB_sound {S : System L X C G R} {kinds : List R} {e : Exec L X C G} (h : executesB S kinds e = true) :
    S.Executes (fun t => kinds[t]?) e := by
  simp only [executesB, Bool.and_eq_true, List.all_eq_true, decide_eq_true_eq, List.mem_range] at h
  obtain ⟨⟨h₁, h₂⟩, h₃⟩ := h
  have hlen : ∀ {t : Tid} {r : R}, kinds[t]? = some r → t < kinds.length := fun hk => (List.getElem?_eq_some_iff.1 hk).1
  refine ⟨possibleB_sound h₁, ?_, ?_, ?_⟩
  · intro t ht
    simp only [List.getElem?_eq_none_iff] at ht
    simp only [proj, List.map_eq_nil_iff, List.filter_eq_nil_iff, beq_iff_eq]
    intro ev hev he
    have := h₂ ev hev
    rw [he] at this
    exact absurd this (Nat.not_lt.2 ht)
  · intro t r ht
    have h' := h₃ t (hlen ht)
    rw [ht] at h'
    simp only [Bool.and_eq_true] at h'
    exact runsB_sound _ _ _ h'.1
  · intro t t' r ht ht' hu
    have h' := h₃ t (hlen ht)
    rw [ht] at h'
    simp only [Bool.and_eq_true, Bool.or_eq_true, hu, Bool.not_true, List.all_eq_true, List.mem_range, beq_iff_eq, bne_iff_ne, ne_eq] at h'
    rcases h'.2 with h'' | h''
    · cases h''
    · rcases h'' t' (hlen ht') with h | h
      · exact h.symm
      · exact absurd ht' h

end Decide

/-- A fail-over by one goroutine while another reads the active member and then comes too late with its failure; the first signals the timer
without the lock. -/
private def failbackEx : Exec Mu FailBack.X Nothing Nothing where
  events := [(0, rlock .mu), (1, rlock .mu), (0, .read .active), (1, .read .active), (1, .read .active), (1, runlock .mu), (0, .read .active),
    (0, runlock .mu), (0, lock .mu), (0, .read .active), (0, .ensure .failCh), (0, .read .active), (0, .write .active), (0, .read .active),
    (0, .atomic .available), (0, .read .active), (0, unlock .mu), (1, lock .mu), (0, .atomic .failover), (1, .read .active), (1, unlock .mu),
    (0, .read .failCh), (2, lock .mu), (2, .write .active)]
  starter := fun _ => 0

example : FailBack.system.Executes (fun t => [FailBack.R.client, .client, .timer][t]?) failbackEx := executesB_sound (by decide +kernel)

private def failrotateEx : Exec Mu FailRotate.X Nothing Nothing where
  events := [(0, rlock .mu), (1, rlock .mu), (1, .read .active), (0, .read .active), (0, .read .active), (0, runlock .mu), (1, .read .active),
    (1, runlock .mu), (1, lock .mu), (1, .read .active), (1, .atomic .failover), (1, .read .active), (1, .write .active), (1, .read .active),
    (1, unlock .mu), (0, lock .mu), (0, .read .active)]
  starter := fun _ => 0

example : FailRotate.system.Executes (fun t => [(), ()][t]?) failrotateEx := executesB_sound (by decide +kernel)

private def roundrobinEx : Exec Mu RoundRobin.X Nothing Nothing where
  events := [(0, lock .mu), (0, .read .current), (0, .read .current), (0, .write .current), (0, unlock .mu), (1, lock .mu), (1, .read .current),
    (0, .atomic .route), (1, .read .current), (1, .write .current)]
  starter := fun _ => 0

example : RoundRobin.system.Executes (fun t => [(), ()][t]?) roundrobinEx := executesB_sound (by decide +kernel)

/-- a member is taken out and comes back -/
private def randomEx : Exec Mu Random.X Nothing Random.G where
  events := [(0, rlock .mu), (0, .read .resolvers), (0, .atomic .available), (0, .atomic .failover), (0, .read .resolvers), (0, runlock .mu),
    (0, lock .mu), (0, .read .resolvers), (0, .read .resolvers), (0, .spawn .later), (1, .start .later), (0, .write .resolvers), (0, unlock .mu),
    (1, lock .mu), (1, .read .resolvers), (1, .write .resolvers), (1, .read .resolvers), (1, .atomic .available), (1, unlock .mu), (0, rlock .mu)]
  starter := fun _ => 9

example : Random.system.Executes (fun t => [Random.R.client, .later][t]?) randomEx := executesB_sound (by decide +kernel)

private def loadbalanceEx : Exec Mu LoadBalance.X Nothing Nothing where
  events := [(0, rlock .mu), (1, rlock .mu), (0, .read .count), (1, .read .count), (1, runlock .mu), (0, .read .rttEMA), (0, .read .rttEMA),
    (0, runlock .mu), (1, .atomic .consecFails), (1, lock .mu), (0, .atomic .consecFails), (1, .read .count), (1, .write .rttEMA),
    (1, .write .emaInflated), (1, .read .rttEMA), (1, .read .count), (1, .write .count), (1, unlock .mu), (0, lock .mu), (0, .read .count)]
  starter := fun _ => 0

example : LoadBalance.system.Executes (fun t => [(), ()][t]?) loadbalanceEx := executesB_sound (by decide +kernel)

private def ratelimiterEx : Exec Mu RateLimiter.X Nothing Nothing where
  events := [(0, .atomic .metrics), (1, .atomic .metrics), (1, lock .mu), (1, .read .currWinID), (1, .write .currWinID), (1, .write .counters),
    (1, .read .counters), (1, .write .counter), (1, .write .counters), (1, .read .counter), (1, .read .counter), (1, .write .counter),
    (1, unlock .mu), (0, lock .mu), (0, .read .currWinID), (0, .read .counters)]
  starter := fun _ => 0

example : RateLimiter.system.Executes (fun t => [(), ()][t]?) ratelimiterEx := executesB_sound (by decide +kernel)

/-- the list is read by the refresh loop without the lock while a client reads it with the lock, then it is replaced -/
private def blocklistEx : Exec Mu Blocklist.X Nothing Nothing where
  events := [(0, rlock .mu), (1, .read .blocklistDB), (2, .read .allowlistDB), (0, .read .blocklistDB), (0, .read .allowlistDB), (0, runlock .mu),
    (1, lock .mu), (1, .write .blocklistDB), (1, unlock .mu), (0, rlock .mu), (0, .read .blocklistDB)]
  starter := fun _ => 0

example : Blocklist.system.Executes (fun t => [Blocklist.R.client, .refreshBlock, .refreshAllow][t]?) blocklistEx :=
  executesB_sound (by decide +kernel)

private def listsEx : Exec Mu ListElement.X Nothing Nothing where
  events := [(0, rlock .mu), (1, .read .blocklistDB), (0, .read .blocklistDB), (0, runlock .mu), (1, lock .mu), (1, .read .blocklistDB),
    (1, .write .blocklistDB), (1, unlock .mu), (0, rlock .mu), (0, .read .blocklistDB)]
  starter := fun _ => 0

example : ListElement.system.Executes (fun t => [ListElement.R.client, .refresh][t]?) listsEx := executesB_sound (by decide +kernel)

/-- a save with a look-up before and a store after -/
private def memoryEx : Exec Memory.L Memory.X Nothing Nothing where
  events := [(0, lock .mu), (1, lock .saveMu), (0, .read .lru), (0, .write .lru), (0, .read .lru), (0, unlock .mu), (1, lock .mu), (0, .read .blob),
    (1, .read .lru), (1, .read .blob), (1, .write .file), (1, unlock .mu), (0, lock .mu), (1, .write .file), (1, unlock .saveMu),
    (0, .read .lru), (0, .write .lru)]
  starter := fun _ => 0

example : Memory.system.Executes (fun t => [Memory.R.client, .save][t]?) memoryEx := executesB_sound (by decide +kernel)

/-- the first caller creates the map and starts the clean-up, another adds a record -/
private def shuffleEx : Exec Shuffle.L Shuffle.X Nothing Shuffle.G where
  events := [(0, lock .once), (0, .ensure .state), (0, .spawn .cleanup), (2, .start .cleanup), (2, rlock .mu), (0, unlock .once), (2, .read .state),
    (1, lock .once), (1, .ensure .state), (1, unlock .once), (1, rlock .mu), (1, .read .state), (1, .read .map), (1, runlock .mu),
    (2, .read .map), (2, .read .expiry), (2, runlock .mu), (1, lock .mu), (1, .read .state), (1, .write .map), (1, unlock .mu), (2, lock .mu),
    (2, .read .state), (2, .write .map)]
  starter := fun _ => 2

example : Shuffle.system.Executes (fun t => [Shuffle.R.caller, .caller, .cleanup][t]?) shuffleEx := executesB_sound (by decide +kernel)

/-- one goroutine asks, two wait, another has another question -/
private def dedupEx : Exec Mu Dedup.X Dedup.C Nothing where
  events := [(0, lock .mu), (0, .read .inflight), (0, .write .inflight), (0, unlock .mu), (1, lock .mu), (1, .read .inflight), (1, unlock .mu),
    (3, lock .mu), (3, .read .inflight), (3, .write .inflight), (3, unlock .mu), (0, .write .msg), (0, .write .answer), (2, lock .mu),
    (2, .read .inflight), (2, unlock .mu), (0, .write .err), (0, .close .done), (1, .recv .done), (0, lock .mu), (1, .read .answer),
    (2, .recv .done), (1, .read .err), (0, .write .inflight), (2, .read .answer), (1, .read .msg), (0, unlock .mu), (0, .read .msg)]
  starter := fun _ => 0

example : Dedup.system.Executes (fun t => [Dedup.R.leader, .waiter, .waiter, .other][t]?) dedupEx := executesB_sound (by decide +kernel)

/-- a request is added by the writer, completed by the reader, and received by its caller -/
private def pipelineEx : Exec Mu Pipeline.X Pipeline.C Nothing where
  events := [(2, lock .mu), (2, .read .requests), (2, .read .requests), (2, .write .id), (2, .write .requests), (2, .read .query), (2, .read .maxLen),
    (2, .write .maxLen), (2, unlock .mu), (1, lock .mu), (1, .read .requests), (1, .write .requests), (1, unlock .mu), (1, .read .query),
    (1, .write .answer), (1, .write .err), (1, .close .done), (0, .recv .done), (1, lock .mu), (0, .recv .done), (0, .read .err), (0, .read .query),
    (0, .read .answer), (1, .read .maxLen), (1, unlock .mu)]
  starter := fun _ => 0

example : Pipeline.system.Executes (fun t => [Pipeline.R.caller, .completer, .other][t]?) pipelineEx := executesB_sound (by decide +kernel)

private def quicEx : Exec Mu Quic.X Nothing Nothing where
  events := [(0, lock .mu), (0, .read .conn), (0, .write .conn), (0, .read .conn), (0, .read .conn), (0, .read .conn), (0, unlock .mu),
    (1, lock .mu), (1, .read .conn), (1, .read .conn), (1, .read .conn), (1, .write .conn), (1, .read .conn), (1, unlock .mu)]
  starter := fun _ => 0

example : Quic.system.Executes (fun t => [(), ()][t]?) quicEx := executesB_sound (by decide +kernel)

private def odohEx : Exec Mu Odoh.X Nothing Nothing where
  events := [(0, lock .mu), (0, .read .config), (0, .read .expiry), (0, .write .config), (0, .write .expiry), (0, .read .config), (0, unlock .mu),
    (1, lock .mu), (1, .read .config), (1, .read .expiry), (1, .read .config), (1, unlock .mu)]
  starter := fun _ => 0

example : Odoh.system.Executes (fun t => [(), ()][t]?) odohEx := executesB_sound (by decide +kernel)

private def keystoreEx : Exec Keystore.L Keystore.X Nothing Nothing where
  events := [(0, rlock .store), (1, rlock .store), (0, .read .store), (1, .read .store), (0, runlock .store), (1, runlock .store), (0, lock .store),
    (0, .read .store), (0, .write .store), (0, unlock .store), (0, lock .entry), (0, .write .keys), (0, unlock .entry), (1, rlock .entry),
    (1, .read .keys), (1, .read .keys)]
  starter := fun _ => 0

example : Keystore.system.Executes (fun t => [(), ()][t]?) keystoreEx := executesB_sound (by decide +kernel)

private def listenerEx : Exec Mu Listener.X Nothing Nothing where
  events := [(0, lock .mu), (0, .write .quicServer), (0, .write .quicTransport), (0, .write .quicConn), (0, unlock .mu), (1, lock .mu),
    (1, .read .httpServer), (1, .read .quicServer), (1, .read .quicTransport), (1, .read .quicConn), (1, unlock .mu)]
  starter := fun _ => 0

example : Listener.system.Executes (fun t => [Listener.R.start, .stop][t]?) listenerEx := executesB_sound (by decide +kernel)

private def xsocketEx : Exec Mu XSocket.X Nothing Nothing where
  events := [(0, lock .mu), (0, .read .closed), (0, .write .ln), (0, unlock .mu), (1, lock .mu), (1, .write .closed), (1, .read .ln),
    (1, .read .ln), (1, unlock .mu)]
  starter := fun _ => 0

example : XSocket.system.Executes (fun t => [XSocket.R.start, .stop][t]?) xsocketEx := executesB_sound (by decide +kernel)

/-- the first subscriber starts the watcher, an event is dispatched -/
private def watcherEx : Exec Watcher.L Watcher.X Nothing Watcher.G where
  events := [(0, lock .once), (0, .spawn .read), (2, .start .read), (0, .ensure .nsWatcher), (0, .ensure .nsWatcherErr), (0, unlock .once),
    (1, lock .once), (1, .ensure .nsWatcher), (0, .read .nsWatcherErr), (1, .ensure .nsWatcherErr), (1, unlock .once), (0, .read .nsWatcher),
    (1, .read .nsWatcherErr), (1, .read .nsWatcher), (0, lock .mu), (0, .read .subs), (0, .write .subs), (0, .read .hasLast), (0, .write .last),
    (0, .write .hasLast), (0, unlock .mu), (2, lock .mu), (2, .read .subs), (2, .read .hasLast), (2, .read .last), (2, .write .last)]
  starter := fun _ => 1

example : Watcher.system.Executes (fun t => [Watcher.R.subscriber, .subscriber, .read][t]?) watcherEx := executesB_sound (by decide +kernel)

private def socksEx : Exec Socks.L Socks.X Nothing Nothing where
  events := [(0, lock .once), (0, .ensure .addr), (0, unlock .once), (1, lock .once), (0, .read .addr), (1, .ensure .addr), (1, unlock .once),
    (1, .read .addr), (0, .read .addr)]
  starter := fun _ => 0

example : Socks.system.Executes (fun t => [(), ()][t]?) socksEx := executesB_sound (by decide +kernel)

/-! Accesses without locks do race: `Race` is not empty. -/

private def raceEx : Exec Mu FailBack.X Nothing Nothing where
  events := [(0, .read .active), (0, .write .active), (1, .read .active)]
  starter := fun _ => 0

private theorem no_hb {i j : Nat} (h : HB raceEx i j) : i = 0 ∧ j = 1 := by
  induction h with
  | @po i j t a b hlt hi hj =>
    match i, j, hlt with
    | 0, 1, _ => exact ⟨rfl, rfl⟩
    | 0, 2, _ => simp only [raceEx, List.getElem?_cons_zero, List.getElem?_cons_succ, Option.some.injEq, Prod.mk.injEq] at hi hj; exact absurd (hi.1.trans hj.1.symm) (by decide)
    | 1, 2, _ => simp only [raceEx, List.getElem?_cons_zero, List.getElem?_cons_succ, Option.some.injEq, Prod.mk.injEq] at hi hj; exact absurd (hi.1.trans hj.1.symm) (by decide)
    | i, j + 3, _ => simp [raceEx] at hj
    | i + 2, 1, h => omega
    | i + 2, 2, h => omega
  | @lock i j t t' m md md' hlt hi hj _ =>
    match i with
    | 0 => simp [raceEx] at hi
    | 1 => simp [raceEx] at hi
    | 2 => simp [raceEx] at hi
    | i + 3 => simp [raceEx] at hi
  | @chan _ _ _ _ c _ _ _ => exact nomatch c
  | @go _ _ _ g _ _ => exact nomatch g
  | trans _ _ h₁ h₂ => omega

/-- Races exist in executions of programs without locks: `Race` is not empty. -/
example : raceEx.Possible ∧ Race raceEx := by
  refine ⟨⟨?_, fun _ _ c _ => (nomatch c), fun _ _ g _ => (nomatch g)⟩, 1, 2, .active, by omega, ⟨0, .inr (.inl rfl)⟩, ⟨1, .inl rfl⟩,
    .inl ⟨0, .inl rfl⟩, ?_, ?_⟩
  · intro k t m md hk
    match k with
    | 0 => simp [raceEx] at hk
    | 1 => simp [raceEx] at hk
    | 2 => simp [raceEx] at hk
    | k + 3 => simp [raceEx] at hk
  · rintro ⟨⟨t, h⟩, _⟩
    simp [raceEx] at h
  · intro h
    have := no_hb h
    omega

/-! Two goroutines that take two locks in opposite order can wait for each other: `Deadlock` is not empty. -/

private def crossed : Exec Memory.L Memory.X Nothing Nothing where
  events := [(0, lock .mu), (1, lock .saveMu)]
  starter := fun _ => 0

example : Deadlock crossed (fun t => if t = 0 then some (lock .saveMu) else if t = 1 then some (lock .mu) else none) (fun t => t = 0 ∨ t = 1) := by
  refine ⟨⟨0, .inl rfl⟩, ?_⟩
  rintro t (rfl | rfl)
  · exact ⟨.saveMu, .exclusive, rfl, 1, .exclusive, .inr rfl, by simp [Holds, crossed, proj, heldAfter, lock]⟩
  · exact ⟨.mu, .exclusive, rfl, 0, .exclusive, .inl rfl, by simp [Holds, crossed, proj, heldAfter, lock]⟩

end Examples

end Verif.Props.Races
