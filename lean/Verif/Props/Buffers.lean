import Verif.Spec.Buffers
import Verif.Model.Redis
/-
C82: the encode buffers shared by the cache backends.
-/
namespace Verif.Props.Buffers
open Verif Verif.Buffers Verif.Spec.Buffers
set_option linter.unusedSimpArgs false
set_option linter.unusedVariables false

private def ownOf : Phase → Option (Nat × Nat)
  | .packing p a => some (p, a)
  | .encoded p a _ => some (p, a)
  | .writing p a _ => some (p, a)
  | _ => none

private def own (jobs : List Job) (i : Nat) : Option (Nat × Nat) := jobs[i]?.bind fun j => ownOf j.phase

private structure Heap (mem : Nat → Str) (arrays : Nat) (cells : Nat → Nat) (ptrs : Nat) (pool : List Nat)
    (own : Nat → Option (Nat × Nat)) : Prop where
  pool_nodup : pool.Nodup
  pool_lt : ∀ p ∈ pool, p < ptrs
  pool_free : ∀ p ∈ pool, ∀ (i a : Nat), own i ≠ some (p, a)
  own_lt : ∀ (i p a : Nat), own i = some (p, a) → p < ptrs ∧ a < arrays
  own_ptr : ∀ (i j p a b : Nat), own i = some (p, a) → own j = some (p, b) → i = j
  own_arr : ∀ (i j p q a : Nat), own i = some (p, a) → own j = some (q, a) → i = j
  own_cell : ∀ (i p a q : Nat), own i = some (p, a) → q < ptrs → cells q = a → q = p
  cell_lt : ∀ (p : Nat), p < ptrs → cells p < arrays
  cell_inj : ∀ (p q : Nat), p < ptrs → q < ptrs → cells p = cells q → p = q
  cell_cap : ∀ (p : Nat), p < ptrs → 2048 ≤ (mem (cells p)).length

/-- What is known about one call. -/
private structure Good (mem : Nat → Str) (cells : Nat → Nat) (it : Item) (j : Job) : Prop where
  cur : j.phase = .called → j.cur = it
  cur' : ∀ (p a : Nat), j.phase = .packing p a → j.cur = it ∧ j.key = it.key ∧ a = cells p
  enc : ∀ (p a len : Nat), j.phase = .encoded p a len → j.key = it.key ∧
    ∃ w, it.wire = some w ∧ len = (payload j.kind it w).length ∧ (mem a).take len = payload j.kind it w
  wri : ∀ (p a len : Nat), j.phase = .writing p a len → j.key = it.key ∧ (∃ b, j.kind = .async b) ∧
    ∃ w, it.wire = some w ∧ len = (payload j.kind it w).length ∧ (mem a).take len = payload j.kind it w
  lea : j.phase = .leaving → ∃ b, j.kind = .async b
  outs : ∀ o ∈ j.outs, o.1 = it.key ∧ ∃ w, it.wire = some w ∧ o.2 = payload j.kind it w

private def holdsToken (b : Nat) (j : Job) : Bool :=
  match j.phase with
  | .writing _ _ _ => j.kind == .async b
  | .leaving => j.kind == .async b
  | _ => false

private structure Inv (cs : List (Kind × Item)) (s : Sys) : Prop where
  heap : Heap s.mem s.arrays s.cells s.ptrs s.pool (own s.jobs)
  len : s.jobs.length = cs.length
  good : ∀ (i : Nat) (j : Job), s.jobs[i]? = some j → ∃ it, cs[i]? = some (j.kind, it) ∧ Good s.mem s.cells it j
  sem : ∀ (b : Nat), s.sem b = s.jobs.countP (holdsToken b) ∧ s.sem b ≤ semCapacity

private theorem own_set {jobs : List Job} {i : Nat} {j0 : Job} (h : jobs[i]? = some j0) (j : Job) :
    own (jobs.set i j) = upd (own jobs) i (ownOf j.phase) := by
  funext k
  unfold own upd
  have hi : i < jobs.length := (List.getElem?_eq_some_iff.mp h).1
  rw [List.getElem?_set]
  by_cases hk : k = i
  · subst hk; simp [hi]
  · rw [if_neg (fun h => hk h.symm), if_neg hk]

private theorem own_call (jobs : List Job) (k : Kind) (it : Item) :
    own (jobs ++ [{ kind := k, cur := it }]) = own jobs := by
  funext i
  unfold own
  rw [List.getElem?_append]
  split
  · rfl
  · rename_i h
    rw [List.getElem?_eq_none (l := jobs) (by omega)]
    by_cases hi : i - jobs.length = 0
    · simp [hi, ownOf]
    · rw [List.getElem?_eq_none (by simp; omega)]

private theorem own_at {jobs : List Job} {i : Nat} {j : Job} (h : jobs[i]? = some j) : own jobs i = ownOf j.phase := by
  unfold own; simp [h]

private theorem count_set {jobs : List Job} {i : Nat} {j0 j : Job} (h : jobs[i]? = some j0) (p : Job → Bool) :
    (jobs.set i j).countP p + (if p j0 then 1 else 0) = jobs.countP p + (if p j then 1 else 0) := by
  have hi : i < jobs.length := (List.getElem?_eq_some_iff.mp h).1
  have he : jobs[i] = j0 := (List.getElem?_eq_some_iff.mp h).2
  rw [List.countP_set hi, he]
  have : (if p j0 then 1 else 0) ≤ jobs.countP p := by
    split
    · rename_i hp
      exact List.countP_pos_iff.mpr ⟨j0, List.mem_of_getElem? h, hp⟩
    · omega
  omega

/-! ### Moves of the heap -/

/-- Nobody's memory but that of the call changes. -/
private theorem Heap.write {mem arrays cells ptrs pool own} (h : Heap mem arrays cells ptrs pool own) (a : Nat) (b : Str)
    (hl : b.length = (mem a).length) : Heap (upd mem a b) arrays cells ptrs pool own := by
  refine { h with cell_cap := ?_ }
  intro p hp
  have := h.cell_cap p hp
  unfold upd
  split
  · rename_i he; rw [← he, ] at hl; omega
  · exact this

private theorem Heap.alloc {mem arrays cells ptrs pool own} (h : Heap mem arrays cells ptrs pool own) (b : Str) :
    Heap (upd mem arrays b) (arrays + 1) cells ptrs pool own := by
  refine { h with own_lt := ?_, cell_lt := ?_, cell_cap := ?_ }
  · intro i p a hi; have := h.own_lt i p a hi; omega
  · intro p hp; have := h.cell_lt p hp; omega
  · intro p hp
    have h1 := h.cell_cap p hp
    have h2 := h.cell_lt p hp
    unfold upd; rw [if_neg (by omega)]; exact h1

private theorem Heap.forget {mem arrays cells ptrs pool own} (h : Heap mem arrays cells ptrs pool own) (p : Nat) :
    Heap mem arrays cells ptrs (pool.erase p) own := by
  refine { h with pool_nodup := h.pool_nodup.erase p, pool_lt := ?_, pool_free := ?_ }
  · intro q hq; exact h.pool_lt q (List.mem_of_mem_erase hq)
  · intro q hq; exact h.pool_free q (List.mem_of_mem_erase hq)

/-- A call without a buffer takes one nobody has. -/
private theorem Heap.own {mem arrays cells ptrs pool own} (h : Heap mem arrays cells ptrs pool own) (i p : Nat)
    (hp : p < ptrs) (hn : p ∉ pool) (hf : ∀ (k a : Nat), own k ≠ some (p, a)) :
    Heap mem arrays cells ptrs pool (upd own i (some (p, cells p))) := by
  obtain ⟨h1, h2, h3, h4, h5, h6, h7, h8, h9, h10⟩ := h
  constructor <;> ((try simp only [upd]); grind)

/-- A call gives up its buffer. -/
private theorem Heap.put {mem arrays cells ptrs pool own} (h : Heap mem arrays cells ptrs pool own) (i p a : Nat)
    (ho : own i = some (p, a)) : Heap mem arrays cells ptrs (p :: pool) (upd own i none) := by
  obtain ⟨h1, h2, h3, h4, h5, h6, h7, h8, h9, h10⟩ := h
  constructor <;> ((try simp only [upd]); grind)

/-- A call moves to a new array, keeping the cell. -/
private theorem Heap.move {mem arrays cells ptrs pool own} (h : Heap mem arrays cells ptrs pool own) (i p a : Nat) (b : Str)
    (ho : own i = some (p, a)) : Heap (upd mem arrays b) (arrays + 1) cells ptrs pool (upd own i (some (p, arrays))) := by
  obtain ⟨h1, h2, h3, h4, h5, h6, h7, h8, h9, h10⟩ := h
  constructor <;> ((try simp only [upd]); grind)

/-- The cell of a call is pointed at the array of the call. -/
private theorem Heap.adopt {mem arrays cells ptrs pool own} (h : Heap mem arrays cells ptrs pool own) (i p a : Nat)
    (ho : own i = some (p, a)) (hl : (mem (cells p)).length < (mem a).length) :
    Heap mem arrays (upd cells p a) ptrs pool own := by
  obtain ⟨h1, h2, h3, h4, h5, h6, h7, h8, h9, h10⟩ := h
  constructor <;> ((try simp only [upd]); grind)

private theorem upd_self {α : Type} (f : Nat → α) (i : Nat) (v : α) (h : f i = v) : upd f i v = f := by
  funext k; unfold upd; split
  · rename_i hk; rw [hk, h]
  · rfl

private theorem Good.write {mem cells it j} (h : Good mem cells it j) (x : Nat) (b : Str)
    (hx : ∀ (p a : Nat), ownOf j.phase = some (p, a) → a ≠ x) : Good (upd mem x b) cells it j := by
  refine { h with enc := ?_, wri := ?_ }
  · intro p a len hp
    have := hx p a (by rw [hp]; rfl)
    unfold upd; rw [if_neg this]; exact h.enc p a len hp
  · intro p a len hp
    have := hx p a (by rw [hp]; rfl)
    unfold upd; rw [if_neg this]; exact h.wri p a len hp

private theorem Good.repoint {mem cells it j} (h : Good mem cells it j) (x y : Nat)
    (hx : ∀ (p a : Nat), ownOf j.phase = some (p, a) → p ≠ x) : Good mem (upd cells x y) it j := by
  refine { h with cur' := ?_ }
  intro p a hp
  have := hx p a (by rw [hp]; rfl)
  unfold upd; rw [if_neg this]; exact h.cur' p a hp

/-- The invariant after one call changed. -/
private theorem Inv.change {cs : List (Kind × Item)} {s s' : Sys} (h : Inv cs s) {i : Nat} {j0 j : Job} (hi : s.jobs[i]? = some j0)
    (hj : s'.jobs = s.jobs.set i j) (hk : j.kind = j0.kind)
    (hheap : Heap s'.mem s'.arrays s'.cells s'.ptrs s'.pool (upd (own s.jobs) i (ownOf j.phase)))
    (hgood : ∀ (it : Item), cs[i]? = some (j0.kind, it) → Good s.mem s.cells it j0 → Good s'.mem s'.cells it j)
    (hother : ∀ (k : Nat) (j' : Job) (it : Item), k ≠ i → s.jobs[k]? = some j' → Good s.mem s.cells it j' → Good s'.mem s'.cells it j')
    (hsem : ∀ (b : Nat), s'.sem b + (if holdsToken b j0 then 1 else 0) = s.sem b + (if holdsToken b j then 1 else 0) ∧
      s'.sem b ≤ semCapacity) : Inv cs s' := by
  have hlt : i < s.jobs.length := (List.getElem?_eq_some_iff.mp hi).1
  constructor
  · rw [hj, own_set hi]; exact hheap
  · rw [hj, List.length_set]; exact h.len
  · intro k j' hk'
    rw [hj, List.getElem?_set] at hk'
    by_cases hki : i = k
    · subst hki
      rw [if_pos rfl, if_pos hlt] at hk'
      obtain rfl := Option.some.inj hk'
      obtain ⟨it, h1, h2⟩ := h.good i j0 hi
      exact ⟨it, by rw [hk]; exact h1, hgood it h1 h2⟩
    · rw [if_neg hki] at hk'
      obtain ⟨it, h1, h2⟩ := h.good k j' hk'
      exact ⟨it, h1, hother k j' it (fun e => hki e.symm) hk' h2⟩
  · intro b
    have h1 := count_set (j := j) hi (holdsToken b)
    have h2 := hsem b
    have h3 := h.sem b
    rw [hj]
    omega

private theorem Inv.same_sem {cs : List (Kind × Item)} {s : Sys} (h : Inv cs s) {j0 j : Job} (hk : j.kind = j0.kind)
    (h0 : ∀ (b : Nat), holdsToken b j0 = holdsToken b j) (b : Nat) :
    s.sem b + (if holdsToken b j0 then 1 else 0) = s.sem b + (if holdsToken b j then 1 else 0) ∧ s.sem b ≤ semCapacity := by
  rw [h0 b]; exact ⟨rfl, (h.sem b).2⟩

/-- Taking a cell that nobody has. -/
private theorem Inv.begin {cs : List (Kind × Item)} {s : Sys} (h : Inv cs s) {i : Nat} {j : Job} (hi : s.jobs[i]? = some j)
    (hp : j.phase = .called) (p : Nat) (hlt : p < s.ptrs) (hn : p ∉ s.pool) (hf : ∀ (k a : Nat), own s.jobs k ≠ some (p, a)) :
    Inv cs (s.begin i j p) := by
  have hcap := h.heap.cell_cap p hlt
  unfold Sys.begin
  rw [if_neg (by unfold headerSize; omega)]
  refine h.change (s' := s.setJob i { j with key := j.cur.key, phase := .packing p (s.cells p) }) hi rfl rfl ?_ ?_ ?_ ?_
  · exact h.heap.own i p hlt hn hf
  · intro it hc hg
    constructor
    · intro h; cases h
    · intro p' a h; cases h
      have := hg.cur hp
      exact ⟨this, by rw [← this], rfl⟩
    · intro _ _ _ h; cases h
    · intro _ _ _ h; cases h
    · intro h; cases h
    · exact hg.outs
  · intro k j' it _ _ hg; exact hg
  · exact h.same_sem rfl (by intro b; simp [holdsToken, hp])

/-- A call that gives up its buffer and is over. -/
private theorem Inv.put {cs : List (Kind × Item)} {s : Sys} (h : Inv cs s) {i : Nat} {j : Job} (hi : s.jobs[i]? = some j)
    {p a : Nat} (ho : ownOf j.phase = some (p, a)) (ht : ∀ (b : Nat), holdsToken b j = false) :
    Inv cs ((s.put p).setJob i { j with phase := .finished }) := by
  refine h.change hi rfl rfl ?_ ?_ ?_ ?_
  · exact h.heap.put i p a (by rw [own_at hi]; exact ho)
  · intro it hc hg
    exact ⟨fun h => (by cases h), fun _ _ h => (by cases h), fun _ _ _ h => (by cases h), fun _ _ _ h => (by cases h), fun h => (by cases h), hg.outs⟩
  · intro k j' it _ _ hg; exact hg
  · exact h.same_sem rfl (by intro b; rw [ht b]; rfl)

private theorem payload_take (v r : Str) : (v ++ r).take v.length = v := by simp

/-- Others do not see what happens to the arrays and the cell of a call. -/
private theorem Inv.others_write {cs : List (Kind × Item)} {s : Sys} (h : Inv cs s) {i k : Nat} {j' : Job} {it : Item} {p a : Nat} (b : Str)
    (ho : own s.jobs i = some (p, a)) (hk : k ≠ i) (hj : s.jobs[k]? = some j') (hg : Good s.mem s.cells it j') :
    Good (upd s.mem a b) s.cells it j' := by
  refine hg.write a b ?_
  intro q a' hq he
  subst he
  exact hk (h.heap.own_arr k i q p _ (by rw [own_at hj]; exact hq) ho)

private theorem Inv.others_alloc {cs : List (Kind × Item)} {s : Sys} (h : Inv cs s) {k : Nat} {j' : Job} {it : Item} (b : Str)
    (hj : s.jobs[k]? = some j') (hg : Good s.mem s.cells it j') : Good (upd s.mem s.arrays b) s.cells it j' := by
  refine hg.write _ b ?_
  intro q a' hq he
  have := (h.heap.own_lt k q a' (by rw [own_at hj]; exact hq)).2
  omega

private theorem Inv.others_adopt {cs : List (Kind × Item)} {s : Sys} (h : Inv cs s) {i k : Nat} {j' : Job} {it : Item} {p a : Nat}
    {mem : Nat → Str} (y : Nat)
    (ho : own s.jobs i = some (p, a)) (hk : k ≠ i) (hj : s.jobs[k]? = some j') (hg : Good mem s.cells it j') :
    Good mem (upd s.cells p y) it j' := by
  refine hg.repoint p y ?_
  intro q a' hq he
  subst he
  exact hk (h.heap.own_ptr k i _ _ _ (by rw [own_at hj]; exact hq) ho)

/-- Packing is over, with the value in `a'` (the array packed into, or a new one). -/
private theorem Inv.encoded {cs : List (Kind × Item)} {s s1 : Sys} (h : Inv cs s) {i : Nat} {j : Job} (hi : s.jobs[i]? = some j)
    {p a a' : Nat} {w : Str} (hp : j.phase = .packing p a) (hw : j.cur.wire = some w)
    (hjobs : s1.jobs = s.jobs) (hcells : s1.cells = s.cells) (hsem : s1.sem = s.sem)
    (hheap : Heap s1.mem s1.arrays s1.cells s1.ptrs s1.pool (upd (own s.jobs) i (some (p, a'))))
    (hval : (s1.mem a').take (payload j.kind j.cur w).length = payload j.kind j.cur w)
    (hother : ∀ (k : Nat) (j' : Job) (it : Item), k ≠ i → s.jobs[k]? = some j' → Good s.mem s.cells it j' → Good s1.mem s1.cells it j') :
    Inv cs ((s1.adopt p a').setJob i { j with phase := .encoded p a' (payload j.kind j.cur w).length }) := by
  have ho : own s.jobs i = some (p, a) := by rw [own_at hi, hp]; rfl
  have hgood : ∀ (cells : Nat → Nat) (it : Item), Good s.mem s.cells it j →
      Good s1.mem cells it { j with phase := .encoded p a' (payload j.kind j.cur w).length } := by
    intro cells it hg
    obtain ⟨g1, g2, -⟩ := hg.cur' p a hp
    refine ⟨fun h => (by cases h), fun _ _ h => (by cases h), ?_, fun _ _ _ h => (by cases h), fun h => (by cases h), hg.outs⟩
    intro p' a'' len h
    cases h
    rw [← g1]
    exact ⟨by rw [g1]; exact g2, w, hw, rfl, hval⟩
  have htok : ∀ (b : Nat), holdsToken b j = holdsToken b { j with phase := .encoded p a' (payload j.kind j.cur w).length } := by
    intro b; simp [holdsToken, hp]
  unfold Sys.adopt
  split
  · rename_i hl
    refine h.change (s' := { s1 with cells := upd s1.cells p a' }.setJob i { j with phase := .encoded p a' (payload j.kind j.cur w).length }) (j := { j with phase := .encoded p a' (payload j.kind j.cur w).length }) hi (by simp [Sys.setJob, hjobs]) rfl ?_ ?_ ?_ ?_
    · exact hheap.adopt i p a' (by simp [upd]) hl
    · intro it _ hg; exact hgood _ it hg
    · intro k j' it hk hj hg
      refine (hother k j' it hk hj hg).repoint p a' ?_
      intro q b hq he
      subst he
      exact hk (h.heap.own_ptr k i _ _ _ (by rw [own_at hj]; exact hq) ho)
    · intro b
      have := h.same_sem (j0 := j) (j := { j with phase := .encoded p a' (payload j.kind j.cur w).length }) rfl htok b
      simpa [Sys.setJob, hsem] using this
  · refine h.change (s' := s1.setJob i { j with phase := .encoded p a' (payload j.kind j.cur w).length }) (j := { j with phase := .encoded p a' (payload j.kind j.cur w).length }) hi (by simp [Sys.setJob, hjobs]) rfl ?_ ?_ ?_ ?_
    · exact hheap
    · intro it _ hg; exact hgood _ it hg
    · exact hother
    · intro b
      have := h.same_sem (j0 := j) (j := { j with phase := .encoded p a' (payload j.kind j.cur w).length }) rfl htok b
      simpa [Sys.setJob, hsem] using this

private theorem onJob_some {s s' : Sys} {i : Nat} {f : Job → Option Sys} (h : s.onJob i f = some s') :
    ∃ j, s.jobs[i]? = some j ∧ f j = some s' := by
  unfold Sys.onJob at h
  exact Option.bind_eq_some_iff.mp h

private theorem Inv.emit {cs : List (Kind × Item)} {s : Sys} (h : Inv cs s) {i : Nat} {j : Job} (hi : s.jobs[i]? = some j) {p a len : Nat}
    (hp : j.phase = .encoded p a len ∨ j.phase = .writing p a len) : Inv cs (s.emit i j a len) := by
  refine h.change (s' := s.emit i j a len) (j := { j with outs := j.outs ++ [(j.key, (s.mem a).take len)] }) hi rfl rfl ?_ ?_ ?_ ?_
  · show Heap s.mem s.arrays s.cells s.ptrs s.pool _
    rw [upd_self _ _ _ (own_at hi)]; exact h.heap
  · intro it _ hg
    have hv : j.key = it.key ∧ ∃ w, it.wire = some w ∧ (s.mem a).take len = payload j.kind it w := by
      rcases hp with hp | hp
      · obtain ⟨h1, w, h2, -, h3⟩ := hg.enc p a len hp; exact ⟨h1, w, h2, h3⟩
      · obtain ⟨h1, -, w, h2, -, h3⟩ := hg.wri p a len hp; exact ⟨h1, w, h2, h3⟩
    refine { hg with outs := ?_ }
    intro o hm
    rcases List.mem_append.mp hm with hm | hm
    · exact hg.outs o hm
    · obtain rfl := List.mem_singleton.mp hm
      exact hv
  · intro k j' it _ _ hg; exact hg
  · exact h.same_sem rfl (by intro b; rfl)

private theorem calls_append (es es' : List Ev) : calls (es ++ es') = calls es ++ calls es' := by
  induction es with
  | nil => rfl
  | cons e es ih => cases e <;> simp [calls, ih]

private theorem step_inv {es : List Ev} {s s' : Sys} (h : Inv (calls es) s) (e : Ev) (hs : step s e = some s') :
    Inv (calls (es ++ [e])) s' := by
  rw [calls_append]
  unfold step at hs
  split at hs
  · cases hs
  cases e with
  | call k it =>
    simp only [Option.some.injEq] at hs
    subst hs
    constructor
    · show Heap s.mem s.arrays s.cells s.ptrs s.pool _
      rw [own_call]; exact h.heap
    · simp [calls, h.len]
    · intro i j hij
      simp only at hij
      rw [List.getElem?_append] at hij
      split at hij
      · rename_i hlt
        obtain ⟨it', h1, h2⟩ := h.good i j hij
        exact ⟨it', by rw [List.getElem?_append, if_pos (by rw [← h.len]; exact hlt)]; exact h1, h2⟩
      · rename_i hge
        have hi : i = s.jobs.length := by
          have := (List.getElem?_eq_some_iff.mp hij).1
          simp at this; omega
        subst hi
        simp at hij
        subst hij
        refine ⟨it, by rw [h.len]; simp [calls], ?_⟩
        exact ⟨fun _ => rfl, fun _ _ h => (by cases h), fun _ _ _ h => (by cases h), fun _ _ _ h => (by cases h), fun h => (by cases h), by simp⟩
    · intro b
      have := h.sem b
      simp only [List.countP_append]
      simpa [holdsToken] using this
  | take i p? =>
    simp only [calls, List.append_nil]
    obtain ⟨j, hi, hs⟩ := onJob_some hs
    cases hp : j.phase <;> simp only [hp] at hs <;> try (cases hs; done)
    cases p? with
    | some p =>
      simp only [Sys.take] at hs
      split at hs
      · rename_i hm
        simp only [Option.some.injEq] at hs
        subst hs
        have h1 : Inv (calls es) { s with pool := s.pool.erase p } := ⟨h.heap.forget p, h.len, h.good, h.sem⟩
        refine h1.begin hi hp p (h.heap.pool_lt p hm) ?_ (fun k a => h.heap.pool_free p hm k a)
        intro hc
        exact (List.Nodup.mem_erase_iff h.heap.pool_nodup).mp hc |>.1 rfl
      · cases hs
    | none =>
      simp only [Sys.take, Option.some.injEq] at hs
      subst hs
      have h1 : Inv (calls es) { s.newArray (List.replicate 2048 0) with cells := upd s.cells s.ptrs s.arrays, ptrs := s.ptrs + 1 } := by
        refine ⟨?_, h.len, ?_, h.sem⟩
        · show Heap (upd s.mem s.arrays _) (s.arrays + 1) (upd s.cells s.ptrs s.arrays) (s.ptrs + 1) s.pool (own s.jobs)
          have hz : 2048 ≤ (List.replicate 2048 (0 : UInt8)).length := by rw [List.length_replicate]; exact Nat.le_refl _
          generalize List.replicate 2048 (0 : UInt8) = z at hz
          obtain ⟨h1, h2, h3, h4, h5, h6, h7, h8, h9, h10⟩ := h.heap
          constructor <;> ((try simp only [upd]); grind)
        · intro k j' hk
          obtain ⟨it, g1, g2⟩ := h.good k j' hk
          refine ⟨it, g1, ?_⟩
          refine (h.others_alloc (List.replicate 2048 0) hk g2).repoint _ _ ?_
          intro q a hq he
          have := (h.heap.own_lt k q a ((own_at (jobs := s.jobs) hk).trans hq)).1
          omega
      refine h1.begin hi hp s.ptrs (by simp) ?_ ?_
      · intro hc; have := h.heap.pool_lt _ hc; omega
      · intro k a hc
        have := (h.heap.own_lt k _ a hc).1
        omega
  | scribble i b =>
    simp only [calls, List.append_nil]
    obtain ⟨j, hi, hs⟩ := onJob_some hs
    cases hp : j.phase <;> simp only [hp] at hs <;> try (cases hs; done)
    rename_i p a
    split at hs
    · rename_i hl
      simp only [Option.some.injEq] at hs
      subst hs
      have ho : own s.jobs i = some (p, a) := by rw [own_at hi, hp]; rfl
      refine ⟨h.heap.write a b hl, h.len, ?_, h.sem⟩
      intro k j' hk
      obtain ⟨it, g1, g2⟩ := h.good k j' hk
      refine ⟨it, g1, ?_⟩
      by_cases hki : k = i
      · subst hki
        rw [hi] at hk
        obtain rfl := Option.some.inj hk
        exact { g2 with enc := fun _ _ _ h => (by rw [hp] at h; cases h), wri := fun _ _ _ h => (by rw [hp] at h; cases h) }
      · exact h.others_write b ho hki hk g2
    · cases hs
  | finish i alloc =>
    simp only [calls, List.append_nil]
    obtain ⟨j, hi, hs⟩ := onJob_some hs
    cases hp : j.phase <;> simp only [hp] at hs <;> try (cases hs; done)
    rename_i p a
    have ho : own s.jobs i = some (p, a) := by rw [own_at hi, hp]; rfl
    unfold Sys.finish at hs
    cases hw : j.cur.wire with
    | none =>
      simp only [hw, Option.some.injEq] at hs
      subst hs
      exact h.put hi (by rw [hp]; rfl) (by intro b; simp [holdsToken, hp])
    | some w =>
      simp only [hw] at hs
      split at hs
      · simp only [Option.some.injEq] at hs
        subst hs
        exact ⟨h.heap, h.len, h.good, h.sem⟩
      · cases alloc with
        | none =>
          simp only [Sys.encode] at hs
          split at hs
          · rename_i hl
            simp only [Option.some.injEq] at hs
            subst hs
            refine h.encoded (s1 := { s with mem := upd s.mem a _ }) hi hp hw rfl rfl rfl ?_ ?_ ?_
            · rw [upd_self _ _ _ ho]
              exact h.heap.write a _ (by simp; omega)
            · simp [upd]
            · intro k j' it hk hj hg
              exact h.others_write _ ho hk hj hg
          · cases hs
        | some extra =>
          simp only [Sys.encode, Option.some.injEq] at hs
          subst hs
          refine h.encoded (s1 := s.newArray _) hi hp hw rfl rfl rfl ?_ ?_ ?_
          · exact h.heap.move i p a _ ho
          · simp [Sys.newArray, upd]
          · intro k j' it hk hj hg
            exact h.others_alloc _ hj hg
  | use i =>
    simp only [calls, List.append_nil]
    obtain ⟨j, hi, hs⟩ := onJob_some hs
    split at hs <;> first | (cases hs; done) | skip
    all_goals
      rename_i hp
      simp only [Option.some.injEq] at hs
      subst hs
      first | exact h.emit hi (.inl ‹_›) | exact h.emit hi (.inr ‹_›)
  | spawn i =>
    simp only [calls, List.append_nil]
    obtain ⟨j, hi, hs⟩ := onJob_some hs
    split at hs <;> first | (cases hs; done) | skip
    rename_i p a len b hp hk
    simp only [Option.some.injEq] at hs
    subst hs
    unfold Sys.trySpawn
    split
    · rename_i hlt
      refine h.change (s' := { s with sem := upd s.sem b (s.sem b + 1) }.setJob i { j with phase := .writing p a len }) (j := { j with phase := .writing p a len }) hi rfl rfl ?_ ?_ ?_ ?_
      · show Heap s.mem s.arrays s.cells s.ptrs s.pool _
        rw [upd_self _ _ _ (by rw [own_at hi, hp]; rfl)]; exact h.heap
      · intro it _ hg
        refine ⟨fun h => (by cases h), fun _ _ h => (by cases h), fun _ _ _ h => (by cases h), ?_, fun h => (by cases h), hg.outs⟩
        intro p' a' len' h
        cases h
        obtain ⟨g1, g2⟩ := hg.enc p a len hp
        exact ⟨g1, ⟨b, hk⟩, g2⟩
      · intro k j' it _ _ hg; exact hg
      · intro b'
        have h1 : holdsToken b' j = false := by simp [holdsToken, hp]
        have h2 := (h.sem b').2
        by_cases hb : b' = b
        · subst hb
          simp [Sys.setJob, upd, holdsToken, hp, hk]; omega
        · have : ¬ b = b' := fun e => hb e.symm
          simp [Sys.setJob, upd, holdsToken, hp, hk, hb, this]; exact h2
    · exact h.put hi (by rw [hp]; rfl) (by intro b; simp [holdsToken, hp])
  | release i =>
    simp only [calls, List.append_nil]
    obtain ⟨j, hi, hs⟩ := onJob_some hs
    split at hs <;> first | (cases hs; done) | skip
    · rename_i p _ _ hp hk
      simp only [Option.some.injEq] at hs
      subst hs
      exact h.put hi (by rw [hp]; rfl) (by intro b; simp [holdsToken, hp])
    · rename_i p _ _ hp hk
      simp only [Option.some.injEq] at hs
      subst hs
      exact h.put hi (by rw [hp]; rfl) (by intro b; simp [holdsToken, hp])
    · rename_i p a len hp
      simp only [Option.some.injEq] at hs
      subst hs
      refine h.change (s' := (s.put p).setJob i { j with phase := .leaving }) hi rfl rfl ?_ ?_ ?_ ?_
      · exact h.heap.put i p a (by rw [own_at hi, hp]; rfl)
      · intro it hc hg
        refine ⟨fun h => (by cases h), fun _ _ h => (by cases h), fun _ _ _ h => (by cases h), fun _ _ _ h => (by cases h), ?_, hg.outs⟩
        intro _
        exact (hg.wri p a len hp).2.1
      · intro k j' it _ _ hg; exact hg
      · exact h.same_sem rfl (by intro b; simp [holdsToken, hp])
  | signal i =>
    simp only [calls, List.append_nil]
    obtain ⟨j, hi, hs⟩ := onJob_some hs
    split at hs <;> first | (cases hs; done) | skip
    rename_i b hp hk
    simp only [Option.some.injEq] at hs
    subst hs
    refine h.change (s' := { s with sem := upd s.sem b (s.sem b - 1) }.setJob i { j with phase := .finished }) (j := { j with phase := .finished }) hi rfl rfl ?_ ?_ ?_ ?_
    · show Heap s.mem s.arrays s.cells s.ptrs s.pool _
      rw [upd_self _ _ _ (by rw [own_at hi, hp]; rfl)]; exact h.heap
    · intro it hc hg
      exact ⟨fun h => (by cases h), fun _ _ h => (by cases h), fun _ _ _ h => (by cases h), fun _ _ _ h => (by cases h), fun h => (by cases h), hg.outs⟩
    · intro k j' it _ _ hg; exact hg
    · intro b'
      have h2 := h.sem b'
      by_cases hb : b' = b
      · subst hb
        have : 0 < s.jobs.countP (holdsToken b') :=
          List.countP_pos_iff.mpr ⟨j, List.mem_of_getElem? hi, by simp [holdsToken, hp, hk]⟩
        simp [Sys.setJob, upd, holdsToken, hp, hk]; omega
      · have : ¬ b = b' := fun e => hb e.symm
        simp [Sys.setJob, upd, holdsToken, hp, hk, hb, this]; exact h2.2
  | mutate i it' =>
    simp only [calls, List.append_nil]
    obtain ⟨j, hi, hs⟩ := onJob_some hs
    split at hs <;> first | (cases hs; done) | skip
    all_goals
      rename_i hp
      simp only [Option.some.injEq] at hs
      subst hs
      refine h.change (s' := s.setJob i { j with cur := it' }) hi rfl rfl ?_ ?_ ?_ ?_
      · show Heap s.mem s.arrays s.cells s.ptrs s.pool _
        rw [upd_self _ _ _ (own_at hi)]; exact h.heap
      · intro it _ hg
        refine { hg with cur := ?_, cur' := ?_ }
        · intro h; rw [show ({ j with cur := it' } : Job).phase = j.phase from rfl, hp] at h; cases h
        · intro p a h; rw [show ({ j with cur := it' } : Job).phase = j.phase from rfl, hp] at h; cases h
      · intro k j' it _ _ hg; exact hg
      · exact h.same_sem rfl (by intro b; rfl)
  | forget p =>
    simp only [calls, List.append_nil]
    dsimp only at hs
    split at hs
    · simp only [Option.some.injEq] at hs
      subst hs
      exact ⟨h.heap.forget p, h.len, h.good, h.sem⟩
    · cases hs

private theorem run_inv (es : List Ev) : ∀ {pre : List Ev} {s s' : Sys}, Inv (calls pre) s → run s es = some s' →
    Inv (calls (pre ++ es)) s' := by
  induction es with
  | nil => intro pre s s' h hr; obtain rfl := Option.some.inj hr; simpa using h
  | cons e es ih =>
    intro pre s s' h hr
    obtain ⟨s1, h1, h2⟩ := Option.bind_eq_some_iff.mp hr
    have := ih (step_inv h e h1) h2
    simpa using this

private theorem init_inv : Inv [] init := by
  constructor
  · constructor <;> simp [init, own]
  · rfl
  · intro i j h; simp [init] at h
  · intro b; simp [init]

private theorem reach {es : List Ev} {s : Sys} (h : run init es = some s) : Inv (calls es) s := by
  have := run_inv es (pre := []) (by simpa [calls] using init_inv) h
  simpa using this

private theorem adopt_crashed (s : Sys) (p a i : Nat) (j : Job) : ((s.adopt p a).setJob i j).crashed = s.crashed := by
  unfold Sys.adopt; split <;> rfl

private theorem encodes_payload {k : Kind} {it : Item} {w : Str} (h : it.wire = some w) : Encodes k it (payload k it w) := by
  cases k
  · simpa [Encodes, payload] using h
  · exact ⟨w, h, by simp [payload]⟩
  · exact ⟨w, h, by simp [payload]⟩

/-- **C82.** However many calls run at the same time, and however they are interleaved: every value that leaves a call (copied into the
memory cache, or sent to Redis, also long after the call returned and its caller changed the message) is, under the key of that call, exactly
the encoding of the item the call was made with. -/
theorem bytes_intact (es : List Ev) (s : Sys) (hrun : run init es = some s) (i : Nat) (j : Job) (hj : s.jobs[i]? = some j)
    (o : Str × Str) (ho : o ∈ j.outs) : ∃ k it, (calls es)[i]? = some (k, it) ∧ o.1 = it.key ∧ Encodes k it o.2 := by
  obtain ⟨it, h1, h2⟩ := (reach hrun).good i j hj
  obtain ⟨h3, w, h4, h5⟩ := h2.outs o ho
  exact ⟨j.kind, it, h1, h3, by rw [h5]; exact encodes_payload h4⟩

private def Logged (s : Sys) : Prop := ∀ x ∈ s.log, ∃ (i : Nat) (j : Job), s.jobs[i]? = some j ∧ j.kind ≠ .memory ∧ x ∈ j.outs

private theorem logged_set {s s' : Sys} (h : Logged s) {i : Nat} {j0 j : Job} (hi : s.jobs[i]? = some j0) (hj : s'.jobs = s.jobs.set i j) (hk : j.kind = j0.kind)
    (ho : ∀ x ∈ j0.outs, x ∈ j.outs) (hl : ∀ x ∈ s'.log, x ∈ s.log ∨ (j.kind ≠ .memory ∧ x ∈ j.outs)) : Logged s' := by
  intro x hx
  have hlt : i < s.jobs.length := (List.getElem?_eq_some_iff.mp hi).1
  rcases hl x hx with h1 | ⟨h1, h2⟩
  · obtain ⟨k, j1, h3, h4, h5⟩ := h x h1
    by_cases hki : i = k
    · subst hki
      rw [hi] at h3
      cases h3
      exact ⟨i, j, by rw [hj]; simp [hlt], by rw [hk]; exact h4, ho x h5⟩
    · exact ⟨k, j1, by rw [hj]; simp [List.getElem?_set, hki, h3], h4, h5⟩
  · exact ⟨i, j, by rw [hj]; simp [hlt], h1, h2⟩

private theorem adopt_jobs (s : Sys) (p a : Nat) : (s.adopt p a).jobs = s.jobs ∧ (s.adopt p a).log = s.log := by
  unfold Sys.adopt; split <;> exact ⟨rfl, rfl⟩

private theorem logged_emit {s : Sys} (h : Logged s) {i : Nat} {j : Job} (hi : s.jobs[i]? = some j) (a len : Nat) : Logged (s.emit i j a len) := by
  refine logged_set h hi (j := { j with outs := j.outs ++ [(j.key, (s.mem a).take len)] }) rfl rfl (fun x hx => List.mem_append_left _ hx) ?_
  intro x hx
  simp only [Sys.emit, Sys.setJob] at hx
  split at hx
  · exact .inl hx
  · rename_i hm
    rcases List.mem_append.mp hx with hx | hx
    · exact .inl hx
    · exact .inr ⟨hm, List.mem_append_right _ hx⟩

private theorem logged_begin {s : Sys} (h : Logged s) {i : Nat} {j : Job} (hi : s.jobs[i]? = some j) (p : Nat) : Logged (s.begin i j p) := by
  unfold Sys.begin
  split <;> exact logged_set h hi rfl rfl (fun x hx => hx) (fun x hx => .inl hx)

private theorem logged_encode {s s' : Sys} (h : Logged s) {i : Nat} {j : Job} (hi : s.jobs[i]? = some j) {p a : Nat} {w : Str} {o : Option Nat} (hs : s.encode i j p a w o = some s') : Logged s' := by
  cases o <;> simp only [Sys.encode] at hs
  · split at hs
    · cases hs
      refine logged_set h hi (j := { j with phase := .encoded p a (payload j.kind j.cur w).length }) (by simp only [Sys.setJob, (adopt_jobs _ _ _).1]) rfl (fun x hx => hx) ?_
      intro x hx
      simp only [Sys.setJob, (adopt_jobs _ _ _).2] at hx
      exact .inl hx
    · cases hs
  · cases hs
    refine logged_set h hi (j := { j with phase := .encoded p s.arrays (payload j.kind j.cur w).length }) (by simp only [Sys.setJob, (adopt_jobs _ _ _).1]; rfl) rfl (fun x hx => hx) ?_
    intro x hx
    simp only [Sys.setJob, (adopt_jobs _ _ _).2] at hx
    exact .inl hx

private theorem logged_step {s s' : Sys} (h : Logged s) {e : Ev} (hs : step s e = some s') : Logged s' := by
  unfold step at hs
  split at hs
  · cases hs
  cases e <;> simp only at hs
  case call k it =>
    cases hs
    intro x hx
    obtain ⟨i, j, h1, h2, h3⟩ := h x hx
    exact ⟨i, j, by rw [List.getElem?_append_left (List.getElem?_eq_some_iff.mp h1).1]; exact h1, h2, h3⟩
  case forget p =>
    split at hs
    · cases hs; exact h
    · cases hs
  all_goals
    obtain ⟨j, hj, hs⟩ := onJob_some hs
    split at hs
  all_goals first | (cases hs; done) | skip
  all_goals first
    | (cases hs; exact logged_emit h hj _ _)
    | (cases hs; exact logged_set h hj rfl rfl (fun x hx => hx) (fun x hx => .inl hx))
    | skip
  · unfold Sys.take at hs
    split at hs
    · split at hs
      · cases hs; refine logged_begin ?_ ?_ _; exact h; exact hj
      · cases hs
    · cases hs; refine logged_begin ?_ ?_ _; exact h; exact hj
  · split at hs
    · cases hs; exact h
    · cases hs
  · unfold Sys.finish at hs
    split at hs
    · cases hs; exact logged_set h hj rfl rfl (fun x hx => hx) (fun x hx => .inl hx)
    · split at hs
      · cases hs; exact h
      · exact logged_encode h hj hs
  · cases hs
    unfold Sys.trySpawn
    split <;> exact logged_set h hj rfl rfl (fun x hx => hx) (fun x hx => .inl hx)

/-- **C82.** Everything that is ever sent to Redis is the key and the encoding of an item that was given to a store. -/
theorem redis_gets (es : List Ev) (s : Sys) (hrun : run init es = some s) (o : Str × Str) (ho : o ∈ s.log) :
    ∃ k it, (k, it) ∈ calls es ∧ k ≠ .memory ∧ o.1 = it.key ∧ Encodes k it o.2 := by
  have hl : ∀ (es : List Ev) (s0 s : Sys), Logged s0 → run s0 es = some s → Logged s := by
    intro es
    induction es with
    | nil => intro s0 s h hr; cases hr; exact h
    | cons e es ih =>
      intro s0 s h hr
      obtain ⟨s1, h1, h2⟩ := Option.bind_eq_some_iff.mp hr
      exact ih s1 s (logged_step h h1) h2
  obtain ⟨i, j, h1, h2, h3⟩ := hl es init s (by intro x hx; cases hx) hrun o ho
  obtain ⟨it, h4, h5⟩ := (reach hrun).good i j h1
  obtain ⟨h6, w, h7, h8⟩ := h5.outs o h3
  exact ⟨j.kind, it, List.mem_of_getElem? h4, h2, h6, by rw [h8]; exact encodes_payload h7⟩

/-- **C82.** No array is in use by two calls at a time, and none that is in use is in the pool. -/
theorem buffers_not_shared (es : List Ev) (s : Sys) (hrun : run init es = some s) (a : Nat) :
    (∀ (i k : Nat), InUse s i a → InUse s k a → i = k) ∧
    (∀ (i p : Nat), InUse s i a → p ∈ s.pool → s.cells p ≠ a) ∧ s.pool.Nodup := by
  have h := (reach hrun).heap
  have key : ∀ (i : Nat), InUse s i a → ∃ p b, own s.jobs i = some (p, b) ∧ (a = b ∨ a = s.cells p) := by
    rintro i ⟨j, p, b, hj, hp, ha⟩
    refine ⟨p, b, ?_, ha⟩
    rw [own_at hj]
    rcases hp with hp | ⟨n, hp⟩ | ⟨n, hp⟩ <;> rw [hp] <;> rfl
  refine ⟨?_, ?_, h.pool_nodup⟩
  · intro i k hi hk
    obtain ⟨p, b, h1, h2⟩ := key i hi
    obtain ⟨q, c, h3, h4⟩ := key k hk
    have := (h.own_lt i p b h1).1
    have := (h.own_lt k q c h3).1
    rcases h2 with rfl | rfl <;> rcases h4 with h4 | h4
    · subst h4; exact h.own_arr i k p q _ h1 h3
    · have := h.own_cell i p _ q h1 (by omega) h4.symm
      subst this; exact h.own_ptr i k _ _ _ h1 h3
    · have := h.own_cell k q _ p h3 (by omega) h4
      subst this; exact h.own_ptr i k _ _ _ h1 h3
    · have := h.cell_inj p q (by omega) (by omega) h4
      subst this; exact h.own_ptr i k _ _ _ h1 h3
  · intro i p hi hp
    obtain ⟨q, b, h1, h2⟩ := key i hi
    have hq := (h.own_lt i q b h1).1
    have hpl := h.pool_lt p hp
    intro hc
    have : p = q := by
      rcases h2 with rfl | rfl
      · exact h.own_cell i q _ p h1 hpl hc
      · exact h.cell_inj p q hpl hq hc
    subst this
    exact h.pool_free p hp i b h1

/-- **C82.** A backend never has more than 256 asynchronous writes going on. -/
theorem writes_bounded (es : List Ev) (s : Sys) (hrun : run init es = some s) (b : Nat) : writesGoingOn s b ≤ 256 := by
  have h := (reach hrun).sem b
  have : writesGoingOn s b ≤ s.jobs.countP (holdsToken b) := by
    unfold writesGoingOn
    apply List.countP_mono_left
    intro j _ hj
    unfold holdsToken
    split at hj <;> simp_all
  have h2 : semCapacity = 256 := rfl
  omega

/-- **C82.** No call panics, and none ever waits for another: whatever the others are doing, a call that is not over can go on. -/
theorem calls_go_on (es : List Ev) (s : Sys) (hrun : run init es = some s) (hne : MessagesNonempty es) :
    s.crashed = false ∧ ∀ (i : Nat) (j : Job), s.jobs[i]? = some j → j.phase ≠ .finished →
      ∃ e s', MovesOn i e ∧ step s e = some s' ∧ s'.crashed = false := by
  have hcr : s.crashed = false := by
    suffices H : ∀ (es : List Ev) (pre : List Ev) (s s' : Sys), MessagesNonempty (pre ++ es) → Inv (calls pre) s → s.crashed = false →
        run s es = some s' → s'.crashed = false by
      exact H es [] init s hne (by simpa [calls] using init_inv) rfl hrun
    intro es
    induction es with
    | nil => intro pre s s' _ _ hc hr; obtain rfl := Option.some.inj hr; exact hc
    | cons e es ih =>
      intro pre s s' hn hi hc hr
      obtain ⟨s1, h1, h2⟩ := Option.bind_eq_some_iff.mp hr
      have hi1 := step_inv hi e h1
      refine ih (pre ++ [e]) s1 s' (by simpa using hn) hi1 ?_ h2
      unfold step at h1
      rw [if_neg (by simp [hc])] at h1
      cases e with
      | call k it => simp only [Option.some.injEq] at h1; subst h1; exact hc
      | take i p? =>
        obtain ⟨j, hj, h1⟩ := onJob_some h1
        cases hp : j.phase <;> simp only [hp] at h1 <;> try (cases h1; done)
        cases p? with
        | some p =>
          simp only [Sys.take] at h1
          split at h1
          · simp only [Option.some.injEq] at h1; subst h1
            unfold Sys.begin; split <;> exact hc
          · cases h1
        | none =>
          simp only [Sys.take, Option.some.injEq] at h1; subst h1
          unfold Sys.begin; split <;> exact hc
      | scribble i b =>
        obtain ⟨j, hj, h1⟩ := onJob_some h1
        cases hp : j.phase <;> simp only [hp] at h1 <;> try (cases h1; done)
        split at h1
        · simp only [Option.some.injEq] at h1; subst h1; exact hc
        · cases h1
      | finish i alloc =>
        obtain ⟨j, hj, h1⟩ := onJob_some h1
        cases hp : j.phase <;> simp only [hp] at h1 <;> try (cases h1; done)
        rename_i p a
        unfold Sys.finish at h1
        cases hw : j.cur.wire with
        | none => simp only [hw, Option.some.injEq] at h1; subst h1; exact hc
        | some w =>
          simp only [hw] at h1
          obtain ⟨it, g1, g2⟩ := hi.good i j hj
          obtain ⟨g3, -, g4⟩ := g2.cur' p a hp
          have hlt := (hi.heap.own_lt i p a (by rw [own_at hj, hp]; rfl)).1
          have hcap := hi.heap.cell_cap p hlt
          have hwn : w ≠ [] := hn j.kind it w (by rw [calls_append]; exact List.mem_append_left _ (List.mem_of_getElem? g1)) (by rw [← g3]; exact hw)
          rw [if_neg (by rw [g4]; unfold headerSize; rintro ⟨-, h | h⟩; · omega
                         · exact hwn h)] at h1
          cases alloc with
          | none =>
            simp only [Sys.encode] at h1
            split at h1
            · simp only [Option.some.injEq] at h1; subst h1; rw [adopt_crashed]; exact hc
            · cases h1
          | some extra =>
            simp only [Sys.encode, Option.some.injEq] at h1; subst h1; rw [adopt_crashed]; exact hc
      | use i =>
        obtain ⟨j, hj, h1⟩ := onJob_some h1
        split at h1 <;> first | (cases h1; done) | skip
        all_goals (simp only [Option.some.injEq] at h1; subst h1; exact hc)
      | spawn i =>
        obtain ⟨j, hj, h1⟩ := onJob_some h1
        split at h1 <;> first | (cases h1; done) | skip
        all_goals (simp only [Option.some.injEq] at h1; subst h1; unfold Sys.trySpawn; split <;> exact hc)
      | release i =>
        obtain ⟨j, hj, h1⟩ := onJob_some h1
        split at h1 <;> first | (cases h1; done) | skip
        all_goals (simp only [Option.some.injEq] at h1; subst h1; exact hc)
      | signal i =>
        obtain ⟨j, hj, h1⟩ := onJob_some h1
        split at h1 <;> first | (cases h1; done) | skip
        all_goals (simp only [Option.some.injEq] at h1; subst h1; exact hc)
      | mutate i it' =>
        obtain ⟨j, hj, h1⟩ := onJob_some h1
        split at h1 <;> first | (cases h1; done) | skip
        all_goals (simp only [Option.some.injEq] at h1; subst h1; exact hc)
      | forget p =>
        dsimp only at h1
        split at h1
        · simp only [Option.some.injEq] at h1; subst h1; exact hc
        · cases h1
  refine ⟨hcr, ?_⟩
  have hinv := reach hrun
  intro i j hj hph
  have hon : ∀ f : Job → Option Sys, s.onJob i f = f j := by intro f; unfold Sys.onJob; rw [hj]; rfl
  obtain ⟨it, g1, g2⟩ := hinv.good i j hj
  have goes : ∀ {e : Ev} {s' : Sys}, MovesOn i e → step s e = some s' → s'.crashed = false →
      ∃ e s', MovesOn i e ∧ step s e = some s' ∧ s'.crashed = false := fun h1 h2 h3 => ⟨_, _, h1, h2, h3⟩
  cases hp : j.phase with
  | called =>
    refine ⟨.take i none, _, rfl, by simp only [step, hcr, Bool.false_eq_true, if_false, hon, hp, Sys.take]; rfl, ?_⟩
    unfold Sys.begin; split <;> exact hcr
  | packing p a =>
    obtain ⟨g3, -, g4⟩ := g2.cur' p a hp
    have hlt := (hinv.heap.own_lt i p a (by rw [own_at hj, hp]; rfl)).1
    have hcap := hinv.heap.cell_cap p hlt
    cases hw : j.cur.wire with
    | none =>
      refine goes (e := .finish i none) rfl (by simp only [step, hcr, Bool.false_eq_true, if_false, hon, hp, Sys.finish, hw]; rfl) ?_; exact hcr
    | some w =>
      have hwn : w ≠ [] := hne j.kind it w (List.mem_of_getElem? g1) (by rw [← g3]; exact hw)
      have hng : ¬ (j.kind ≠ .memory ∧ ((s.mem a).length ≤ headerSize ∨ w = [])) := by
        rw [g4]; unfold headerSize; rintro ⟨-, h | h⟩
        · omega
        · exact hwn h
      refine ⟨.finish i (some 0), _, rfl, by
        simp only [step, hcr, Bool.false_eq_true, if_false, hon, hp, Sys.finish, hw]; rw [if_neg hng]; simp only [Sys.encode]; rfl, ?_⟩
      rw [adopt_crashed]; exact hcr
  | encoded p a len =>
    cases hk : j.kind with
    | memory => refine goes (e := .release i) rfl (by simp only [step, hcr, Bool.false_eq_true, if_false, hon, hp, hk]; rfl) ?_; exact hcr
    | sync => refine goes (e := .release i) rfl (by simp only [step, hcr, Bool.false_eq_true, if_false, hon, hp, hk]; rfl) ?_; exact hcr
    | async b =>
      refine ⟨.spawn i, _, rfl, by simp only [step, hcr, Bool.false_eq_true, if_false, hon, hp, hk]; rfl, ?_⟩
      unfold Sys.trySpawn; split <;> exact hcr
  | writing p a len =>
    refine goes (e := .release i) rfl (by simp only [step, hcr, Bool.false_eq_true, if_false, hon, hp]; rfl) ?_; exact hcr
  | leaving =>
    obtain ⟨b, hk⟩ := g2.lea hp
    refine goes (e := .signal i) rfl (by simp only [step, hcr, Bool.false_eq_true, if_false, hon, hp, hk]; rfl) ?_; rfl
  | finished => exact absurd hp hph

/-- The item of a Redis store (cache-redis.go:52-87). -/
def redisItem (pack : Msg → Option Str) (key : Str) (ts : Int) (prefetch : Bool) (m : Msg) : Item :=
  ⟨key, [1, if prefetch then 1 else 0] ++ beBytes 8 (toU64 ts), pack m⟩

/-- **C82.** What a store sends to Redis is the encoding of the entry (C09), whatever else goes on. -/
theorem redis_sends_encoding (es : List Ev) (s : Sys) (hrun : run init es = some s) (i : Nat) (j : Job) (hj : s.jobs[i]? = some j)
    (pack : Msg → Option Str) (key : Str) (ts : Int) (prefetch : Bool) (m : Msg) (k : Kind) (hk : k ≠ .memory)
    (hc : (calls es)[i]? = some (k, redisItem pack key ts prefetch m)) (o : Str × Str) (ho : o ∈ j.outs) :
    o.1 = key ∧ Redis.encode pack ts prefetch m = some o.2 := by
  obtain ⟨k', it, h1, h2, h3⟩ := bytes_intact es s hrun i j hj o ho
  rw [hc] at h1
  simp only [Option.some.injEq, Prod.mk.injEq] at h1
  obtain ⟨rfl, rfl⟩ := h1
  refine ⟨h2, ?_⟩
  have : ∃ w, pack m = some w ∧ o.2 = ([1, if prefetch then 1 else 0] ++ beBytes 8 (toU64 ts)) ++ w := by
    cases k with
    | memory => exact absurd rfl hk
    | sync => exact h3
    | async b => exact h3
  obtain ⟨w, h4, h5⟩ := this
  simp [Redis.encode, h4, h5]

/-- **Finding.** Asynchronous writes of the same key can overtake each other: of two stores, made one after the other, the older can be
the one that remains in Redis. -/
theorem async_writes_reordered : ∃ (es : List Ev) (s : Sys) (old new : Item), run init es = some s ∧ old.key = new.key ∧
    calls es = [(.async 0, old), (.async 0, new)] ∧ ∃ v w, Encodes (.async 0) new v ∧ Encodes (.async 0) old w ∧ v ≠ w ∧
      s.log = [(new.key, v), (old.key, w)] := by
  let old : Item := ⟨str "k", List.replicate 10 1, some (str "old")⟩
  let new : Item := ⟨str "k", List.replicate 10 1, some (str "new")⟩
  let es : List Ev := [.call (.async 0) old, .take 0 none, .finish 0 (some 0), .spawn 0, .call (.async 0) new, .take 1 none,
    .finish 1 (some 0), .spawn 1, .use 1, .release 1, .use 0, .release 0]
  have hlog : (run init es).map (·.log) =
      some [(str "k", List.replicate 10 1 ++ str "new"), (str "k", List.replicate 10 1 ++ str "old")] := by decide +kernel
  obtain ⟨s, h1, h2⟩ := Option.map_eq_some_iff.mp hlog
  exact ⟨es, s, old, new, h1, rfl, rfl, _, _, ⟨_, rfl, rfl⟩, ⟨_, rfl, rfl⟩, by decide, h2⟩

/-! ### Concrete cases -/
section Examples

private def it1 : Item := ⟨str "a", List.replicate 10 1, some (str "first message")⟩
private def it2 : Item := ⟨str "b", List.replicate 10 2, some (str "second")⟩

/-- Two asynchronous stores and one into memory: the second store takes the buffer of the first after that was written, the first is
changed by its caller while it is being written. -/
private def evs : List Ev :=
  [.call (.async 0) it1, .call .memory it2, .call (.async 0) it2, .take 0 none, .finish 0 (some 0), .take 1 none, .spawn 0,
   .mutate 0 it2, .use 0, .finish 1 (some 3), .use 1, .release 0, .take 2 (some 0), .finish 2 (some 0), .release 1, .spawn 2, .use 2, .use 2,
   .signal 0, .release 2, .signal 2]

example : (run init evs).map (fun s => (s.jobs.map (·.outs), s.pool)) =
    some ([[(str "a", List.replicate 10 1 ++ str "first message")], [(str "b", str "second")],
      [(str "b", List.replicate 10 2 ++ str "second"), (str "b", List.replicate 10 2 ++ str "second")]], [0, 1]) := by decide +kernel

example : MessagesNonempty evs := by
  intro k it w h hw
  simp only [evs, calls, List.mem_cons, Prod.mk.injEq, List.not_mem_nil, or_false] at h
  rcases h with ⟨-, rfl⟩ | ⟨-, rfl⟩ | ⟨-, rfl⟩ <;> (simp only [it1, it2, Option.some.injEq] at hw; subst hw; decide)

/-- While both stores are being written, two arrays are in use. -/
example : (run init (evs.take 8)).map (fun s => (writesGoingOn s 0, s.sem 0)) = some (1, 1) := by decide +kernel

end Examples

end Verif.Props.Buffers
