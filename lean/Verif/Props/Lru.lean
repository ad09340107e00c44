/-
C02, C03, C04: the pointer-linked LRU cache behaves like a bounded list ordered by recency, for every
sequence of operations, every hash function (collisions included) and every capacity.
-/
import Verif.Lemmas.Lru
set_option linter.unusedSectionVars false
set_option linter.unusedSimpArgs false
namespace Verif.Props.Lru
open Verif.Lru
open Verif.Spec.Lru (Op Ideal)
variable {H K B : Type} [DecidableEq H]

/-- One operation on the pointer structure. `none` is a nil dereference. -/
def stepC (hash : K → H) (matchKey : B → K → Bool) (c : Cache H B) :
    Op H K B → Option (Cache H B × Option B)
  | .add k b => (addKey hash matchKey c k b).map (·, none)
  | .get k => get hash matchKey c k
  | .del k => (delete hash matchKey c k).map (·, none)
  | .delIf f => (deleteFunc f c).map (·, none)
  | .reset => some (reset c, none)

def runC (hash : K → H) (matchKey : B → K → Bool) (c : Cache H B) :
    List (Op H K B) → Option (Cache H B × List (Option B))
  | [] => some (c, [])
  | op :: ops => do
    let (c, o) ← stepC hash matchKey c op
    let (c, os) ← runC hash matchKey c ops
    return (c, o :: os)

private theorem filter_capOk {cap : Int} {es : List (H × B)} (p : H × B → Bool) (h : CapOk cap es) :
    CapOk cap (es.filter p) := by
  intro h0; have := h h0; have := List.length_filter_le p es; omega

private theorem step_ok {c : Cache H B} {refs es} (h : Rep c refs es) (hc : CapOk c.maxItems es)
    (hash : K → H) (matchKey : B → K → Bool) (op : Op H K B) :
    ∃ c' refs', stepC hash matchKey c op = some (c', (Spec.Lru.step hash matchKey c.maxItems es op).2)
      ∧ Rep c' refs' (Spec.Lru.step hash matchKey c.maxItems es op).1
      ∧ CapOk c.maxItems (Spec.Lru.step hash matchKey c.maxItems es op).1
      ∧ c'.maxItems = c.maxItems := by
  cases op with
  | add k b =>
    obtain ⟨c', r', h1, h2, h3⟩ := h.addKey_ok hc hash matchKey k b
    exact ⟨c', r', by simp [stepC, h1, Spec.Lru.step], h2, capOk_trim _ _, h3⟩
  | get k =>
    obtain ⟨c', r', h1, h2, h3⟩ := h.get_ok hash matchKey k
    refine ⟨c', r', by simp [stepC, h1, Spec.Lru.step], h2, ?_, h3⟩
    intro h0
    simp only [Spec.Lru.step, Spec.Lru.get]
    split
    · rename_i e he
      obtain ⟨hm, h1, -⟩ := lookup_mem he
      have := without_length_lt ⟨_, hm, h1⟩
      have := hc h0
      simp only [List.length_cons]; omega
    · exact hc h0
  | del k =>
    obtain ⟨c', r', h1, h2, h3⟩ := h.delete_ok hash matchKey k
    refine ⟨c', r', by simp [stepC, h1, Spec.Lru.step], h2, ?_, h3⟩
    simp only [Spec.Lru.step, Spec.Lru.delete]
    split
    · exact filter_capOk _ hc
    · exact hc
  | delIf f =>
    obtain ⟨c', r', h1, h2, h3⟩ := h.deleteFunc_ok f
    exact ⟨c', r', by simp [stepC, h1, Spec.Lru.step], h2, filter_capOk _ hc, h3⟩
  | reset =>
    exact ⟨reset c, [], by simp [stepC, Spec.Lru.step], h.reset_ok, by intro _; simp [Spec.Lru.step]; omega, rfl⟩

theorem run_ok (hash : K → H) (matchKey : B → K → Bool) (ops : List (Op H K B)) :
    ∀ {c : Cache H B} {refs es}, Rep c refs es → CapOk c.maxItems es →
    ∃ c' refs', runC hash matchKey c ops = some (c', (Spec.Lru.run hash matchKey c.maxItems es ops).2)
      ∧ Rep c' refs' (Spec.Lru.run hash matchKey c.maxItems es ops).1
      ∧ CapOk c.maxItems (Spec.Lru.run hash matchKey c.maxItems es ops).1 := by
  induction ops with
  | nil => intro c refs es h hc; exact ⟨c, refs, rfl, h, hc⟩
  | cons op ops ih =>
    intro c refs es h hc
    obtain ⟨c1, r1, e1, h1, hc1, hm⟩ := step_ok h hc hash matchKey op
    obtain ⟨c2, r2, e2, h2, hc2⟩ := ih h1 (hm ▸ hc1)
    rw [hm] at e2 h2 hc2
    exact ⟨c2, r2, by simp [runC, e1, e2, Spec.Lru.run], h2, hc2⟩

/-- **C03.** For every history the pointer structure never dereferences nil, every read returns
what the list specification returns, the number of index entries is the length of the list, and walking
the structure from the tail yields exactly the list's records, oldest first. -/
theorem lru_refines_list (hash : K → H) (matchKey : B → K → Bool) (cap : Int) (ops : List (Op H K B)) :
    ∃ c, runC hash matchKey (new cap) ops = some (c, (Spec.Lru.run hash matchKey cap [] ops).2)
      ∧ size c = (Spec.Lru.run hash matchKey cap [] ops).1.length
      ∧ serialize c = some ((Spec.Lru.run hash matchKey cap [] ops).1.reverse.map (·.2)) := by
  obtain ⟨c, r, h1, h2, -⟩ := run_ok hash matchKey ops (new_rep (H := H) (B := B) cap)
    (by intro h; simp; exact Int.le_of_lt h)
  exact ⟨c, h1, h2.items_len, h2.serialize_ok⟩

/-- **C04 (bound).** With a positive capacity the number of entries never exceeds it. -/
theorem lru_capacity (hash : K → H) (matchKey : B → K → Bool) (cap : Int) (hcap : 0 < cap)
    (ops : List (Op H K B)) (c : Cache H B) (outs : List (Option B))
    (h : runC hash matchKey (new cap) ops = some (c, outs)) : (size c : Int) ≤ cap := by
  obtain ⟨c', r, h1, h2, h3⟩ := run_ok hash matchKey ops (new_rep (H := H) (B := B) cap)
    (by intro h; simp; exact Int.le_of_lt h)
  rw [h] at h1
  obtain ⟨rfl, -⟩ := Prod.mk.inj (Option.some.inj h1)
  have : size c = _ := h2.items_len
  rw [this]; exact h3 hcap

/-! ### C02: no answer crosses keys -/
variable [DecidableEq K]

/-- Record `b` matches exactly the key `k`. -/
def MatchesOnly (matchKey : B → K → Bool) (b : B) (k : K) : Prop := ∀ k', matchKey b k' = true ↔ k' = k

private def Sound (hash : K → H) (matchKey : B → K → Bool) (es : List (H × B)) (m : Ideal K B) : Prop :=
  ∀ e ∈ es, ∃ k, MatchesOnly matchKey e.2 k ∧ e.1 = hash k ∧ m k = some e.2

private theorem nodup_step {hash : K → H} {matchKey : B → K → Bool} {cap : Int} {es : List (H × B)}
    (hn : (es.map (·.1)).Nodup) (op : Op H K B) :
    ((Spec.Lru.step hash matchKey cap es op).1.map (·.1)).Nodup := by
  have hw : ∀ h : H, ((Spec.Lru.without es h).map (·.1)).Nodup := fun h =>
    hn.sublist (List.filter_sublist.map _)
  have hc : ∀ (h : H) (b : B), (((h, b) :: Spec.Lru.without es h).map (·.1)).Nodup := by
    intro h b
    simp only [List.map_cons, List.nodup_cons]
    refine ⟨?_, hw h⟩
    intro hm
    obtain ⟨e, he, h0⟩ := List.mem_map.mp hm
    simp [Spec.Lru.without] at he
    exact he.2 h0
  cases op with
  | add k b =>
    simp only [Spec.Lru.step, Spec.Lru.add, Spec.Lru.trim]
    split
    · exact hc _ _
    · rw [List.map_take]
      exact (hc _ _).sublist (List.take_sublist _ _)
  | get k =>
    simp only [Spec.Lru.step, Spec.Lru.get]
    split
    · rename_i e he
      obtain ⟨-, h1, -⟩ := lookup_mem he
      obtain ⟨a, b⟩ := e
      simp at h1
      rw [h1]
      exact hc _ _
    · exact hn
  | del k =>
    simp only [Spec.Lru.step, Spec.Lru.delete]
    split
    · exact hw _
    · exact hn
  | delIf f => exact hn.sublist (List.filter_sublist.map _)
  | reset => simp [Spec.Lru.step]

private theorem sound_step {hash : K → H} {matchKey : B → K → Bool} {cap : Int}
    {es : List (H × B)} {m : Ideal K B} (h : Sound hash matchKey es m) (op : Op H K B)
    (hop : ∀ k b, op = .add k b → MatchesOnly matchKey b k) :
    Sound hash matchKey (Spec.Lru.step hash matchKey cap es op).1 (Ideal.step hash m op) := by
  cases op with
  | add k b =>
    have hkb := hop k b rfl
    have key : Sound hash matchKey ((hash k, b) :: Spec.Lru.without es (hash k)) (Ideal.step hash m (.add k b)) := by
      intro e he
      simp only [List.mem_cons] at he
      rcases he with rfl | he
      · exact ⟨k, hkb, rfl, by simp [Ideal.step]⟩
      · simp [Spec.Lru.without] at he
        obtain ⟨k1, h0, h1, h2⟩ := h e he.1
        refine ⟨k1, h0, h1, ?_⟩
        have : k1 ≠ k := by
          intro h0; apply he.2; rw [h1, h0]
        simp [Ideal.step, this, h2]
    simp only [Spec.Lru.step, Spec.Lru.add, Spec.Lru.trim]
    split
    · exact key
    · intro e he; exact key e (List.mem_of_mem_take he)
  | get k =>
    simp only [Spec.Lru.step, Spec.Lru.get]
    split
    · rename_i e he
      obtain ⟨hm, -, -⟩ := lookup_mem he
      intro e' he'
      simp only [List.mem_cons] at he'
      rcases he' with rfl | he'
      · exact h _ hm
      · simp [Spec.Lru.without] at he'
        exact h e' he'.1
    · exact h
  | del k =>
    have key : ∀ e ∈ es, (∀ k1, MatchesOnly matchKey e.2 k1 → e.1 = hash k1 → k1 ≠ k) →
        ∃ k1, MatchesOnly matchKey e.2 k1 ∧ e.1 = hash k1 ∧ Ideal.step hash m (.del k) k1 = some e.2 := by
      intro e he hk
      obtain ⟨k1, h0, h1, h2⟩ := h e he
      exact ⟨k1, h0, h1, by simp [Ideal.step, hk k1 h0 h1, h2]⟩
    simp only [Spec.Lru.step, Spec.Lru.delete]
    split
    · intro e he
      simp [Spec.Lru.without] at he
      exact key e he.1 (by intro k1 _ h1 h0; apply he.2; rw [h1, h0])
    · rename_i hl
      intro e he
      refine key e he ?_
      intro k1 hm1 h1 h0
      unfold Spec.Lru.lookup at hl
      rw [List.find?_eq_none] at hl
      apply hl e he
      subst h0
      simp [h1, (hm1 k1).mpr rfl]
  | delIf f =>
    intro e he
    simp [Spec.Lru.step, Spec.Lru.deleteIf] at he
    obtain ⟨k1, h0, h1, h2⟩ := h e he.1
    refine ⟨k1, h0, h1, ?_⟩
    have : f (hash k1, e.2) = false := by rw [← h1]; exact he.2
    simp [Ideal.step, h2, this]
  | reset => intro e he; simp [Spec.Lru.step] at he

private theorem run_append (hash : K → H) (matchKey : B → K → Bool) (cap : Int) (es : List (H × B))
    (ops : List (Op H K B)) (op : Op H K B) :
    Spec.Lru.run hash matchKey cap es (ops ++ [op]) =
      ((Spec.Lru.step hash matchKey cap (Spec.Lru.run hash matchKey cap es ops).1 op).1,
       (Spec.Lru.run hash matchKey cap es ops).2 ++
         [(Spec.Lru.step hash matchKey cap (Spec.Lru.run hash matchKey cap es ops).1 op).2]) := by
  induction ops generalizing es with
  | nil => simp [Spec.Lru.run]
  | cons o ops ih => simp [Spec.Lru.run, ih]

private theorem run_sound {hash : K → H} {matchKey : B → K → Bool} {cap : Int}
    (ops : List (Op H K B)) (hops : ∀ k b, Op.add k b ∈ ops → MatchesOnly matchKey b k) :
    ∀ {es : List (H × B)} {m : Ideal K B}, Sound hash matchKey es m →
    Sound hash matchKey (Spec.Lru.run hash matchKey cap es ops).1 (Ideal.run hash m ops) := by
  induction ops with
  | nil => intro es m h2; exact h2
  | cons op ops ih =>
    intro es m h2
    simp only [Spec.Lru.run, Ideal.run, List.foldl_cons]
    exact ih (fun k b hm => hops k b (by simp [hm])) (sound_step h2 op (fun k b h => hops k b (by simp [h])))

/-- **C02.** Whatever the hash function does (it may map all keys to the same value), a read
of key `k` at the end of any history returns either nothing or exactly the record last added
under `k` and not deleted since. -/
theorem lru_get_never_crosses_keys (hash : K → H) (matchKey : B → K → Bool) (cap : Int)
    (ops : List (Op H K B)) (hops : ∀ k b, Op.add k b ∈ ops → MatchesOnly matchKey b k)
    (c : Cache H B) (outs : List (Option B)) (hrun : runC hash matchKey (new cap) ops = some (c, outs))
    (k : K) :
    ∃ c' r, Verif.Lru.get hash matchKey c k = some (c', r) ∧
      (r = none ∨ (r = Ideal.run hash (fun _ => none) ops k ∧ ∃ b, r = some b ∧ MatchesOnly matchKey b k)) := by
  obtain ⟨c', refs, h1, h2, h3⟩ := run_ok hash matchKey ops (new_rep (H := H) (B := B) cap)
    (by intro h; simp; exact Int.le_of_lt h)
  rw [hrun] at h1
  obtain ⟨rfl, -⟩ := Prod.mk.inj (Option.some.inj h1)
  obtain ⟨c2, refs2, g1, -, -⟩ := h2.get_ok hash matchKey k
  refine ⟨c2, _, g1, ?_⟩
  have hs := run_sound (cap := cap) (hash := hash) ops hops (es := []) (m := fun _ => none) (by intro e he; simp at he)
  simp only [new, Spec.Lru.get]
  split
  · rename_i e he
    right
    obtain ⟨hm, hh, hk⟩ := lookup_mem he
    obtain ⟨k1, h0, h1, h2⟩ := hs e hm
    have := (h0 k).mp hk
    subst this
    exact ⟨h2.symm, e.2, rfl, h0⟩
  · left; rfl

private def Complete (hash : K → H) (es : List (H × B)) (m : Ideal K B) : Prop :=
  ∀ k b, m k = some b → (hash k, b) ∈ es

private theorem complete_step {hash : K → H} {matchKey : B → K → Bool} {cap : Int} (hcap : cap ≤ 0)
    (hinj : ∀ k k', hash k = hash k' → k = k')
    {es : List (H × B)} {m : Ideal K B} (hs : Sound hash matchKey es m) (h : Complete hash es m) (op : Op H K B) :
    Complete hash (Spec.Lru.step hash matchKey cap es op).1 (Ideal.step hash m op) := by
  cases op with
  | add k b =>
    intro k' b' hm
    simp only [Spec.Lru.step, Spec.Lru.add, Spec.Lru.trim, if_pos hcap]
    simp only [Ideal.step] at hm
    by_cases hk : k' = k
    · rw [if_pos hk] at hm; simp at hm; simp [hk, hm]
    · rw [if_neg hk] at hm
      have := h _ _ hm
      simp only [List.mem_cons, Spec.Lru.without]
      right
      simp only [List.mem_filter, this, true_and, decide_eq_true_eq]
      intro h0; exact hk (hinj _ _ h0)
  | get k =>
    intro k' b' hm
    have h0 := h k' b' hm
    simp only [Spec.Lru.step, Spec.Lru.get]
    split
    · rename_i e he
      obtain ⟨hme, hh, hk⟩ := lookup_mem he
      simp only [List.mem_cons, Spec.Lru.without, List.mem_filter, h0, true_and, decide_eq_true_eq]
      by_cases hk' : hash k' = hash k
      · left
        have hkk := hinj _ _ hk'
        obtain ⟨k1, g0, g1, g2⟩ := hs e hme
        have hm' : m k' = some b' := hm
        rw [hkk, (g0 k).mp hk, g2] at hm'
        ext
        · simp [hk', hh]
        · simp at hm'; simp [hm']
      · exact Or.inr hk'
    · exact h0
  | del k =>
    intro k' b' hm
    simp only [Ideal.step] at hm
    by_cases hk : k' = k
    · rw [if_pos hk] at hm; simp at hm
    · rw [if_neg hk] at hm
      have := h _ _ hm
      simp only [Spec.Lru.step, Spec.Lru.delete]
      split
      · simp only [Spec.Lru.without, List.mem_filter, this, true_and, decide_eq_true_eq]
        intro h0; exact hk (hinj _ _ h0)
      · exact this
  | delIf f =>
    intro k' b' hm
    simp only [Ideal.step] at hm
    cases hmk : m k' with
    | none => rw [hmk] at hm; simp at hm
    | some b =>
      rw [hmk] at hm
      simp only [Option.filter_some] at hm
      split at hm
      · simp at hm; subst hm
        simp only [Spec.Lru.step, Spec.Lru.deleteIf, List.mem_filter, h _ _ hmk, true_and]
        rename_i hf; simpa using hf
      · simp at hm
  | reset => intro k' b' hm; simp [Ideal.step] at hm

/-- **C02/C03 (completeness).** With no capacity limit and no hash collision, a read returns exactly what an
unbounded map would return: nothing is lost. -/
theorem lru_unbounded_exact (hash : K → H) (matchKey : B → K → Bool) (cap : Int) (hcap : cap ≤ 0)
    (hinj : ∀ k k', hash k = hash k' → k = k')
    (ops : List (Op H K B)) (hops : ∀ k b, Op.add k b ∈ ops → MatchesOnly matchKey b k) (k : K) :
    ∃ c outs c', runC hash matchKey (new cap) ops = some (c, outs) ∧
      Verif.Lru.get hash matchKey c k = some (c', Ideal.run hash (fun _ => none) ops k) := by
  obtain ⟨c, refs, h1, h2, h3⟩ := run_ok hash matchKey ops (new_rep (H := H) (B := B) cap)
    (by intro h; simp; exact Int.le_of_lt h)
  obtain ⟨c2, refs2, g1, -, -⟩ := h2.get_ok hash matchKey k
  refine ⟨c, _, c2, h1, ?_⟩
  rw [g1]
  have hs := run_sound (cap := cap) (hash := hash) ops hops (es := []) (m := fun _ => none) (by intro e he; simp at he)
  have hcpl : ∀ (ops : List (Op H K B)) (hops : ∀ k b, Op.add k b ∈ ops → MatchesOnly matchKey b k)
      (es : List (H × B)) (m : Ideal K B), Sound hash matchKey es m → Complete hash es m →
      Complete hash (Spec.Lru.run hash matchKey cap es ops).1 (Ideal.run hash m ops) := by
    intro ops
    induction ops with
    | nil => intro _ es m _ h; exact h
    | cons op ops ih =>
      intro hops es m hs h
      simp only [Spec.Lru.run, Ideal.run, List.foldl_cons]
      exact ih (fun k b hm => hops k b (by simp [hm])) _ _
        (sound_step hs op (fun k b h => hops k b (by simp [h]))) (complete_step hcap hinj hs h op)
  have hc := hcpl ops hops [] (fun _ => none) (by intro e he; simp at he) (by intro k b h; simp at h)
  simp only [new, Spec.Lru.get]
  split
  · rename_i e he
    obtain ⟨hm, hh, hk⟩ := lookup_mem he
    obtain ⟨k1, g0, g1, g2⟩ := hs e hm
    have := (g0 k).mp hk
    subst this
    rw [g2]
  · rename_i hl
    cases hmk : Ideal.run hash (fun _ => none) ops k with
    | none => rfl
    | some b =>
      exfalso
      unfold Spec.Lru.lookup at hl
      rw [List.find?_eq_none] at hl
      have hmem := hc k b hmk
      have := hl _ hmem
      obtain ⟨k1, g0, g1, g2⟩ := hs _ hmem
      have h5 := hinj _ _ g1
      simp only [decide_eq_true_eq, not_and, true_implies] at this
      exact this ((g0 k).mpr h5)

/-! ### C04: the victim is the least recently used entry -/
open Spec.Lru (lastUse)

/-- The history paired with the result of each operation. -/
def trace (hash : K → H) (matchKey : B → K → Bool) (cap : Int) (ops : List (Op H K B)) :
    List (Op H K B × Option B) := ops.zip (Spec.Lru.run hash matchKey cap [] ops).2

private def useStep (hash : K → H) (h : H) (x : Op H K B × Option B) (i : Nat) (acc : Option Nat) : Option Nat :=
  match x with
  | (.add k _, _) => if hash k = h then some i else acc
  | (.get k, some _) => if hash k = h then some i else acc
  | _ => acc

private theorem lastUse_snoc (hash : K → H) (h : H) (t : List (Op H K B × Option B)) (x) :
    ∀ i acc, lastUse hash h (t ++ [x]) i acc = useStep hash h x (i + t.length) (lastUse hash h t i acc) := by
  induction t with
  | nil =>
    intro i acc
    obtain ⟨op, o⟩ := x
    cases op <;> cases o <;> simp [lastUse, useStep]
  | cons y t ih =>
    intro i acc
    obtain ⟨op, o⟩ := y
    cases op <;> cases o <;> simp only [List.cons_append, lastUse, ih, List.length_cons] <;>
      (congr 1; omega)

private theorem run_outs_length (hash : K → H) (matchKey : B → K → Bool) (cap : Int) (ops : List (Op H K B)) :
    ∀ es, (Spec.Lru.run hash matchKey cap es ops).2.length = ops.length := by
  induction ops with
  | nil => intro es; rfl
  | cons o ops ih => intro es; simp [Spec.Lru.run, ih]

private theorem trace_snoc (hash : K → H) (matchKey : B → K → Bool) (cap : Int) (ops : List (Op H K B)) (op) :
    trace hash matchKey cap (ops ++ [op]) = trace hash matchKey cap ops ++
      [(op, (Spec.Lru.step hash matchKey cap (Spec.Lru.run hash matchKey cap [] ops).1 op).2)] := by
  unfold trace
  rw [run_append]
  simp only
  rw [List.zip_append (by rw [run_outs_length])]
  rfl

/-- Position of the last use of hash `h` in the history. -/
def lastUsed (hash : K → H) (matchKey : B → K → Bool) (cap : Int) (ops : List (Op H K B)) (h : H) : Option Nat :=
  lastUse hash h (trace hash matchKey cap ops) 0 none

private theorem trace_length (hash : K → H) (matchKey : B → K → Bool) (cap : Int) (ops : List (Op H K B)) :
    (trace hash matchKey cap ops).length = ops.length := by
  simp [trace, run_outs_length]

private def Recent (es : List (H × B)) (lu : H → Option Nat) (n : Nat) : Prop :=
  es.Pairwise (fun a b => ∃ i j, lu a.1 = some i ∧ lu b.1 = some j ∧ j < i) ∧
  ∀ e ∈ es, ∃ i, lu e.1 = some i ∧ i < n

private theorem Recent.sublist {es es' : List (H × B)} {lu n} (h : Recent es lu n) (hs : es'.Sublist es) :
    Recent es' lu n := ⟨h.1.sublist hs, fun e he => h.2 e (hs.subset he)⟩

private theorem Recent.push {es : List (H × B)} {lu : H → Option Nat} {n : Nat} (h : Recent es lu n) (hh : H) (b : B) :
    Recent ((hh, b) :: Spec.Lru.without es hh) (fun x => if hh = x then some n else lu x) (n + 1) := by
  have hne : ∀ e ∈ Spec.Lru.without es hh, ¬ hh = e.1 ∧ e ∈ es := by
    intro e he; simp [Spec.Lru.without] at he; exact ⟨fun h0 => he.2 h0.symm, he.1⟩
  refine ⟨List.pairwise_cons.mpr ⟨?_, ?_⟩, ?_⟩
  · intro e he
    obtain ⟨h1, h2⟩ := hne e he
    obtain ⟨i, hi, hlt⟩ := h.2 e h2
    exact ⟨n, i, by simp, by simp [h1, hi], hlt⟩
  · refine List.Pairwise.imp_of_mem ?_ (h.1.sublist (l₁ := Spec.Lru.without es hh) List.filter_sublist)
    intro a b ha hb hab
    simp only [(hne a ha).1, (hne b hb).1, if_false]
    exact hab
  · intro e he
    simp only [List.mem_cons] at he
    rcases he with rfl | he
    · exact ⟨n, by simp, by omega⟩
    · obtain ⟨h1, h2⟩ := hne e he
      obtain ⟨i, hi, hlt⟩ := h.2 e h2
      exact ⟨i, by simp [h1, hi], by omega⟩

private theorem recent_run (hash : K → H) (matchKey : B → K → Bool) (cap : Int) (n : Nat) :
    ∀ ops : List (Op H K B), ops.length = n →
    Recent (Spec.Lru.run hash matchKey cap [] ops).1 (lastUsed hash matchKey cap ops) ops.length := by
  induction n with
  | zero =>
    intro ops h
    have : ops = [] := List.eq_nil_of_length_eq_zero h
    subst this; simp [Recent, Spec.Lru.run]
  | succ n ih =>
    intro ops hlen
    rcases List.eq_nil_or_concat ops with h0 | ⟨ops', op, h0⟩
    · subst h0; simp at hlen
    subst h0
    simp only [List.concat_eq_append] at *
    have ih := ih ops' (by simpa using hlen)
    have hlu : lastUsed hash matchKey cap (ops' ++ [op]) = fun h => useStep hash h
        (op, (Spec.Lru.step hash matchKey cap (Spec.Lru.run hash matchKey cap [] ops').1 op).2) ops'.length
        (lastUsed hash matchKey cap ops' h) := by
      funext h
      unfold lastUsed
      rw [trace_snoc, lastUse_snoc, trace_length]; simp
    rw [run_append, hlu, List.length_append, List.length_singleton]
    simp only
    have weaken : ∀ {es : List (H × B)} {lu : H → Option Nat} {m : Nat}, Recent es lu m → Recent es lu (m + 1) :=
      fun h => ⟨h.1, fun e he => by obtain ⟨i, h1, h2⟩ := h.2 e he; exact ⟨i, h1, by omega⟩⟩
    cases op with
    | add k b =>
      simp only [useStep, Spec.Lru.step, Spec.Lru.add, Spec.Lru.trim]
      have := ih.push (hash k) b
      split
      · exact this
      · exact this.sublist (List.take_sublist _ _)
    | get k =>
      simp only [Spec.Lru.step, Spec.Lru.get]
      cases hl : Spec.Lru.lookup matchKey (Spec.Lru.run hash matchKey cap [] ops').1 (hash k) k with
      | none => simp only [useStep]; exact weaken ih
      | some e =>
        obtain ⟨-, h1, -⟩ := lookup_mem hl
        obtain ⟨a, b⟩ := e
        simp only at h1
        subst h1
        simp only [useStep]; exact ih.push (hash k) b
    | del k =>
      simp only [useStep, Spec.Lru.step, Spec.Lru.delete]
      split
      · exact weaken (ih.sublist List.filter_sublist)
      · exact weaken ih
    | delIf f =>
      simp only [useStep, Spec.Lru.step, Spec.Lru.deleteIf]
      exact weaken (ih.sublist List.filter_sublist)
    | reset => simp [Recent, Spec.Lru.step]

/-- **C04 (victim).** After any history, adding under key `k` removes an entry of a different hash only when
the cache was full without it, exactly `cap` entries stay, and every entry that stays was used
(added or successfully read) more recently than the one removed. -/
theorem lru_evicts_least_recently_used (hash : K → H) (matchKey : B → K → Bool) (cap : Int)
    (ops : List (Op H K B)) (k : K) (b : B) (e : H × B)
    (he : e ∈ (Spec.Lru.run hash matchKey cap [] ops).1) (hne : e.1 ≠ hash k)
    (hgone : e ∉ (Spec.Lru.run hash matchKey cap [] (ops ++ [.add k b])).1) :
    0 < cap ∧ ((Spec.Lru.run hash matchKey cap [] (ops ++ [.add k b])).1.length : Int) = cap ∧
    ∀ e' ∈ (Spec.Lru.run hash matchKey cap [] (ops ++ [.add k b])).1,
      ∃ i j, lastUsed hash matchKey cap (ops ++ [.add k b]) e.1 = some i ∧
        lastUsed hash matchKey cap (ops ++ [.add k b]) e'.1 = some j ∧ i < j := by
  have hr := recent_run hash matchKey cap _ ops rfl
  have hp := hr.push (hash k) b
  have hlu : lastUsed hash matchKey cap (ops ++ [.add k b]) = fun x => if hash k = x then some ops.length
      else lastUsed hash matchKey cap ops x := by
    funext h
    unfold lastUsed
    rw [trace_snoc, lastUse_snoc, trace_length]; simp [useStep]
  rw [hlu]
  rw [run_append] at hgone ⊢
  simp only [Spec.Lru.step, Spec.Lru.add, Spec.Lru.trim] at hgone ⊢
  have hin : e ∈ (hash k, b) :: Spec.Lru.without (Spec.Lru.run hash matchKey cap [] ops).1 (hash k) := by
    simp [Spec.Lru.without, he, hne]
  by_cases hcap : cap ≤ 0
  · rw [if_pos hcap] at hgone; exact absurd hin hgone
  · rw [if_neg hcap] at hgone ⊢
    generalize hL : (hash k, b) :: Spec.Lru.without (Spec.Lru.run hash matchKey cap [] ops).1 (hash k) = L at *
    have hdrop : e ∈ L.drop cap.toNat := by
      have := List.take_append_drop cap.toNat L
      rw [← this, List.mem_append] at hin
      exact hin.resolve_left hgone
    have hlen : cap.toNat < L.length := by
      rcases Nat.lt_or_ge cap.toNat L.length with h | h
      · exact h
      · rw [List.drop_eq_nil_of_le h] at hdrop; simp at hdrop
    refine ⟨by omega, by rw [List.length_take]; omega, ?_⟩
    intro e' he'
    have hpw := hp.1
    rw [← List.take_append_drop cap.toNat L, List.pairwise_append] at hpw
    obtain ⟨i, j, h1, h2, h3⟩ := hpw.2.2 e' he' e hdrop
    exact ⟨j, i, h2, h1, h3⟩

/-! ### Concrete cases meeting the hypotheses -/

/-- The worst hash: every key collides. -/
example : (runC (fun _ : Nat => ()) (fun (b : Nat × Nat) k => decide (b.1 = k)) (new 3)
    [.add 1 (1, 10), .get 1, .add 2 (2, 20), .get 1, .get 2]).map (·.2)
    = some [none, some (1, 10), none, none, some (2, 20)] := by decide

/-- Capacity 2: reading key 1 protects it, key 2 is evicted. -/
example : (runC (fun k : Nat => k) (fun (b : Nat × Nat) k => decide (b.1 = k)) (new 2)
    [.add 1 (1, 10), .add 2 (2, 20), .get 1, .add 3 (3, 30), .get 1, .get 2, .get 3]).map (·.2)
    = some [none, none, some (1, 10), none, some (1, 10), none, some (3, 30)] := by decide

/-- The hypotheses of the victim theorem are met by that history. -/
example : (2, (2, 20)) ∈ (Spec.Lru.run (fun k : Nat => k) (fun (b : Nat × Nat) k => decide (b.1 = k)) 2 []
      [.add 1 (1, 10), .add 2 (2, 20), .get 1]).1 ∧
    (2, (2, 20)) ∉ (Spec.Lru.run (fun k : Nat => k) (fun (b : Nat × Nat) k => decide (b.1 = k)) 2 []
      ([.add 1 (1, 10), .add 2 (2, 20), .get 1] ++ [.add 3 (3, 30)])).1 := by decide

end Verif.Props.Lru
