import Verif.Spec.Keystore
/-
C51: the key store, for all interleavings of any number of operations.
-/
set_option linter.unusedVariables false
set_option linter.unusedSimpArgs false
namespace Verif.Props.Keystore
open Verif
open Verif.Dnssec (Key Ds KeySet DsSet canonicalName seconds)
open Verif.Keystore Verif.KeystoreSpec

/-! ### Times -/

theorem foldl_min {α : Type} (f : α → Nat) (l : List α) (m : Nat) :
    (l.foldl (fun m x => min m (f x)) m = m ∨ ∃ x ∈ l, l.foldl (fun m x => min m (f x)) m = f x)
    ∧ l.foldl (fun m x => min m (f x)) m ≤ m ∧ ∀ x ∈ l, l.foldl (fun m x => min m (f x)) m ≤ f x := by
  induction l generalizing m with
  | nil => simp
  | cons x xs ih =>
    obtain ⟨h1, h2, h3⟩ := ih (min m (f x))
    simp only [List.foldl_cons]
    refine ⟨?_, by omega, ?_⟩
    · rcases h1 with h | ⟨y, hy, h⟩
      · rw [h]
        rcases Nat.le_total m (f x) with hm | hm
        · left; omega
        · right; exact ⟨x, by simp, by omega⟩
      · right; exact ⟨y, by simp [hy], h⟩
    · intro y hy
      rcases List.mem_cons.mp hy with rfl | hy
      · omega
      · exact h3 y hy

theorem alive_iff {α : Type} (f : α → Nat) (l : List α) (t now : Int) :
    now > t + seconds (l.foldl (fun m x => min m (f x)) 4294967295) ↔ ¬ Alive t now (l.map f) := by
  obtain ⟨h1, h2, h3⟩ := foldl_min f l 4294967295
  unfold Alive seconds
  generalize l.foldl (fun m x => min m (f x)) 4294967295 = m at *
  constructor
  · rintro h ⟨ha, hb⟩
    rcases h1 with rfl | ⟨x, hx, rfl⟩
    · omega
    · have := hb (f x) (List.mem_map.mpr ⟨x, hx, rfl⟩); omega
  · intro h
    apply Decidable.by_contra
    intro hn
    apply h
    refine ⟨by omega, ?_⟩
    intro ttl httl
    obtain ⟨x, hx, rfl⟩ := List.mem_map.mp httl
    have := h3 x hx
    omega

/-! ### The log as the abstract state -/

theorem same_iff {a b : Str} : same a b = true ↔ canonicalName a = canonicalName b := by simp [same]

theorem lastKeys_snoc (log : List Event) (e : Event) (n : Str) : lastKeys (log ++ [e]) n = match e.op with
    | .addKeys m keys => if same m n then some (keys, e.time) else lastKeys log n
    | _ => lastKeys log n := by
  unfold lastKeys
  rw [List.reverse_append]
  simp only [List.reverse_cons, List.reverse_nil, List.nil_append, List.singleton_append, List.findSome?_cons]
  cases he : e.op with
  | addKeys m keys =>
    simp only
    by_cases h : same m n = true
    · simp [h]
    · simp [h]
  | addDs m ds => rfl
  | getKeys m => rfl
  | getDs m => rfl

theorem lastDs_snoc (log : List Event) (e : Event) (n : Str) : lastDs (log ++ [e]) n = match e.op with
    | .addDs m _ => if same m n then some e.time else lastDs log n
    | _ => lastDs log n := by
  unfold lastDs
  rw [List.reverse_append]
  simp only [List.reverse_cons, List.reverse_nil, List.nil_append, List.singleton_append, List.findSome?_cons]
  cases he : e.op with
  | addDs m ds =>
    simp only
    by_cases h : same m n = true
    · simp [h]
    · simp [h]
  | addKeys m ds => rfl
  | getKeys m => rfl
  | getDs m => rfl

theorem allDs_snoc (log : List Event) (e : Event) (n : Str) : allDs (log ++ [e]) n = allDs log n ++ match e.op with
    | .addDs m ds => if same m n then ds else []
    | _ => [] := by
  unfold allDs
  rw [List.flatMap_append]
  simp only [List.flatMap_cons, List.flatMap_nil, List.append_nil]
  cases e.op <;> rfl

theorem allDs_none {log : List Event} {n : Str} (h : lastDs log n = none) : allDs log n = [] := by
  unfold lastDs at h
  rw [List.findSome?_eq_none_iff] at h
  unfold allDs
  rw [List.flatMap_eq_nil_iff]
  intro e he
  have := h e (by simpa using he)
  cases hop : e.op with
  | addDs m ds =>
    rw [hop] at this
    simp only at this ⊢
    split at this
    · simp at this
    · rename_i hs; simp [hs]
  | addKeys m keys => rfl
  | getKeys m => rfl
  | getDs m => rfl

/-- The DS set of a name after the operations in the log -/
def dsAfter (log : List Event) (n : Str) : Option DsSet :=
  (lastDs log n).map fun t => ⟨t + seconds ((allDs log n).foldl (fun m r => min m r.hdr.ttl) 4294967295), allDs log n⟩

def keysAfter (log : List Event) (n : Str) : Option KeySet := (lastKeys log n).map fun p => keySet p.1 p.2

theorem right_keys {log : List Event} {e : Event} {n : Str} (ho : e.op = .getKeys n) (ent : Entry) (hk : ent.keys = keysAfter log n)
    (hr : e.result = readKeys ent e.time) : Right log e := by
  obtain ⟨who, op, time, result⟩ := e
  simp only at ho hr
  subst ho
  unfold readKeys at hr
  rw [hk] at hr
  unfold keysAfter at hr
  cases hl : lastKeys log n with
  | none =>
    rw [hl] at hr
    simp only [Option.map_none] at hr
    subst hr
    simp [Right, hl]
  | some p =>
    obtain ⟨keys, t⟩ := p
    rw [hl] at hr
    simp only [Option.map_some] at hr
    by_cases hx : time > (keySet keys t).expiresAt
    · rw [if_pos hx] at hr
      have := (alive_iff (fun k : Key => k.hdr.ttl) keys t time).mp hx
      subst hr
      simp only [Right, hl]
      exact .inr ⟨this, by simp⟩
    · rw [if_neg hx] at hr
      have : Alive t time (keys.map fun k => k.hdr.ttl) := by
        apply Classical.byContradiction
        intro hn
        exact hx ((alive_iff (fun k : Key => k.hdr.ttl) keys t time).mpr hn)
      subst hr
      simp only [Right, hl]
      exact .inl ⟨this, rfl, rfl⟩

theorem right_ds {log : List Event} {e : Event} {n : Str} (ho : e.op = .getDs n) (ent : Entry) (hk : ent.ds = dsAfter log n)
    (hr : e.result = readDs ent e.time) : Right log e := by
  obtain ⟨who, op, time, result⟩ := e
  simp only at ho hr
  subst ho
  unfold readDs at hr
  rw [hk] at hr
  unfold dsAfter at hr
  cases hl : lastDs log n with
  | none =>
    rw [hl] at hr
    simp only [Option.map_none] at hr
    subst hr
    simp [Right, hl]
  | some t =>
    rw [hl] at hr
    simp only [Option.map_some] at hr
    by_cases hx : time > t + seconds ((allDs log n).foldl (fun m r => min m r.hdr.ttl) 4294967295)
    · rw [if_pos hx] at hr
      have := (alive_iff (fun k : Ds => k.hdr.ttl) (allDs log n) t time).mp hx
      subst hr
      simp only [Right, hl]
      exact .inr ⟨this, by simp⟩
    · rw [if_neg hx] at hr
      have : Alive t time ((allDs log n).map fun k => k.hdr.ttl) := by
        apply Classical.byContradiction
        intro hn
        exact hx ((alive_iff (fun k : Ds => k.hdr.ttl) (allDs log n) t time).mpr hn)
      subst hr
      simp only [Right, hl]
      exact .inl ⟨this, by simp⟩

/-! ### Invariant -/

/-- The operation of goroutine `i` is in the log exactly once, since it began, with its result -/
def Once (log : List Event) (i : Nat) (th : Thread) (r : Result) (now : Int) : Prop :=
  ∃ (k : Nat) (e : Event), log[k]? = some e ∧ th.since ≤ k ∧ e.who = i ∧ e.op = th.op ∧ e.result = r ∧ th.began ≤ e.time ∧ e.time ≤ now
    ∧ ∀ (k' : Nat) (e' : Event), log[k']? = some e' → e'.who = i → k' = k

/-- The key set carried along -/
def SetOk (th : Thread) (set : Option (Int × KeySet)) (now : Int) : Prop := match th.op with
  | .addKeys _ keys => ∃ t : Int, set = some (t, keySet keys t) ∧ th.began ≤ t ∧ t ≤ now
  | _ => True

def PcOk (s : Sys) (i : Nat) (th : Thread) : Prop := match th.pc with
  | .begin => True
  | .lookup set => SetOk th set s.now
  | .create set => SetOk th set s.now
  | .item id set => s.mem.items (canonicalName th.op.name) = some id ∧ SetOk th set s.now
  | .done r => Once s.log i th r s.now

structure Inv (s : Sys) : Prop where
  bound : ∀ (n : Str) (id : Nat), s.mem.items n = some id → id < s.mem.next
  inj : ∀ (n n' : Str) (id : Nat), s.mem.items n = some id → s.mem.items n' = some id → n = n'
  absent : ∀ n : Str, s.mem.items (canonicalName n) = none → lastKeys s.log n = none ∧ lastDs s.log n = none
  present : ∀ (n : Str) (id : Nat), s.mem.items (canonicalName n) = some id → (s.mem.entries id).keys = keysAfter s.log n ∧ (s.mem.entries id).ds = dsAfter s.log n
  right : ∀ (k : Nat) (e : Event), s.log[k]? = some e → Right (s.log.take k) e
  who : ∀ e ∈ s.log, e.who < s.threads.length
  threads : ∀ (i : Nat) (th : Thread), s.threads[i]? = some th → th.began ≤ s.now ∧ th.since ≤ s.log.length ∧ PcOk s i th
      ∧ ((∀ r : Result, th.pc ≠ .done r) → ∀ e ∈ s.log, e.who ≠ i)

theorem setOk_later {th : Thread} {set : Option (Int × KeySet)} {now now' : Int} (h : SetOk th set now) (hn : now ≤ now') : SetOk th set now' := by
  unfold SetOk at *
  cases ho : th.op with
  | addKeys n keys =>
    rw [ho] at h
    obtain ⟨t, h1, h2, h3⟩ := h
    exact ⟨t, h1, h2, Int.le_trans h3 hn⟩
  | addDs n ds => trivial
  | getKeys n => trivial
  | getDs n => trivial

theorem getElem?_snoc {α : Type} {l : List α} {x y : α} {k : Nat} (h : (l ++ [x])[k]? = some y) : (k < l.length ∧ l[k]? = some y) ∨ (k = l.length ∧ y = x) := by
  rcases Nat.lt_trichotomy k l.length with hk | hk | hk
  · left; rw [List.getElem?_append_left hk] at h; exact ⟨hk, h⟩
  · right; subst hk; simp at h; exact ⟨rfl, h.symm⟩
  · rw [List.getElem?_eq_none (by simp; omega)] at h; simp at h

theorem once_snoc {log : List Event} {i : Nat} {th : Thread} {r : Result} {now now' : Int} {e : Event} (h : Once log i th r now) (hn : now ≤ now') (he : e.who ≠ i) :
    Once (log ++ [e]) i th r now' := by
  obtain ⟨k, e0, h1, h2, h3, h4, h5, h6, h7, h8⟩ := h
  refine ⟨k, e0, ?_, h2, h3, h4, h5, h6, Int.le_trans h7 hn, ?_⟩
  · rw [List.getElem?_append_left]
    · exact h1
    · rcases Nat.lt_or_ge k log.length with h | h
      · exact h
      · rw [List.getElem?_eq_none h] at h1; simp at h1
  · intro k' e' hk' hw
    rcases getElem?_snoc hk' with ⟨_, h⟩ | ⟨_, h⟩
    · exact h8 k' e' h hw
    · rw [h] at hw; exact absurd hw he

theorem once_later {log : List Event} {i : Nat} {th : Thread} {r : Result} {now now' : Int} (h : Once log i th r now) (hn : now ≤ now') : Once log i th r now' := by
  obtain ⟨k, e0, h1, h2, h3, h4, h5, h6, h7, h8⟩ := h
  exact ⟨k, e0, h1, h2, h3, h4, h5, h6, Int.le_trans h7 hn, h8⟩

theorem right_snoc {log : List Event} {e : Event} (h : ∀ (k : Nat) (e : Event), log[k]? = some e → Right (log.take k) e) (he : Right log e) :
    ∀ (k : Nat) (e' : Event), (log ++ [e])[k]? = some e' → Right ((log ++ [e]).take k) e' := by
  intro k e' hk
  rcases getElem?_snoc hk with ⟨hlt, h'⟩ | ⟨hk', h'⟩
  · rw [List.take_append_of_le_length (by omega)]; exact h k e' h'
  · subst hk'; subst h'; rw [List.take_left']
    · exact he
    · rfl

theorem inv_init (now : Int) : Inv (init now) := by
  refine ⟨?_, ?_, ?_, ?_, ?_, ?_, ?_⟩ <;> simp [init, lastKeys, lastDs]

/-- A step that only moves a goroutine: memory is the same up to a new empty entry, nothing is logged -/
theorem inv_move {s : Sys} (hi : Inv s) {now : Int} (hn : s.now ≤ now) {i : Nat} {th : Thread} (hth : s.threads[i]? = some th) {mem : Mem} {pc : Pc}
    (hb : ∀ (n : Str) (id : Nat), mem.items n = some id → id < mem.next) (hinj : ∀ (n n' : Str) (id : Nat), mem.items n = some id → mem.items n' = some id → n = n')
    (hab : ∀ n : Str, mem.items (canonicalName n) = none → s.mem.items (canonicalName n) = none)
    (hpr : ∀ (n : Str) (id : Nat), mem.items (canonicalName n) = some id →
      (s.mem.items (canonicalName n) = some id ∧ mem.entries id = s.mem.entries id) ∨ (s.mem.items (canonicalName n) = none ∧ mem.entries id = ⟨none, none⟩))
    (hkeep : ∀ (n : Str) (id : Nat), s.mem.items n = some id → mem.items n = some id)
    (hnd : (∀ r : Result, th.pc ≠ .done r)) (hpc : match pc with
      | .begin => True
      | .lookup set => SetOk th set now
      | .create set => SetOk th set now
      | .item id set => mem.items (canonicalName th.op.name) = some id ∧ SetOk th set now
      | .done r => False) :
    Inv { mem := mem, now := now, threads := s.threads.set i { th with pc := pc }, log := s.log } := by
  refine ⟨hb, hinj, fun n hn' => hi.absent n (hab n hn'), ?_, hi.right, ?_, ?_⟩
  · intro n id hid
    rcases hpr n id hid with ⟨h1, h2⟩ | ⟨h1, h2⟩
    · simp only [h2]; exact hi.present n id h1
    · obtain ⟨h3, h4⟩ := hi.absent n h1
      simp only [h2, keysAfter, dsAfter, h3, h4, Option.map_none, and_self]
  · intro e he; simp only [List.length_set]; exact hi.who e he
  · intro j th' hj
    simp only [List.getElem?_set] at hj
    split at hj
    · rename_i hij
      split at hj
      · simp only [Option.some.injEq] at hj
        subst hij; subst hj
        obtain ⟨g1, g2, g3, g4⟩ := hi.threads i th hth
        refine ⟨Int.le_trans g1 hn, g2, ?_, fun _ => g4 hnd⟩
        unfold PcOk
        cases pc with
        | begin => trivial
        | lookup set => exact hpc
        | create set => exact hpc
        | item id set => exact hpc
        | done r => exact absurd hpc (by simp)
      · simp at hj
    · obtain ⟨g1, g2, g3, g4⟩ := hi.threads j th' hj
      refine ⟨Int.le_trans g1 hn, g2, ?_, g4⟩
      unfold PcOk at *
      cases hp : th'.pc with
      | begin => trivial
      | lookup set => rw [hp] at g3; exact setOk_later g3 hn
      | create set => rw [hp] at g3; exact setOk_later g3 hn
      | item id set => rw [hp] at g3; exact ⟨hkeep _ _ g3.1, setOk_later g3.2 hn⟩
      | done r => rw [hp] at g3; exact once_later g3 hn

/-- A step that makes an operation take effect -/
theorem inv_effect {s : Sys} (hi : Inv s) {now : Int} (hn : s.now ≤ now) {i : Nat} {th : Thread} (hth : s.threads[i]? = some th) {mem : Mem} {r : Result} {t : Int}
    (hit : mem.items = s.mem.items) (hnx : mem.next = s.mem.next) (ht : th.began ≤ t ∧ t ≤ now)
    (hab : ∀ n : Str, s.mem.items (canonicalName n) = none → lastKeys (s.log ++ [⟨i, th.op, t, r⟩]) n = none ∧ lastDs (s.log ++ [⟨i, th.op, t, r⟩]) n = none)
    (hpr : ∀ (n : Str) (id : Nat), s.mem.items (canonicalName n) = some id →
      (mem.entries id).keys = keysAfter (s.log ++ [⟨i, th.op, t, r⟩]) n ∧ (mem.entries id).ds = dsAfter (s.log ++ [⟨i, th.op, t, r⟩]) n)
    (hnd : (∀ r : Result, th.pc ≠ .done r)) (hr : Right s.log ⟨i, th.op, t, r⟩) :
    Inv { mem := mem, now := now, threads := s.threads.set i { th with pc := .done r }, log := s.log ++ [⟨i, th.op, t, r⟩] } := by
  have hlt : i < s.threads.length := by
    rcases Nat.lt_or_ge i s.threads.length with h | h
    · exact h
    · rw [List.getElem?_eq_none h] at hth; simp at hth
  refine ⟨?_, ?_, ?_, ?_, right_snoc hi.right hr, ?_, ?_⟩
  · intro n id h; rw [hit] at h; rw [hnx]; exact hi.bound n id h
  · intro n n' id h h'; rw [hit] at h h'; exact hi.inj n n' id h h'
  · intro n h; rw [hit] at h; exact hab n h
  · intro n id h; rw [hit] at h; exact hpr n id h
  · intro e he
    simp only [List.length_set]
    rcases List.mem_append.mp he with he | he
    · exact hi.who e he
    · simp only [List.mem_singleton] at he; subst he; exact hlt
  · intro j th' hj
    simp only [List.getElem?_set] at hj
    split at hj
    · rename_i hij
      simp only [Option.some.injEq] at hj
      subst hij; subst hj
      obtain ⟨g1, g2, g3, g4⟩ := hi.threads i th hth
      refine ⟨Int.le_trans g1 hn, by simp; omega, ?_, fun h => absurd rfl (h r)⟩
      refine ⟨s.log.length, ⟨i, th.op, t, r⟩, by simp, g2, rfl, rfl, rfl, ht.1, ht.2, ?_⟩
      intro k' e' hk' hw
      rcases getElem?_snoc hk' with ⟨_, h⟩ | ⟨h, _⟩
      · exact absurd hw (g4 hnd e' (List.mem_iff_getElem?.mpr ⟨k', h⟩))
      · exact h
    · rename_i hij
      obtain ⟨g1, g2, g3, g4⟩ := hi.threads j th' hj
      refine ⟨Int.le_trans g1 hn, by simp; omega, ?_, ?_⟩
      · unfold PcOk at *
        cases hp : th'.pc with
        | begin => trivial
        | lookup set => rw [hp] at g3; exact setOk_later g3 hn
        | create set => rw [hp] at g3; exact setOk_later g3 hn
        | item id set => rw [hp] at g3; exact ⟨by rw [hit]; exact g3.1, setOk_later g3.2 hn⟩
        | done r => rw [hp] at g3; exact once_snoc g3 hn hij
      · intro hp e he
        rcases List.mem_append.mp he with he | he
        · exact g4 hp e he
        · simp only [List.mem_singleton] at he; subst he; exact hij

theorem move_same {s : Sys} (hi : Inv s) {now : Int} (hn : s.now ≤ now) {i : Nat} {th : Thread} (hth : s.threads[i]? = some th) {pc : Pc}
    (hnd : (∀ r : Result, th.pc ≠ .done r)) (hpc : match pc with
      | .begin => True
      | .lookup set => SetOk th set now
      | .create set => SetOk th set now
      | .item id set => s.mem.items (canonicalName th.op.name) = some id ∧ SetOk th set now
      | .done r => False) :
    Inv { mem := s.mem, now := now, threads := s.threads.set i { th with pc := pc }, log := s.log } :=
  inv_move hi hn hth hi.bound hi.inj (fun _ h => h) (fun _ _ h => .inl ⟨h, rfl⟩) (fun _ _ h => h) hnd hpc

/-- Logging a read -/
theorem effect_get {s : Sys} (hi : Inv s) {now : Int} (hn : s.now ≤ now) {i : Nat} {th : Thread} (hth : s.threads[i]? = some th) {r : Result}
    (hop : (∃ n, th.op = .getKeys n) ∨ ∃ n, th.op = .getDs n) (hnd : (∀ r : Result, th.pc ≠ .done r)) (hr : Right s.log ⟨i, th.op, now, r⟩) :
    Inv { mem := s.mem, now := now, threads := s.threads.set i { th with pc := .done r }, log := s.log ++ [⟨i, th.op, now, r⟩] } := by
  have hk : ∀ n : Str, lastKeys (s.log ++ [⟨i, th.op, now, r⟩]) n = lastKeys s.log n := by
    intro n; rw [lastKeys_snoc]; rcases hop with ⟨m, h⟩ | ⟨m, h⟩ <;> simp only [h]
  have hd : ∀ n : Str, lastDs (s.log ++ [⟨i, th.op, now, r⟩]) n = lastDs s.log n := by
    intro n; rw [lastDs_snoc]; rcases hop with ⟨m, h⟩ | ⟨m, h⟩ <;> simp only [h]
  have ha : ∀ n : Str, allDs (s.log ++ [⟨i, th.op, now, r⟩]) n = allDs s.log n := by
    intro n; rw [allDs_snoc]; rcases hop with ⟨m, h⟩ | ⟨m, h⟩ <;> simp only [h, List.append_nil]
  have hb := (hi.threads i th hth).1
  refine inv_effect hi hn hth rfl rfl ⟨by omega, Int.le_refl _⟩ ?_ ?_ hnd hr
  · intro n h; rw [hk, hd]; exact hi.absent n h
  · intro n id h
    unfold keysAfter dsAfter
    rw [hk, hd, ha]
    exact hi.present n id h

theorem inv_step {s s' : Sys} {now : Int} {ev : Ev} (hi : Inv s) (hs : s.step now ev = some s') : Inv s' := by
  cases ev with
  | call op =>
    simp only [Sys.step] at hs
    split at hs
    · simp at hs
    · rename_i hn
      simp only [Option.some.injEq] at hs
      subst hs
      refine ⟨hi.bound, hi.inj, hi.absent, hi.present, hi.right, ?_, ?_⟩
      · intro e he; have := hi.who e he; simp; omega
      · intro j th hj
        rcases getElem?_snoc hj with ⟨hlt, h⟩ | ⟨hj', h⟩
        · obtain ⟨g1, g2, g3, g4⟩ := hi.threads j th h
          refine ⟨by simp only; omega, g2, ?_, g4⟩
          unfold PcOk at *
          cases hp : th.pc with
          | begin => trivial
          | lookup set => rw [hp] at g3; exact setOk_later g3 (by simp only; omega)
          | create set => rw [hp] at g3; exact setOk_later g3 (by simp only; omega)
          | item id set => rw [hp] at g3; exact ⟨g3.1, setOk_later g3.2 (by simp only; omega)⟩
          | done r => rw [hp] at g3; exact once_later g3 (by simp only; omega)
        · subst h
          refine ⟨Int.le_refl _, Nat.le_refl _, trivial, ?_⟩
          intro _ e he
          have := hi.who e he
          omega
  | step i =>
    simp only [Sys.step] at hs
    split at hs
    · simp at hs
    · rename_i hn
      have hn : s.now ≤ now := by omega
      split at hs
      · simp at hs
      · rename_i th hth
        obtain ⟨g1, g2, g3, g4⟩ := hi.threads i th hth
        split at hs
        · simp at hs
        · rename_i o ho
          simp only [Option.some.injEq] at hs
          subst hs
          unfold PcOk at g3
          cases hpc : th.pc with
          | done r => rw [hpc] at ho; simp [Keystore.step] at ho
          | begin =>
            rw [hpc] at ho
            have hnd : ∀ r : Result, th.pc ≠ .done r := by rw [hpc]; simp
            simp only [Keystore.step] at ho
            cases hop : th.op with
            | addKeys n keys =>
              rw [hop] at ho
              simp only [Option.some.injEq] at ho
              subst ho
              rw [← hop]
              refine move_same hi hn hth hnd ?_
              simp only [SetOk, hop]
              exact ⟨now, rfl, by omega, Int.le_refl _⟩
            | addDs n ds =>
              rw [hop] at ho
              simp only [Option.some.injEq] at ho
              subst ho
              rw [← hop]
              exact move_same hi hn hth hnd (by simp [SetOk, hop])
            | getKeys n =>
              rw [hop] at ho
              simp only at ho
              split at ho
              · rename_i hnone
                simp only [Option.some.injEq] at ho
                subst ho
                rw [← hop]
                refine effect_get hi hn hth (.inl ⟨n, hop⟩) hnd ?_
                have := (hi.absent n hnone).1
                simp [Right, hop, this]
              · rename_i id hid
                simp only [Option.some.injEq] at ho
                subst ho
                rw [← hop]
                refine move_same hi hn hth hnd ?_
                simp only [SetOk, hop]
                exact ⟨hid, trivial⟩
            | getDs n =>
              rw [hop] at ho
              simp only at ho
              split at ho
              · rename_i hnone
                simp only [Option.some.injEq] at ho
                subst ho
                rw [← hop]
                refine effect_get hi hn hth (.inr ⟨n, hop⟩) hnd ?_
                have := (hi.absent n hnone).2
                simp [Right, hop, this]
              · rename_i id hid
                simp only [Option.some.injEq] at ho
                subst ho
                rw [← hop]
                refine move_same hi hn hth hnd ?_
                simp only [SetOk, hop]
                exact ⟨hid, trivial⟩
          | lookup set =>
            rw [hpc] at ho g3
            have hnd : ∀ r : Result, th.pc ≠ .done r := by rw [hpc]; simp
            simp only [Keystore.step] at ho
            split at ho
            · simp only [Option.some.injEq] at ho
              subst ho
              exact move_same hi hn hth hnd (setOk_later g3 hn)
            · rename_i id hid
              simp only [Option.some.injEq] at ho
              subst ho
              exact move_same hi hn hth hnd ⟨hid, setOk_later g3 hn⟩
          | create set =>
            rw [hpc] at ho g3
            have hnd : ∀ r : Result, th.pc ≠ .done r := by rw [hpc]; simp
            simp only [Keystore.step, Option.some.injEq] at ho
            subst ho
            simp only
            unfold getOrCreate
            cases hit : s.mem.items (canonicalName th.op.name) with
            | some id => exact move_same hi hn hth hnd ⟨hit, setOk_later g3 hn⟩
            | none =>
              refine inv_move hi hn hth ?_ ?_ ?_ ?_ ?_ hnd ?_
              · intro n id h
                simp only at h ⊢
                split at h
                · simp only [Option.some.injEq] at h; omega
                · have := hi.bound n id h; omega
              · intro n n' id h h'
                simp only at h h'
                split at h <;> split at h'
                · rename_i e1 e2; rw [e1, e2]
                · simp only [Option.some.injEq] at h; have := hi.bound n' id h'; omega
                · simp only [Option.some.injEq] at h'; have := hi.bound n id h; omega
                · exact hi.inj n n' id h h'
              · intro n h
                simp only at h
                split at h
                · simp at h
                · exact h
              · intro n id h
                simp only at h ⊢
                split at h
                · rename_i e
                  simp only [Option.some.injEq] at h
                  right
                  exact ⟨by rw [e]; exact hit, by rw [if_pos h.symm]⟩
                · left
                  have := hi.bound _ id h
                  exact ⟨h, by rw [if_neg (by omega)]⟩
              · intro n id h
                simp only
                rw [if_neg]
                · exact h
                · intro e; rw [e, hit] at h; simp at h
              · exact ⟨by simp, setOk_later g3 hn⟩
          | item id set =>
            rw [hpc] at ho g3
            obtain ⟨hid, hset⟩ := g3
            have hnd : ∀ r : Result, th.pc ≠ .done r := by rw [hpc]; simp
            simp only [Keystore.step] at ho
            cases hop : th.op with
            | addKeys n keys =>
              rw [hop] at ho
              simp only [SetOk, hop] at hset
              obtain ⟨t, rfl, ht1, ht2⟩ := hset
              simp only [Option.some.injEq] at ho
              subst ho
              have hid' : s.mem.items (canonicalName n) = some id := by rw [hop] at hid; exact hid
              rw [← hop]
              refine inv_effect hi hn hth rfl rfl ⟨ht1, by omega⟩ ?_ ?_ hnd (by simp [Right, hop])
              · intro m hm
                rw [lastKeys_snoc, lastDs_snoc]
                simp only [hop]
                rw [if_neg]
                · exact hi.absent m hm
                · rw [same_iff]; intro e; rw [e, hm] at hid'; simp at hid'
              · intro m id2 hm
                unfold keysAfter dsAfter
                rw [lastKeys_snoc, lastDs_snoc, allDs_snoc]
                simp only [hop, List.append_nil, Mem.setEntry]
                by_cases he : canonicalName n = canonicalName m
                · have hm' : id2 = id := by rw [← he, hid'] at hm; simpa using hm.symm
                  subst hm'
                  rw [if_pos (same_iff.mpr he), if_pos rfl]
                  exact ⟨rfl, (hi.present m id2 hm).2⟩
                · have hm' : id2 ≠ id := by intro e; subst e; exact he (hi.inj _ _ _ hid' hm)
                  rw [if_neg (fun h => he (same_iff.mp h)), if_neg hm']
                  exact hi.present m id2 hm
            | addDs n ds =>
              rw [hop] at ho
              simp only [Option.some.injEq] at ho
              subst ho
              have hid' : s.mem.items (canonicalName n) = some id := by rw [hop] at hid; exact hid
              rw [← hop]
              refine inv_effect hi hn hth rfl rfl ⟨by omega, Int.le_refl _⟩ ?_ ?_ hnd (by simp [Right, hop])
              · intro m hm
                rw [lastKeys_snoc, lastDs_snoc]
                simp only [hop]
                rw [if_neg]
                · exact hi.absent m hm
                · rw [same_iff]; intro e; rw [e, hm] at hid'; simp at hid'
              · intro m id2 hm
                unfold keysAfter dsAfter
                rw [lastKeys_snoc, lastDs_snoc, allDs_snoc]
                simp only [hop, Mem.setEntry]
                by_cases he : canonicalName n = canonicalName m
                · have hm' : id2 = id := by rw [← he, hid'] at hm; simpa using hm.symm
                  subst hm'
                  rw [if_pos (same_iff.mpr he), if_pos rfl, if_pos (same_iff.mpr he)]
                  refine ⟨(hi.present m id2 hm).1, ?_⟩
                  rw [(hi.present m id2 hm).2]
                  unfold mergeDs dsAfter
                  cases hl : lastDs s.log m with
                  | none => simp [allDs_none hl]
                  | some t0 => simp
                · have hm' : id2 ≠ id := by intro e; subst e; exact he (hi.inj _ _ _ hid' hm)
                  rw [if_neg (fun h => he (same_iff.mp h)), if_neg hm', if_neg (fun h => he (same_iff.mp h))]
                  simp only [List.append_nil]
                  exact hi.present m id2 hm
            | getKeys n =>
              rw [hop] at ho
              simp only [Option.some.injEq] at ho
              subst ho
              rw [← hop]
              have hid' : s.mem.items (canonicalName n) = some id := by rw [hop] at hid; exact hid
              exact effect_get hi hn hth (.inl ⟨n, hop⟩) hnd (right_keys hop (s.mem.entries id) (hi.present n id hid').1 rfl)
            | getDs n =>
              rw [hop] at ho
              simp only [Option.some.injEq] at ho
              subst ho
              rw [← hop]
              have hid' : s.mem.items (canonicalName n) = some id := by rw [hop] at hid; exact hid
              exact effect_get hi hn hth (.inr ⟨n, hop⟩) hnd (right_ds hop (s.mem.entries id) (hi.present n id hid').2 rfl)

theorem reach_inv {now : Int} {s : Sys} (h : Reach (init now) s) : Inv s := by
  induction h with
  | refl => exact inv_init now
  | step _ hs ih => exact inv_step ih hs

/-! ### C51 -/

/-- C51: for all interleavings of any number of operations there is an order of them (the log) in which every operation has the right result: keys are those most recently
added under the name (not replaced by others, none lost), as long as their TTL has not passed; DS records are all those added under the name. -/
theorem keystore_right {now : Int} {s : Sys} (h : Reach (init now) s) {before after : List Event} {e : Event} (hl : s.log = before ++ e :: after) : Right before e := by
  have := (reach_inv h).right before.length e (by rw [hl]; simp)
  rwa [hl, List.take_left' rfl] at this

/-- C51: every operation that is finished is in this order exactly once, with the result it returned and at a time the clock showed while it ran; and it is
after all operations that were finished when it began. -/
theorem keystore_once {now : Int} {s : Sys} (h : Reach (init now) s) {i : Nat} {th : Thread} {r : Result} (hth : s.threads[i]? = some th) (hd : th.pc = .done r) :
    ∃ (before after : List Event) (e : Event), s.log = before ++ e :: after ∧ th.since ≤ before.length ∧ e.who = i ∧ e.op = th.op ∧ e.result = r
      ∧ th.began ≤ e.time ∧ e.time ≤ s.now ∧ (∀ e' ∈ before, e'.who ≠ i) ∧ ∀ e' ∈ after, e'.who ≠ i := by
  obtain ⟨_, _, h3, _⟩ := (reach_inv h).threads i th hth
  unfold PcOk at h3
  rw [hd] at h3
  obtain ⟨k, e, h1, h2, h4, h5, h6, h7, h8, h9⟩ := h3
  have hlt : k < s.log.length := by
    rcases Nat.lt_or_ge k s.log.length with h | h
    · exact h
    · rw [List.getElem?_eq_none h] at h1; simp at h1
  have he : s.log[k] = e := by rw [List.getElem?_eq_getElem hlt] at h1; simpa using h1
  refine ⟨s.log.take k, s.log.drop (k + 1), e, ?_, by simp; omega, h4, h5, h6, h7, h8, ?_, ?_⟩
  · rw [← he, List.getElem_cons_drop]; simp
  · intro e' he' hw
    obtain ⟨k', hk'⟩ := List.mem_iff_getElem?.mp he'
    rw [List.getElem?_take] at hk'
    split at hk'
    · have := h9 k' e' hk' hw; omega
    · simp at hk'
  · intro e' he' hw
    obtain ⟨k', hk'⟩ := List.mem_iff_getElem?.mp he'
    rw [List.getElem?_drop] at hk'
    have := h9 _ e' hk' hw
    omega

/-- C51: operations that are not finished have had no effect -/
theorem keystore_pending {now : Int} {s : Sys} (h : Reach (init now) s) {i : Nat} {th : Thread} (hth : s.threads[i]? = some th) (hd : ∀ r : Result, th.pc ≠ .done r) :
    ∀ e ∈ s.log, e.who ≠ i := ((reach_inv h).threads i th hth).2.2.2 hd

/-- C51: keys that are returned were added under the same name, and none of them is past its TTL -/
theorem served_keys_alive {now : Int} {s : Sys} (h : Reach (init now) s) {before after : List Event} {e : Event} (hl : s.log = before ++ e :: after) {n : Str}
    {zsk ksk : List Key} (ho : e.op = .getKeys n) (hr : e.result = .keys zsk ksk) (hne : zsk ≠ [] ∨ ksk ≠ []) :
    ∃ (keys : List Key) (t : Int) (m : Str) (a : Event), a ∈ before ∧ a.op = .addKeys m keys ∧ a.time = t ∧ canonicalName m = canonicalName n
      ∧ (∀ k ∈ zsk ++ ksk, k ∈ keys) ∧ ∀ k ∈ keys, e.time ≤ t + (k.hdr.ttl : Int) * 1000000000 := by
  have hR := keystore_right h hl
  unfold Right at hR
  rw [ho, hr] at hR
  simp only at hR
  cases hk : lastKeys before n with
  | none => rw [hk] at hR; simp only at hR; rcases hne with h | h <;> simp [hR] at h
  | some p =>
    obtain ⟨keys, t⟩ := p
    rw [hk] at hR
    rcases hR with ⟨hal, hz, hks⟩ | ⟨_, hz, hks⟩
    · unfold lastKeys at hk
      obtain ⟨a, ha, hx⟩ := List.exists_of_findSome?_eq_some hk
      cases hop : a.op with
      | addKeys m keys' =>
        rw [hop] at hx
        simp only at hx
        split at hx
        · rename_i hsame
          simp only [Option.some.injEq, Prod.mk.injEq] at hx
          obtain ⟨rfl, rfl⟩ := hx
          refine ⟨keys', a.time, m, a, by simpa using ha, hop, rfl, same_iff.mp hsame, ?_, ?_⟩
          · intro k hk
            rw [hz, hks] at hk
            rcases List.mem_append.mp hk with hk | hk <;> exact (List.mem_filter.mp hk).1
          · intro k hk
            exact hal.2 _ (List.mem_map.mpr ⟨k, hk, rfl⟩)
        · simp at hx
      | addDs m ds => rw [hop] at hx; simp at hx
      | getKeys m => rw [hop] at hx; simp at hx
      | getDs m => rw [hop] at hx; simp at hx
    · rcases hne with h | h
      · exact absurd hz h
      · exact absurd hks h

/-! An interleaving: two goroutines add a DS record each for the same new name (in different case), both find no entry before either makes one; a third then reads.
Both records are there. -/

private def dsOf (d : String) : Ds := { hdr := { name := str "example.", cls := 1, ttl := 60 }, digest := str d }

private def got : Pc → List Ds
  | .done (.ds l) => l
  | _ => []

private def runs (now : Int) : List Ev → Sys → Option Sys
  | [], s => some s
  | e :: es, s => match s.step now e with | some s' => runs now es s' | none => none

private theorem runs_reach {now : Int} {s0 : Sys} : ∀ (l : List Ev) {s s' : Sys}, Reach s0 s → runs now l s = some s' → Reach s0 s'
  | [], s, s', h, hr => by simp only [runs, Option.some.injEq] at hr; exact hr ▸ h
  | e :: es, s, s', h, hr => by
    simp only [runs] at hr
    split at hr
    · rename_i s1 h1; exact runs_reach es (.step h h1) hr
    · simp at hr

private def raceEvents : List Ev :=
  [.call (.addDs (str "Example") [dsOf "a"]), .call (.addDs (str "example.") [dsOf "b"]), .step 0, .step 1, .step 0, .step 1, .step 1, .step 0, .step 0, .step 1,
   .call (.getDs (str "EXAMPLE.")), .step 2, .step 2]

example : ∃ s : Sys, Reach (init 5) s ∧ s.log.map (·.who) = [0, 1, 2] ∧ (s.threads[2]?).map (fun th : Thread => got th.pc) = some [dsOf "a", dsOf "b"] := by
  cases h : runs 5 raceEvents (init 5) with
  | none => exact absurd h (by intro h; have : (runs 5 raceEvents (init 5)).isSome = true := by decide +kernel
                               rw [h] at this; simp at this)
  | some s =>
    have hw : (runs 5 raceEvents (init 5)).map (fun s => s.log.map (·.who)) = some [0, 1, 2] := by decide +kernel
    have hr : (runs 5 raceEvents (init 5)).map (fun s : Sys => decide ((s.threads[2]?).map (fun th : Thread => got th.pc) = some [dsOf "a", dsOf "b"])) = some true := by
      decide +kernel
    rw [h] at hw hr
    simp only [Option.map_some, Option.some.injEq] at hw hr
    exact ⟨s, runs_reach _ .refl h, hw, of_decide_eq_true hr⟩

end Verif.Props.Keystore
