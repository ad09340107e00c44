import Verif.Model.Shared
/-
C93: messages in memory, shared by the goroutines of a whole configuration.
-/
namespace Verif.Props.Shared
open Verif Verif.Composition Verif.Shared

variable {H : Type}

/-! ### Queries are never changed -/

/-- What a reply to `m` may be made of: objects made after the first `w`, or the question of `m` itself. -/
private def Ret (w : Nat) (m : Ptr) (r : Option Ptr) : Prop := ∀ p, r = some p → w ≤ p.body ∧ (w ≤ p.arr ∨ p.arr = m.arr)

private def Far (w : Nat) (r : Option Ptr) : Prop := ∀ p, r = some p → w ≤ p.body ∧ w ≤ p.arr

/-- A program for query `q` that does not write to the first `w` objects. -/
private def Safe (w : Nat) (q : Ptr) : Prog H → Prop
  | .ret r => Ret w q r
  | .stop => True
  | .call _ m _ k => ∀ r, Ret w m r → Safe w q (k r)
  | .ask _ _ _ k => ∀ r, Far w r → Safe w q (k r)
  | .read _ k => ∀ v, Safe w q (k v)
  | .copy _ _ k => ∀ n, Far w (some n) → Safe w q (k n)
  | .new _ k => ∀ n, Far w (some n) → Safe w q (k n)
  | .answer m _ k => ∀ b, w ≤ b → Safe w q (k ⟨b, m.arr⟩)
  | .upd a _ k => w ≤ a.body ∧ Safe w q k
  | .setName a _ k => w ≤ a.arr ∧ Safe w q k
  | .pick _ k => ∀ x, Safe w q (k x)
  | .goShare m p k => Safe w m (p m) ∧ Safe w q k
  | .goCopy _ _ p k => (∀ n, Far w (some n) → Safe w n (p n)) ∧ Safe w q k
  | .chan k => ∀ c, Safe w q (k c)
  | .send _ r k => Far w r ∧ Safe w q k
  | .recv _ k => ∀ r, Far w r → Safe w q (k r)
  | .enter _ old new => (∀ r, Safe w q (old r)) ∧ ∀ f, Safe w q (new f)
  | .wait _ k => ∀ r, Safe w q (k r)
  | .land _ _ k => Safe w q k

private theorem far_ret {w : Nat} {m : Ptr} {r : Option Ptr} (h : Far w r) : Ret w m r := fun p hp => ⟨(h p hp).1, .inl (h p hp).2⟩

private theorem ret_far {w : Nat} {m : Ptr} {r : Option Ptr} (hm : w ≤ m.arr) (h : Ret w m r) : Far w r := by
  intro p hp
  obtain ⟨h1, h2⟩ := h p hp
  refine ⟨h1, ?_⟩
  rcases h2 with h2 | h2
  · exact h2
  · omega

private theorem ret_none {w : Nat} {m : Ptr} : Ret w m none := fun _ h => by cases h

private theorem far_none {w : Nat} : Far w none := fun _ h => by cases h

private theorem safe_onSome {w : Nat} {q m : Ptr} {k : Ptr → Prog H} {r : Option Ptr} (h : Ret w m r) (hk : ∀ a, Ret w m (some a) → Safe w q (k a)) : Safe w q (onSome k r) := by
  cases r with
  | none => exact ret_none
  | some a => exact hk a h

private theorem safe_edit {w : Nat} {q : Ptr} {f : Msg → Msg} {a : Ptr} (h : Ret w q (some a)) : Safe w q (edit f a : Prog H) := ⟨(h a rfl).1, h⟩

private theorem safe_give {w : Nat} {q : Ptr} {x : Option Msg} : Safe w q (give x : Prog H) := by
  cases x with
  | none => exact ret_none
  | some v => exact fun n h => far_ret h

private theorem safe_keepOrGive {w : Nat} {q a : Ptr} {x : Option Msg} (h : Ret w q (some a)) : Safe w q (keepOrGive a x : Prog H) := by
  intro b
  show Safe w q (if b = true then _ else _)
  split
  · exact safe_edit h
  · exact safe_give

private theorem safe_pass {w : Nat} {q : Ptr} {t : Tree H} {ci : ClientInfo} : Safe w q (.call t q ci .ret) := fun _ h => h

private theorem safe_tryMembers {w : Nat} {q : Ptr} {member : Nat → Tree H} {ci : ClientInfo} : ∀ (n : Nat) (r : Option Ptr), Ret w q r → Safe w q (tryMembers member q ci n r) := by
  intro n
  induction n with
  | zero => exact fun r h => h
  | succ n ih =>
    intro r h i r' h' b
    show Safe w q (if b = true then _ else _)
    split
    · exact h'
    · exact ih r' h'

private theorem safe_tryCopies {w : Nat} {q : Ptr} {member : Nat → Tree H} {ci : ClientInfo} : ∀ (n : Nat) (r : Option Ptr), Ret w q r → Safe w q (tryCopies member q ci n r) := by
  intro n
  induction n with
  | zero => exact fun r h => h
  | succ n ih =>
    intro r h i m hm r' h' b
    have h' := far_ret (m := q) (ret_far (hm m rfl).2 h')
    show Safe w q (if b = true then _ else _)
    split
    · exact h'
    · exact ih r' h'

private theorem safe_racer {w : Nat} {q q' : Ptr} {t : Tree H} {ci : ClientInfo} {c : Nat} : Safe w q' (racer t ci c q) :=
  fun m hm _ h => ⟨ret_far (hm m rfl).2 h, ret_none⟩

private theorem safe_startAll {w : Nat} {q : Ptr} {member : Nat → Tree H} {ci : ClientInfo} {c : Nat} {k : Prog H} (hk : Safe w q k) : ∀ n, Safe w q (startAll member q ci c k n) := by
  intro n
  induction n with
  | zero => exact hk
  | succ n ih => exact ⟨safe_racer, ih⟩

private theorem safe_collect {w : Nat} {q : Ptr} {c : Nat} : ∀ n, Safe w q (collect c n : Prog H) := by
  intro n
  induction n with
  | zero => exact fun r hr => far_ret hr
  | succ n ih =>
    intro r hr b
    show Safe w q (if b = true then _ else if n = 0 then _ else _)
    split
    · exact far_ret hr
    · split
      · exact far_ret hr
      · exact ih

private theorem safe_lookups {w : Nat} {q : Ptr} {t : Tree H} {k : Prog H} (hk : Safe w q k) : ∀ n, Safe w q (lookups t q k n) := by
  intro n
  induction n with
  | zero => exact hk
  | succ n ih => exact fun v m _ r _ => ih

private theorem safe_act {w : Nat} {q : Ptr} {t a b : Tree H} {ci : ClientInfo} (x : Blocklist.Act) : Safe w q (act t a b q ci x) := by
  cases x with
  | done r => exact safe_give
  | forward target p => exact safe_pass

private theorem safe_actReply {w : Nat} {q a : Ptr} {t b : Tree H} {ci : ClientInfo} (h : Ret w q (some a)) (x : Blocklist.Act) : Safe w q (actReply t b q a ci x) := by
  cases x with
  | done r => exact safe_keepOrGive h
  | forward target p => exact safe_pass

private theorem safe_orStop {w : Nat} {q : Ptr} {α : Type} {k : α → Prog H} {x : Option α} (h : ∀ y, Safe w q (k y)) : Safe w q (orStop k x) := by
  cases x with
  | none => trivial
  | some y => exact h y

private theorem safe_handOut {w : Nat} {q : Ptr} {r : Option Ptr} : Safe w q (handOut q r : Prog H) := by
  cases r with
  | none => exact ret_none
  | some a => exact fun v u b hb p hp => by cases hp; exact ⟨hb, .inr rfl⟩

private theorem safe_code {w : Nat} {q : Ptr} (t : Tree H) (ci : ClientInfo) : Safe w q (code t q ci) := by
  cases t with
  | client i => exact fun r h => far_ret h
  | ttl o t => exact fun r h => safe_onSome h fun a h => safe_edit h
  | truncateRetry t u =>
    refine fun r h => safe_onSome h fun a h v => ?_
    show Safe w q (if v.tc = true then _ else _)
    split
    · exact safe_pass
    · exact h
  | collapse n t => exact fun r h => safe_onSome h fun a h v w' => safe_orStop fun x => safe_keepOrGive h
  | minimize t => exact fun r h => safe_onSome h fun a h => safe_edit h
  | drop => exact ret_none
  | modify m t =>
    show Safe w q (Shared.modify m t q ci)
    unfold Shared.modify
    split
    · exact safe_pass
    · exact fun n hn r h => far_ret (ret_far (hn n rfl).2 h)
  | blocklist L t a b => exact fun o v => safe_orStop safe_act
  | clientBlocklist L t b => exact fun o v => safe_act _
  | responseIp L t b => exact fun r h => safe_onSome h fun a h o v w' => safe_actReply h _
  | responseName L t b => exact fun r h => safe_onSome h fun a h o v w' => safe_actReply h _
  | rateLimit hasLimit t l =>
    intro b
    show Safe w q (limited t l q ci _)
    cases Rate.dest hasLimit b
    · exact safe_pass
    · exact safe_pass
    · exact ret_none
  | static s => exact fun v => safe_orStop fun x => safe_give
  | template newRR s => exact fun v => safe_orStop fun x => safe_give
  | replace exps t =>
    refine fun v => safe_orStop fun qu => ?_
    unfold replaceWith
    split
    · exact safe_pass
    · refine fun n hn r h => safe_onSome h fun a h => ?_
      have h := ret_far (hn n rfl).2 h
      exact ⟨(h a rfl).2, safe_edit (far_ret h)⟩
  | syslog o t => exact safe_pass
  | queryLog t => exact safe_pass
  | dns64 ps t =>
    refine fun r h => safe_onSome h fun a h b => ?_
    show Safe w q (if b = true then _ else _)
    split
    · intro n hn r' h' x
      show Safe w q (if x.isSome = true then _ else _)
      split
      · exact safe_give
      · exact h
    · exact h
  | failRotate n ok member => exact safe_tryMembers n none ret_none
  | failBack n ok member => exact safe_tryMembers n none ret_none
  | failBackEach n ok member => exact safe_tryMembers n none ret_none
  | roundRobin n member => exact fun i => safe_pass
  | random n ok member => exact safe_tryMembers n none ret_none
  | loadBalance n ok member => exact safe_tryCopies n none ret_none
  | fastest n member => exact fun c => safe_startAll (safe_collect n) n
  | fastestTcp wa n t => exact fun r h => safe_onSome h fun a h f => safe_edit h
  | router routes member =>
    refine fun now v => safe_orStop fun qu => ?_
    cases Route.routeIndex routes v qu ci now 0
    · exact ret_none
    · exact safe_pass
  | dedup t =>
    exact ⟨fun r => safe_handOut, fun f r h => safe_handOut⟩
  | cache env o cap t =>
    intro v
    show Safe w q (if v.question.length > 1 then _ else _)
    split
    · exact safe_pass
    · intro stored how
      show Safe w q (cached t q ci stored how)
      cases stored with
      | none => exact fun n hn r h => far_ret (ret_far (hn n rfl).2 h)
      | some v =>
        cases how with
        | none => exact safe_give (x := some v)
        | some refresh =>
          intro b hb
          have hr : Ret w q (some (⟨b, q.arr⟩ : Ptr)) := fun p hp => by cases hp; exact ⟨hb, .inr rfl⟩
          show Safe w q (if refresh = true then _ else _)
          split
          · exact ⟨fun n hn r h => ret_none, hr⟩
          · exact hr
  | prefetch t =>
    intro r h x
    cases x with
    | none => exact h
    | some v => exact ⟨fun n hn r h => ret_none, h⟩
  | dnssec lo t =>
    refine fun n hn r h => safe_onSome h fun a h k => safe_lookups ?_ k
    have h : Ret w q (some a) := far_ret (ret_far (hn n rfl).2 h)
    intro x f
    show Safe w q (if x.isSome = true then _ else _)
    split
    · exact safe_give
    · exact safe_edit h

/-- The callers of a goroutine that runs `Resolve` for `q` -/
private def Frames (w : Nat) : Ptr → List (Option Ptr → Prog H) → Prop
  | _, [] => True
  | q, k :: st => ∃ q', (∀ r, Ret w q r → Safe w q' (k r)) ∧ Frames w q' st

private structure Inv (w : Nat) (h0 : Heap) (s : St H) : Prop where
  len : w ≤ s.heap.length
  kept : ∀ x, x < w → s.heap[x]? = h0[x]?
  threads : ∀ (i : Nat) (th : Thread H), s.threads[i]? = some th → ∃ q, Safe w q th.prog ∧ Frames w q th.stack
  chans : ∀ (c : Nat) (l : List (Option Ptr)), s.chans[c]? = some l → ∀ r ∈ l, Far w r

private theorem set_threads {w : Nat} {ths : List (Thread H)} {i : Nat} {th : Thread H}
    (h : ∀ (i : Nat) (th : Thread H), ths[i]? = some th → ∃ q, Safe w q th.prog ∧ Frames w q th.stack) (hn : ∃ q, Safe w q th.prog ∧ Frames w q th.stack) :
    ∀ (j : Nat) (th' : Thread H), (ths.set i th)[j]? = some th' → ∃ q, Safe w q th'.prog ∧ Frames w q th'.stack := by
  intro j th' hj
  rw [List.getElem?_set] at hj
  split at hj
  · split at hj
    · cases hj; exact hn
    · cases hj
  · exact h j th' hj

private theorem add_thread {w : Nat} {ths : List (Thread H)} {th : Thread H}
    (h : ∀ (i : Nat) (th : Thread H), ths[i]? = some th → ∃ q, Safe w q th.prog ∧ Frames w q th.stack) (hn : ∃ q, Safe w q th.prog ∧ Frames w q th.stack) :
    ∀ (j : Nat) (th' : Thread H), (ths ++ [th])[j]? = some th' → ∃ q, Safe w q th'.prog ∧ Frames w q th'.stack := by
  intro j th' hj
  rw [List.getElem?_append] at hj
  split at hj
  · exact h j th' hj
  · cases hd : j - ths.length with
    | zero => rw [hd] at hj; cases hj; exact hn
    | succ d => rw [hd] at hj; cases hj

private theorem kept_append {w : Nat} {h0 h l : Heap} (hl : w ≤ h.length) (hk : ∀ x, x < w → h[x]? = h0[x]?) : ∀ x, x < w → (h ++ l)[x]? = h0[x]? := by
  intro x hx
  rw [List.getElem?_append_left (by omega)]
  exact hk x hx

private theorem kept_set {w : Nat} {h0 h : Heap} {y : Nat} {v : Msg} (hy : w ≤ y) (hk : ∀ x, x < w → h[x]? = h0[x]?) : ∀ x, x < w → (h.set y v)[x]? = h0[x]? := by
  intro x hx
  rw [List.getElem?_set_ne (by omega)]
  exact hk x hx

private theorem next_far {w : Nat} {s : St H} (h : w ≤ s.heap.length) : Far w (some s.next) := by
  intro p hp
  cases hp
  exact ⟨h, Nat.le_succ_of_le h⟩

private theorem inv_step {w : Nat} {h0 : Heap} {s s' : St H} (hi : Inv w h0 s) (hs : Step s s') : Inv w h0 s' := by
  cases hs with
  | ret h =>
    obtain ⟨q, h1, q', h2, h3⟩ := hi.threads _ _ h
    exact ⟨hi.len, hi.kept, set_threads hi.threads ⟨q', h2 _ h1, h3⟩, hi.chans⟩
  | @call i t m ci k st h =>
    obtain ⟨q, h1, h2⟩ := hi.threads _ _ h
    exact ⟨hi.len, hi.kept, set_threads hi.threads ⟨m, safe_code t ci, q, h1, h2⟩, hi.chans⟩
  | askFail h =>
    obtain ⟨q, h1, h2⟩ := hi.threads _ _ h
    exact ⟨hi.len, hi.kept, set_threads hi.threads ⟨q, h1 _ far_none, h2⟩, hi.chans⟩
  | ask h =>
    obtain ⟨q, h1, h2⟩ := hi.threads _ _ h
    exact ⟨by simp only [St.go, List.length_append]; exact Nat.le_add_right_of_le hi.len, kept_append hi.len hi.kept, set_threads hi.threads ⟨q, h1 _ (next_far hi.len), h2⟩, hi.chans⟩
  | read h =>
    obtain ⟨q, h1, h2⟩ := hi.threads _ _ h
    exact ⟨hi.len, hi.kept, set_threads hi.threads ⟨q, h1 _, h2⟩, hi.chans⟩
  | copy h =>
    obtain ⟨q, h1, h2⟩ := hi.threads _ _ h
    exact ⟨by simp only [St.go, List.length_append]; exact Nat.le_add_right_of_le hi.len, kept_append hi.len hi.kept, set_threads hi.threads ⟨q, h1 _ (next_far hi.len), h2⟩, hi.chans⟩
  | new h =>
    obtain ⟨q, h1, h2⟩ := hi.threads _ _ h
    exact ⟨by simp only [St.go, List.length_append]; exact Nat.le_add_right_of_le hi.len, kept_append hi.len hi.kept, set_threads hi.threads ⟨q, h1 _ (next_far hi.len), h2⟩, hi.chans⟩
  | answer h =>
    obtain ⟨q, h1, h2⟩ := hi.threads _ _ h
    exact ⟨by simp only [St.go, List.length_append]; exact Nat.le_add_right_of_le hi.len, kept_append hi.len hi.kept, set_threads hi.threads ⟨q, h1 _ hi.len, h2⟩, hi.chans⟩
  | upd h =>
    obtain ⟨q, h1, h2⟩ := hi.threads _ _ h
    exact ⟨by simp only [St.go, List.length_set]; exact hi.len, kept_set h1.1 hi.kept, set_threads hi.threads ⟨q, h1.2, h2⟩, hi.chans⟩
  | setName h =>
    obtain ⟨q, h1, h2⟩ := hi.threads _ _ h
    exact ⟨by simp only [St.go, List.length_set]; exact hi.len, kept_set h1.1 hi.kept, set_threads hi.threads ⟨q, h1.2, h2⟩, hi.chans⟩
  | pick x h =>
    obtain ⟨q, h1, h2⟩ := hi.threads _ _ h
    exact ⟨hi.len, hi.kept, set_threads hi.threads ⟨q, h1 x, h2⟩, hi.chans⟩
  | @goShare i m p k st h =>
    obtain ⟨q, h1, h2⟩ := hi.threads _ _ h
    exact ⟨hi.len, hi.kept, add_thread (set_threads hi.threads ⟨q, h1.2, h2⟩) ⟨m, h1.1, trivial⟩, hi.chans⟩
  | goCopy h =>
    obtain ⟨q, h1, h2⟩ := hi.threads _ _ h
    exact ⟨by simp only [List.length_append]; exact Nat.le_add_right_of_le hi.len, kept_append hi.len hi.kept,
      add_thread (set_threads hi.threads ⟨q, h1.2, h2⟩) ⟨s.next, h1.1 _ (next_far hi.len), trivial⟩, hi.chans⟩
  | chan h =>
    obtain ⟨q, h1, h2⟩ := hi.threads _ _ h
    refine ⟨hi.len, hi.kept, set_threads hi.threads ⟨q, h1 _, h2⟩, ?_⟩
    intro c l hc r hr
    simp only [St.go] at hc
    rw [List.getElem?_append] at hc
    split at hc
    · exact hi.chans c l hc r hr
    · cases hd : c - s.chans.length with
      | zero => rw [hd] at hc; cases hc; cases hr
      | succ d => rw [hd] at hc; cases hc
  | send h hc =>
    obtain ⟨q, h1, h2⟩ := hi.threads _ _ h
    refine ⟨hi.len, hi.kept, set_threads hi.threads ⟨q, h1.2, h2⟩, ?_⟩
    intro c l' hc' r hr
    simp only [St.go] at hc'
    rw [List.getElem?_set] at hc'
    split at hc'
    · split at hc'
      · cases hc'
        rcases List.mem_append.1 hr with hr | hr
        · exact hi.chans _ _ hc r hr
        · cases List.mem_singleton.1 hr; exact h1.1
      · cases hc'
    · exact hi.chans c l' hc' r hr
  | recv h hc =>
    obtain ⟨q, h1, h2⟩ := hi.threads _ _ h
    refine ⟨hi.len, hi.kept, set_threads hi.threads ⟨q, h1 _ (hi.chans _ _ hc _ (List.mem_cons_self ..)), h2⟩, ?_⟩
    intro c l' hc' r hr
    simp only [St.go] at hc'
    rw [List.getElem?_set] at hc'
    split at hc'
    · split at hc'
      · cases hc'
        exact hi.chans _ _ hc r (List.mem_cons_of_mem _ hr)
      · cases hc'
    · exact hi.chans c l' hc' r hr
  | lead h =>
    obtain ⟨q, h1, h2⟩ := hi.threads _ _ h
    exact ⟨hi.len, hi.kept, set_threads hi.threads ⟨q, h1.2 _, h2⟩, hi.chans⟩
  | join h _ =>
    obtain ⟨q, h1, h2⟩ := hi.threads _ _ h
    exact ⟨hi.len, hi.kept, set_threads hi.threads ⟨q, h1.1, h2⟩, hi.chans⟩
  | land h _ =>
    obtain ⟨q, h1, h2⟩ := hi.threads _ _ h
    exact ⟨hi.len, hi.kept, set_threads hi.threads ⟨q, h1, h2⟩, hi.chans⟩
  | wait h _ =>
    obtain ⟨q, h1, h2⟩ := hi.threads _ _ h
    exact ⟨hi.len, hi.kept, set_threads hi.threads ⟨q, h1 _, h2⟩, hi.chans⟩

private theorem heap_init {roots : List (Root H)} : ∀ (j : Nat) (r : Root H), roots[j]? = some r → value (init roots).heap (rootPtr j) = r.q ∧ 2 * j + 1 < (init roots).heap.length := by
  have key : ∀ (l : List (Root H)) (j : Nat) (r : Root H), l[j]? = some r →
      (l.flatMap fun r => [r.q, r.q])[2 * j]? = some r.q ∧ (l.flatMap fun r => [r.q, r.q])[2 * j + 1]? = some r.q := by
    intro l
    induction l with
    | nil => intro j r h; cases h
    | cons x l ih =>
      intro j r h
      cases j with
      | zero => cases h; exact ⟨rfl, rfl⟩
      | succ j => exact ih j r h
  intro j r h
  obtain ⟨h1, h2⟩ := key roots j r h
  refine ⟨?_, (List.getElem?_eq_some_iff.1 h2).1⟩
  simp only [value, rootPtr, init, h1, h2, Option.getD_some]

/-- C93: whatever the elements do, with any number of queries at the same time and with goroutines that go on after the reply was sent, the queries the listeners hold stay as they came. -/
theorem query_kept (roots : List (Root H)) (s : St H) (hs : Steps (init roots) s) (j : Nat) (r : Root H) (hr : roots[j]? = some r) : value s.heap (rootPtr j) = r.q := by
  have h0 : Inv (init roots).heap.length (init roots).heap (init roots) := by
    refine ⟨Nat.le_refl _, fun _ _ => rfl, ?_, fun c l h => by cases h⟩
    intro i th h
    simp only [init, List.getElem?_mapIdx, Option.map_eq_some_iff] at h
    obtain ⟨x, -, rfl⟩ := h
    exact ⟨rootPtr i, safe_pass, trivial⟩
  have hi : Inv (init roots).heap.length (init roots).heap s := by
    generalize ha : init roots = a at hs h0
    clear hr ha
    induction hs with
    | refl => exact h0
    | step _ h ih => exact inv_step ih h
  obtain ⟨h1, h2⟩ := heap_init j r hr
  rw [← h1]
  simp only [value, rootPtr]
  rw [hi.kept _ (by omega), hi.kept _ h2]

section Examples

/-- The reply of the de-duplication has the question section of the query; the replace element above changed the name in it: in the copy it made. -/
example : ∃ s : St Unit, Steps (init [⟨.replace [fun _ => str "b."] (.dedup (.client 0)), { question := [⟨str "a.", 1, 1⟩] }, {}⟩]) s ∧
    (∃ x, s.threads[0]? = some ⟨.ret (some x), []⟩ ∧ (value s.heap x).question = [⟨str "a.", 1, 1⟩] ∧ x.arr = 3) ∧ value s.heap (rootPtr 0) = { question := [⟨str "a.", 1, 1⟩] } := by
  have h := Steps.refl (s := init [⟨(.replace [fun _ => str "b."] (.dedup (.client 0)) : Tree Unit), { question := [⟨str "a.", 1, 1⟩] }, {}⟩])
  have h := h.step (.call (i := 0) rfl)
  have h := h.step (.read (i := 0) rfl)
  have h := h.step (.copy (i := 0) rfl)
  have h := h.step (.call (i := 0) rfl)
  have h := h.step (.lead (i := 0) rfl)
  have h := h.step (.call (i := 0) rfl)
  have h := h.step (.ask (i := 0) (v := { response := true }) rfl)
  have h := h.step (.ret (i := 0) rfl)
  have h := h.step (.land (i := 0) (f := 0) rfl rfl)
  have h := h.step (.read (i := 0) rfl)
  have h := h.step (.read (i := 0) rfl)
  have h := h.step (.answer (i := 0) rfl)
  have h := h.step (.ret (i := 0) rfl)
  have h := h.step (.setName (i := 0) rfl)
  have h := h.step (.upd (i := 0) rfl)
  have h := h.step (.ret (i := 0) rfl)
  exact ⟨_, h, ⟨⟨6, 3⟩, rfl, rfl, rfl⟩, rfl⟩

end Examples

end Verif.Props.Shared
