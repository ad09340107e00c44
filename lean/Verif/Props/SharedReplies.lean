import Verif.Model.Shared
/-
C93, third part: a reply belongs to the caller that got it.
-/
namespace Verif.Props.SharedReplies
open Verif Verif.Composition Verif.Shared

variable {H : Type}

/-! ### Owners: each object belongs to a goroutine, or to a message in a channel -/

private inductive Owner where
  | thread (i : Nat)
  | chan (c : Nat)

private abbrev World := List Owner

/-- What goroutine `T` owns it keeps. -/
private def Ext (T : Nat) (W W' : World) : Prop := W.length ≤ W'.length ∧ ∀ x : Nat, W[x]? = some (.thread T) → W'[x]? = some (.thread T)

private def Own (o : Owner) (W : World) (r : Option Ptr) : Prop := ∀ p, r = some p → W[p.body]? = some o ∧ W[p.arr]? = some o

private abbrev Mine (T : Nat) (W : World) (r : Option Ptr) : Prop := Own (.thread T) W r

/-- `top`: not within `Resolve` -/
private def Safe (T : Nat) (top : Bool) : Prog H → World → Prop
  | .ret r, W => Mine T W r
  | .stop, _ => True
  | .call _ m _ k, W => Mine T W (some m) ∧ ∀ W' r, Ext T W W' → Mine T W' r → Safe T top (k r) W'
  | .ask _ _ _ k, W => ∀ W' r, Ext T W W' → Mine T W' r → Safe T top (k r) W'
  | .read _ k, W => ∀ v, Safe T top (k v) W
  | .copy _ _ k, W => ∀ W' n, Ext T W W' → Mine T W' (some n) → Safe T top (k n) W'
  | .new _ k, W => ∀ W' n, Ext T W W' → Mine T W' (some n) → Safe T top (k n) W'
  | .answer m _ k, W => ∀ W' (x : Nat), Ext T W W' → W'[x]? = some (.thread T) → Safe T top (k ⟨x, m.arr⟩) W'
  | .upd a _ k, W => W[a.body]? = some (.thread T) ∧ Safe T top k W
  | .setName a _ k, W => W[a.arr]? = some (.thread T) ∧ Safe T top k W
  | .pick _ k, W => ∀ x, Safe T top (k x) W
  | .goShare m p k, W => (∀ T' W', Safe T' true (p m) W') ∧ Safe T top k W
  | .goCopy _ _ p k, W => (∀ T' W' n, Mine T' W' (some n) → Safe T' true (p n) W') ∧ Safe T top k W
  | .chan k, W => ∀ c, Safe T top (k c) W
  | .send _ r k, W => top = true ∧ Mine T W r ∧ ∀ W', Safe T top k W'
  | .recv _ k, W => ∀ W' r, Ext T W W' → Mine T W' r → Safe T top (k r) W'
  | .enter _ old new, W => (∀ r, Safe T top (old r) W) ∧ ∀ f, Safe T top (new f) W
  | .wait _ k, W => ∀ r, Safe T top (k r) W
  | .land _ _ k, W => Safe T top k W

section
variable {T : Nat} {top : Bool} {W W' : World}

private theorem ext_refl : Ext T W W := ⟨Nat.le_refl _, fun _ h => h⟩

private theorem ext_trans {A B C : World} (h1 : Ext T A B) (h2 : Ext T B C) : Ext T A C := ⟨Nat.le_trans h1.1 h2.1, fun x h => h2.2 x (h1.2 x h)⟩

private theorem mine_mono {r : Option Ptr} (h : Ext T W W') (hr : Mine T W r) : Mine T W' r := fun p hp => ⟨h.2 _ (hr p hp).1, h.2 _ (hr p hp).2⟩

private theorem mine_none : Mine T W none := fun _ h => by cases h

private theorem safe_mono (p : Prog H) : ∀ {W W' : World}, Ext T W W' → Safe T top p W → Safe T top p W' := by
  induction p with
  | ret r => exact fun h hs => mine_mono h hs
  | stop => exact fun _ _ => trivial
  | call t m ci k ih => exact fun h hs => ⟨mine_mono h hs.1, fun W' r he => hs.2 W' r (ext_trans h he)⟩
  | ask i m ci k ih => exact fun h hs W' r he => hs W' r (ext_trans h he)
  | read m k ih => exact fun h hs v => ih v h (hs v)
  | copy m f k ih => exact fun h hs W' n he => hs W' n (ext_trans h he)
  | new v k ih => exact fun h hs W' n he => hs W' n (ext_trans h he)
  | answer m v k ih => exact fun h hs W' x he => hs W' x (ext_trans h he)
  | upd a f k ih => exact fun h hs => ⟨h.2 _ hs.1, ih h hs.2⟩
  | setName a n k ih => exact fun h hs => ⟨h.2 _ hs.1, ih h hs.2⟩
  | pick α k ih => exact fun h hs x => ih x h (hs x)
  | goShare m p k _ ih => exact fun h hs => ⟨hs.1, ih h hs.2⟩
  | goCopy m f p k _ ih => exact fun h hs => ⟨hs.1, ih h hs.2⟩
  | chan k ih => exact fun h hs c => ih c h (hs c)
  | send c r k ih => exact fun h hs => ⟨hs.1, mine_mono h hs.2.1, hs.2.2⟩
  | recv c k ih => exact fun h hs W' r he => hs W' r (ext_trans h he)
  | enter t old new ih1 ih2 => exact fun h hs => ⟨fun r => ih1 r h (hs.1 r), fun f => ih2 f h (hs.2 f)⟩
  | wait f k ih => exact fun h hs r => ih r h (hs r)
  | land f r k ih => exact fun h hs => ih h hs

/-! ### The elements -/

variable {q : Ptr}

private theorem safe_onSome {k : Ptr → Prog H} {r : Option Ptr} (h : Mine T W r) (hk : ∀ a, Mine T W (some a) → Safe T top (k a) W) : Safe T top (onSome k r) W := by
  cases r with
  | none => exact mine_none
  | some a => exact hk a h

private theorem safe_edit {f : Msg → Msg} {a : Ptr} (h : Mine T W (some a)) : Safe T top (edit f a : Prog H) W := ⟨(h a rfl).1, h⟩

private theorem safe_give {x : Option Msg} : Safe T top (give x : Prog H) W := by
  cases x with
  | none => exact mine_none
  | some v => exact fun W' n _ h => h

private theorem safe_keepOrGive {a : Ptr} {x : Option Msg} (h : Mine T W (some a)) : Safe T top (keepOrGive a x : Prog H) W := by
  intro y
  show Safe T top (if y = true then _ else _) W
  split
  · exact safe_edit h
  · exact safe_give

private theorem safe_orStop {α : Type} {k : α → Prog H} {x : Option α} (h : ∀ y, Safe T top (k y) W) : Safe T top (orStop k x) W := by
  cases x with
  | none => trivial
  | some y => exact h y

private theorem safe_call {t : Tree H} {ci : ClientInfo} {k : Option Ptr → Prog H} (hq : Mine T W (some q))
    (hk : ∀ W' r, Ext T W W' → Mine T W' (some q) → Mine T W' r → Safe T top (k r) W') : Safe T top (.call t q ci k) W :=
  ⟨hq, fun W' r he hr => hk W' r he (mine_mono he hq) hr⟩

private theorem safe_pass {t : Tree H} {ci : ClientInfo} (hq : Mine T W (some q)) : Safe T top (.call t q ci .ret) W := ⟨hq, fun _ _ _ h => h⟩

private theorem safe_copyCall {t : Tree H} {f : Msg → Msg} {ci : ClientInfo} {k : Option Ptr → Prog H} (hk : ∀ W' r, Ext T W W' → Mine T W' r → Safe T top (k r) W') :
    Safe T top (.copy q f fun n => .call t n ci k) W := fun _ _ h1 h2 => ⟨h2, fun W2 r h3 hr => hk W2 r (ext_trans h1 h3) hr⟩

private theorem safe_tryMembers {member : Nat → Tree H} {ci : ClientInfo} : ∀ (n : Nat) (r : Option Ptr) (W : World), Mine T W (some q) → Mine T W r → Safe T top (tryMembers member q ci n r) W := by
  intro n
  induction n with
  | zero => exact fun r W _ h => h
  | succ n ih =>
    intro r W hq _ m
    refine safe_call hq fun W' r' _ hq' h' x => ?_
    show Safe T top (if x = true then _ else _) W'
    split
    · exact h'
    · exact ih r' W' hq' h'

private theorem safe_tryCopies {member : Nat → Tree H} {ci : ClientInfo} : ∀ (n : Nat) (r : Option Ptr) (W : World), Mine T W r → Safe T top (tryCopies member q ci n r) W := by
  intro n
  induction n with
  | zero => exact fun r W h => h
  | succ n ih =>
    intro r W _ m
    refine safe_copyCall fun W' r' _ h' x => ?_
    show Safe T top (if x = true then _ else _) W'
    split
    · exact h'
    · exact ih r' W' h'

private theorem safe_racer {t : Tree H} {ci : ClientInfo} {c : Nat} : Safe T true (racer t ci c q) W := safe_copyCall fun _ _ _ h => ⟨rfl, h, fun _ => mine_none⟩

private theorem safe_startAll {member : Nat → Tree H} {ci : ClientInfo} {c : Nat} {k : Prog H} (hk : Safe T top k W) : ∀ n, Safe T top (startAll member q ci c k n) W := by
  intro n
  induction n with
  | zero => exact hk
  | succ n ih => exact ⟨fun _ _ => safe_racer, ih⟩

private theorem safe_collect {c : Nat} : ∀ n W, Safe T top (collect c n : Prog H) W := by
  intro n
  induction n with
  | zero => exact fun W W' r _ hr => hr
  | succ n ih =>
    intro W W' r he hr x
    show Safe T top (if x = true then _ else if n = 0 then _ else _) W'
    split
    · exact hr
    · split
      · exact hr
      · exact ih W'

private theorem safe_lookups {t : Tree H} {k : Prog H} : ∀ n W, (∀ W', Ext T W W' → Safe T top k W') → Safe T top (lookups t q k n) W := by
  intro n
  induction n with
  | zero => exact fun W h => h W ext_refl
  | succ n ih => exact fun W hk p => safe_copyCall fun W' r he _ => ih W' fun W2 h2 => hk W2 (ext_trans he h2)

private theorem safe_act {t a b : Tree H} {ci : ClientInfo} (hq : Mine T W (some q)) (x : Blocklist.Act) : Safe T top (act t a b q ci x) W := by
  cases x with
  | done r => exact safe_give
  | forward target p => exact safe_pass hq

private theorem safe_actReply {a : Ptr} {t b : Tree H} {ci : ClientInfo} (hq : Mine T W (some q)) (h : Mine T W (some a)) (x : Blocklist.Act) : Safe T top (actReply t b q a ci x) W := by
  cases x with
  | done r => exact safe_keepOrGive h
  | forward target p => exact safe_pass hq

private theorem mine_answer {x : Nat} (hq : Mine T W (some q)) (hx : W[x]? = some (.thread T)) : Mine T W (some ⟨x, q.arr⟩) := by
  intro p hp
  cases hp
  exact ⟨hx, (hq q rfl).2⟩

private theorem safe_handOut {r : Option Ptr} (hq : Mine T W (some q)) : Safe T top (handOut q r : Prog H) W := by
  cases r with
  | none => exact mine_none
  | some a => exact fun w u W' x he hx => mine_answer (mine_mono he hq) hx

private theorem safe_code (t : Tree H) (ci : ClientInfo) (hq : Mine T W (some q)) : Safe T top (code t q ci) W := by
  cases t with
  | client i => exact fun W' r _ h => h
  | ttl o t => exact safe_call hq fun W' r _ _ h => safe_onSome h fun a h => safe_edit h
  | truncateRetry t u =>
    refine safe_call hq fun W' r _ hq h => safe_onSome h fun a h v => ?_
    show Safe T top (if v.tc = true then _ else _) W'
    split
    · exact safe_pass hq
    · exact h
  | collapse n t => exact safe_call hq fun W' r _ _ h => safe_onSome h fun a h v w => safe_orStop fun x => safe_keepOrGive h
  | minimize t => exact safe_call hq fun W' r _ _ h => safe_onSome h fun a h => safe_edit h
  | drop => exact mine_none
  | modify m t =>
    show Safe T top (Shared.modify m t q ci) W
    unfold Shared.modify
    split
    · exact safe_pass hq
    · exact safe_copyCall fun _ _ _ h => h
  | blocklist L t a b => exact fun o v => safe_orStop fun x => safe_act hq x
  | clientBlocklist L t b => exact fun o v => safe_act hq _
  | responseIp L t b => exact safe_call hq fun W' r _ hq h => safe_onSome h fun a h o v w => safe_actReply hq h _
  | responseName L t b => exact safe_call hq fun W' r _ hq h => safe_onSome h fun a h o v w => safe_actReply hq h _
  | rateLimit hasLimit t l =>
    intro x
    show Safe T top (limited t l q ci (Rate.dest hasLimit x)) W
    cases Rate.dest hasLimit x
    · exact safe_pass hq
    · exact safe_pass hq
    · exact mine_none
  | static s => exact fun v => safe_orStop fun x => safe_give
  | template newRR s => exact fun v => safe_orStop fun x => safe_give
  | replace exps t =>
    refine fun v => safe_orStop fun qu => ?_
    unfold replaceWith
    split
    · exact safe_pass hq
    · exact safe_copyCall fun W' r _ h => safe_onSome h fun a h => ⟨(h a rfl).2, safe_edit h⟩
  | syslog o t => exact safe_pass hq
  | queryLog t => exact safe_pass hq
  | dns64 ps t =>
    refine safe_call hq fun W' r _ _ h => safe_onSome h fun a h x => ?_
    show Safe T top (if x = true then _ else _) W'
    split
    · refine safe_copyCall fun W2 r2 he _ y => ?_
      show Safe T top (if y.isSome = true then _ else _) W2
      split
      · exact safe_give
      · exact mine_mono he h
    · exact h
  | failRotate n ok member => exact safe_tryMembers n none W hq mine_none
  | failBack n ok member => exact safe_tryMembers n none W hq mine_none
  | failBackEach n ok member => exact safe_tryMembers n none W hq mine_none
  | roundRobin n member => exact fun m => safe_pass hq
  | random n ok member => exact safe_tryMembers n none W hq mine_none
  | loadBalance n ok member => exact safe_tryCopies n none W mine_none
  | fastest n member => exact fun c => safe_startAll (safe_collect n W) n
  | fastestTcp wa n t => exact safe_call hq fun W' r _ _ h => safe_onSome h fun a h f => safe_edit h
  | router routes member =>
    refine fun now v => safe_orStop fun qu => ?_
    cases Route.routeIndex routes v qu ci now 0
    · exact mine_none
    · exact safe_pass hq
  | dedup t =>
    exact ⟨fun r => safe_handOut hq, fun f => safe_call hq fun W' r _ hq h => safe_handOut hq⟩
  | cache env o cap t =>
    intro w
    show Safe T top (if w.question.length > 1 then _ else _) W
    split
    · exact safe_pass hq
    · intro stored how
      show Safe T top (cached t q ci stored how) W
      cases stored with
      | none => exact safe_copyCall fun _ _ _ h => h
      | some u =>
        cases how with
        | none => exact safe_give (x := some u)
        | some refresh =>
          intro W' x he hx
          have hr := mine_answer (mine_mono he hq) hx
          show Safe T top (if refresh = true then _ else _) W'
          split
          · exact ⟨fun T' W2 n hn => ⟨hn, fun _ _ _ _ => mine_none⟩, hr⟩
          · exact hr
  | prefetch t =>
    refine safe_call hq fun W' r _ _ h x => ?_
    cases x with
    | none => exact h
    | some u => exact ⟨fun T' W2 n hn => ⟨hn, fun _ _ _ _ => mine_none⟩, h⟩
  | dnssec lo t =>
    refine safe_copyCall fun W' r _ h => safe_onSome h fun a h n => safe_lookups n W' fun W2 he x f => ?_
    show Safe T top (if x.isSome = true then _ else _) W2
    split
    · exact safe_give
    · exact safe_edit (mine_mono he h)

end

/-! ### The whole program -/

private def Frames (T : Nat) (W : World) : List (Option Ptr → Prog H) → Prop
  | [] => True
  | k :: st => (∀ W' r, Ext T W W' → Mine T W' r → Safe T st.isEmpty (k r) W') ∧ Frames T W st

private def ThreadOk (T : Nat) (th : Thread H) (W : World) : Prop := Safe T th.stack.isEmpty th.prog W ∧ Frames T W th.stack

private def Apart (r r' : Option Ptr) : Prop := ∀ p p', r = some p → r' = some p' → p.body ≠ p'.body ∧ p.body ≠ p'.arr ∧ p.arr ≠ p'.body ∧ p.arr ≠ p'.arr

private structure Inv (s : St H) (W : World) : Prop where
  len : W.length = s.heap.length
  chans : ∀ (c : Nat) (l : List (Option Ptr)), s.chans[c]? = some l → (∀ r ∈ l, Own (.chan c) W r) ∧ l.Pairwise Apart
  threads : ∀ (i : Nat) (th : Thread H), s.threads[i]? = some th → ThreadOk i th W

section
variable {T : Nat} {W W' : World}

private theorem frames_mono {st : List (Option Ptr → Prog H)} (h : Ext T W W') (hf : Frames T W st) : Frames T W' st := by
  induction st with
  | nil => trivial
  | cons k st ih => exact ⟨fun W2 r he => hf.1 W2 r (ext_trans h he), ih hf.2⟩

private theorem thread_mono {th : Thread H} (h : Ext T W W') (ht : ThreadOk T th W) : ThreadOk T th W' := ⟨safe_mono _ h ht.1, frames_mono h ht.2⟩

private theorem others_step {s : St H} {i : Nat} {th : Thread H} (ht : ∀ (i : Nat) (th : Thread H), s.threads[i]? = some th → ThreadOk i th W)
    (h : ∀ j, j ≠ i → Ext j W W') (hn : ThreadOk i th W') : ∀ (j : Nat) (th' : Thread H), (s.threads.set i th)[j]? = some th' → ThreadOk j th' W' := by
  intro j th' hj
  rw [List.getElem?_set] at hj
  split at hj
  · next hij =>
    split at hj
    · cases hj; subst hij; exact hn
    · cases hj
  · next hij => exact thread_mono (h j fun h => hij h.symm) (ht j th' hj)

private theorem added_thread {ths : List (Thread H)} {th : Thread H} (ht : ∀ (i : Nat) (th : Thread H), ths[i]? = some th → ThreadOk i th W) (hn : ThreadOk ths.length th W) :
    ∀ (j : Nat) (th' : Thread H), (ths ++ [th])[j]? = some th' → ThreadOk j th' W := by
  intro j th' hj
  rw [List.getElem?_append] at hj
  split at hj
  · exact ht j th' hj
  · next hge =>
    cases hd : j - ths.length with
    | zero =>
      rw [hd] at hj; cases hj
      rwa [show j = ths.length by omega]
    | succ d => rw [hd] at hj; cases hj

private theorem ext_add {l : List Owner} : Ext T W (W ++ l) := by
  refine ⟨by simp only [List.length_append]; omega, fun x h => ?_⟩
  rw [List.getElem?_append_left (List.getElem?_eq_some_iff.1 h).1]
  exact h

private theorem own_add {o : Owner} {r : Option Ptr} {l : List Owner} (h : Own o W r) : Own o (W ++ l) r := by
  intro p hp
  have := h p hp
  rw [List.getElem?_append_left (List.getElem?_eq_some_iff.1 this.1).1, List.getElem?_append_left (List.getElem?_eq_some_iff.1 this.2).1]
  exact this

private theorem add_mine {n : Nat} (hl : W.length = n) : Mine T (W ++ [.thread T, .thread T]) (some ⟨n, n + 1⟩) := by
  intro p hp
  cases hp
  subst hl
  constructor <;> simp

/-- Hand a message over. -/
private def give' (W : World) (o : Owner) : Option Ptr → World
  | none => W
  | some p => (W.set p.body o).set p.arr o

private theorem give_len {o : Owner} {r : Option Ptr} : (give' W o r).length = W.length := by
  cases r <;> simp [give']

private theorem give_own {o o' : Owner} {r : Option Ptr} (h : Own o W r) : Own o' (give' W o' r) r := by
  intro p hp
  subst hp
  obtain ⟨h1, h2⟩ := h p rfl
  replace h1 := (List.getElem?_eq_some_iff.1 h1).1
  replace h2 := (List.getElem?_eq_some_iff.1 h2).1
  simp only [give', List.getElem?_set, List.length_set]
  constructor
  · split
    · rfl
    · simp
  · simp [h2]

private theorem give_other {o o' : Owner} {r : Option Ptr} {x : Nat} {e : Owner} (h : Own o W r) (hx : W[x]? = some e) (hne : e ≠ o) : (give' W o' r)[x]? = some e := by
  cases r with
  | none => exact hx
  | some p =>
    obtain ⟨h1, h2⟩ := h p rfl
    have hb : p.body ≠ x := by intro hc; rw [hc, hx] at h1; cases h1; exact hne rfl
    have ha : p.arr ≠ x := by intro hc; rw [hc, hx] at h2; cases h2; exact hne rfl
    simp only [give', List.getElem?_set_ne ha, List.getElem?_set_ne hb]
    exact hx

private theorem give_apart {o o' : Owner} {r r' : Option Ptr} (ha : Apart r r') (h : Own o W r') : Own o (give' W o' r) r' := by
  cases r with
  | none => exact h
  | some p =>
    intro p' hp'
    obtain ⟨h1, h2, h3, h4⟩ := ha p p' rfl hp'
    simp only [give', List.getElem?_set_ne h1, List.getElem?_set_ne h2, List.getElem?_set_ne h3, List.getElem?_set_ne h4]
    exact h p' hp'

private theorem own_apart {o o' : Owner} {r r' : Option Ptr} (hne : o ≠ o') (h : Own o W r) (h' : Own o' W r') : Apart r r' := by
  intro p p' hp hp'
  obtain ⟨h1, h2⟩ := h p hp
  obtain ⟨h3, h4⟩ := h' p' hp'
  refine ⟨?_, ?_, ?_, ?_⟩ <;> intro hc
  · rw [hc, h3] at h1; cases h1; exact hne rfl
  · rw [hc, h4] at h1; cases h1; exact hne rfl
  · rw [hc, h3] at h2; cases h2; exact hne rfl
  · rw [hc, h4] at h2; cases h2; exact hne rfl

private theorem mine_last {n : Nat} (h : W.length = n) : (W ++ [.thread T])[n]? = some (.thread T) := by
  subst h; simp

private def Done (th : Thread H) : Prop := ∃ r, th = ⟨.ret r, []⟩

/-- A step of one goroutine leaves the others and what they own as they are. -/
private structure Next (s s' : St H) (W W' : World) (i : Nat) : Prop where
  inv : Inv s' W'
  acts : ∃ th, s.threads[i]? = some th ∧ ¬ Done th
  rest : ∀ j, j ≠ i → ∀ th : Thread H, s.threads[j]? = some th → s'.threads[j]? = some th
  owned : ∀ j, j ≠ i → Ext j W W'
  heap : ∀ j, j ≠ i → ∀ x : Nat, W[x]? = some (.thread j) → s'.heap[x]? = s.heap[x]?

private theorem not_done {p : Prog H} {st : List (Option Ptr → Prog H)} (h : ∀ r, p ≠ .ret r) : ¬ Done (⟨p, st⟩ : Thread H) := by
  rintro ⟨r, hr⟩
  injection hr with h1
  exact h r h1

private theorem rest_set {s : St H} {i : Nat} {th' : Thread H} : ∀ j, j ≠ i → ∀ th : Thread H, s.threads[j]? = some th → (s.threads.set i th')[j]? = some th := by
  intro j hj th h
  rw [List.getElem?_set_ne (fun h => hj h.symm)]
  exact h

private theorem rest_add {s : St H} {i : Nat} {th' : Thread H} {l : List (Thread H)} : ∀ j, j ≠ i → ∀ th : Thread H, s.threads[j]? = some th → (s.threads.set i th' ++ l)[j]? = some th := by
  intro j hj th h
  have := rest_set (s := s) (th' := th') j hj th h
  rw [List.getElem?_append_left (List.getElem?_eq_some_iff.1 this).1]
  exact this

private theorem heap_add {s : St H} {l : List Msg} (hl : W.length = s.heap.length) {o : Owner} : ∀ x : Nat, W[x]? = some o → (s.heap ++ l)[x]? = s.heap[x]? := by
  intro x hx
  rw [List.getElem?_append_left (by rw [← hl]; exact (List.getElem?_eq_some_iff.1 hx).1)]

private theorem heap_set {s : St H} {y i : Nat} {u : Msg} (hy : W[y]? = some (.thread i)) : ∀ j, j ≠ i → ∀ x : Nat, W[x]? = some (.thread j) → (s.heap.set y u)[x]? = s.heap[x]? := by
  intro j hj x hx
  rw [List.getElem?_set_ne]
  intro hc
  rw [hc, hx] at hy
  cases hy
  exact hj rfl

private theorem chans_add {s : St H} {l : List Owner} (h : ∀ (c : Nat) (l : List (Option Ptr)), s.chans[c]? = some l → (∀ r ∈ l, Own (.chan c) W r) ∧ l.Pairwise Apart) :
    ∀ (c : Nat) (l' : List (Option Ptr)), s.chans[c]? = some l' → (∀ r ∈ l', Own (.chan c) (W ++ l) r) ∧ l'.Pairwise Apart :=
  fun c l' hc => ⟨fun r hr => own_add ((h c l' hc).1 r hr), (h c l' hc).2⟩

private theorem step_next {s s' : St H} (hi : Inv s W) (hs : Step s s') : ∃ W' i, Next s s' W W' i := by
  cases hs with
  | @ret i r k st h =>
    obtain ⟨h1, h2, h3⟩ := hi.threads _ _ h
    refine ⟨W, i, ⟨hi.len, hi.chans, others_step hi.threads (fun _ _ => ext_refl) ⟨h2 _ _ ext_refl h1, h3⟩⟩, ⟨_, h, ?_⟩, rest_set, fun _ _ => ext_refl, fun _ _ _ _ => rfl⟩
    rintro ⟨r', hr⟩
    injection hr with h4 h5
    cases h5
  | @call i t m ci k st h =>
    obtain ⟨⟨h0, h1⟩, h2⟩ := hi.threads _ _ h
    exact ⟨W, i, ⟨hi.len, hi.chans, others_step hi.threads (fun _ _ => ext_refl) ⟨safe_code t ci h0, h1, h2⟩⟩, ⟨_, h, not_done fun _ h => by cases h⟩, rest_set, fun _ _ => ext_refl, fun _ _ _ _ => rfl⟩
  | @askFail i n m ci k st h =>
    obtain ⟨h1, h2⟩ := hi.threads _ _ h
    exact ⟨W, i, ⟨hi.len, hi.chans, others_step hi.threads (fun _ _ => ext_refl) ⟨h1 _ _ ext_refl mine_none, h2⟩⟩, ⟨_, h, not_done fun _ h => by cases h⟩, rest_set, fun _ _ => ext_refl, fun _ _ _ _ => rfl⟩
  | @ask i n m ci k st u h =>
    obtain ⟨h1, h2⟩ := hi.threads _ _ h
    exact ⟨W ++ [.thread i, .thread i], i, ⟨by simp [St.go, hi.len], chans_add hi.chans, others_step hi.threads (fun _ _ => ext_add) ⟨h1 _ _ ext_add (add_mine hi.len), frames_mono ext_add h2⟩⟩,
      ⟨_, h, not_done fun _ h => by cases h⟩, rest_set, fun _ _ => ext_add, fun _ _ => heap_add hi.len⟩
  | @read i m k st h =>
    obtain ⟨h1, h2⟩ := hi.threads _ _ h
    exact ⟨W, i, ⟨hi.len, hi.chans, others_step hi.threads (fun _ _ => ext_refl) ⟨h1 _, h2⟩⟩, ⟨_, h, not_done fun _ h => by cases h⟩, rest_set, fun _ _ => ext_refl, fun _ _ _ _ => rfl⟩
  | @copy i m f k st h =>
    obtain ⟨h1, h2⟩ := hi.threads _ _ h
    exact ⟨W ++ [.thread i, .thread i], i, ⟨by simp [St.go, hi.len], chans_add hi.chans, others_step hi.threads (fun _ _ => ext_add) ⟨h1 _ _ ext_add (add_mine hi.len), frames_mono ext_add h2⟩⟩,
      ⟨_, h, not_done fun _ h => by cases h⟩, rest_set, fun _ _ => ext_add, fun _ _ => heap_add hi.len⟩
  | @new i v k st h =>
    obtain ⟨h1, h2⟩ := hi.threads _ _ h
    exact ⟨W ++ [.thread i, .thread i], i, ⟨by simp [St.go, hi.len], chans_add hi.chans, others_step hi.threads (fun _ _ => ext_add) ⟨h1 _ _ ext_add (add_mine hi.len), frames_mono ext_add h2⟩⟩,
      ⟨_, h, not_done fun _ h => by cases h⟩, rest_set, fun _ _ => ext_add, fun _ _ => heap_add hi.len⟩
  | @answer i m v k st h =>
    obtain ⟨h1, h2⟩ := hi.threads _ _ h
    exact ⟨W ++ [.thread i], i, ⟨by simp [St.go, hi.len], chans_add hi.chans, others_step hi.threads (fun _ _ => ext_add) ⟨h1 _ _ ext_add (mine_last hi.len), frames_mono ext_add h2⟩⟩,
      ⟨_, h, not_done fun _ h => by cases h⟩, rest_set, fun _ _ => ext_add, fun _ _ => heap_add hi.len⟩
  | @upd i a f k st h =>
    obtain ⟨h1, h2⟩ := hi.threads _ _ h
    exact ⟨W, i, ⟨by simp only [St.go, List.length_set]; exact hi.len, hi.chans, others_step hi.threads (fun _ _ => ext_refl) ⟨h1.2, h2⟩⟩, ⟨_, h, not_done fun _ h => by cases h⟩, rest_set,
      fun _ _ => ext_refl, heap_set h1.1⟩
  | @setName i a n k st h =>
    obtain ⟨h1, h2⟩ := hi.threads _ _ h
    exact ⟨W, i, ⟨by simp only [St.go, List.length_set]; exact hi.len, hi.chans, others_step hi.threads (fun _ _ => ext_refl) ⟨h1.2, h2⟩⟩, ⟨_, h, not_done fun _ h => by cases h⟩, rest_set,
      fun _ _ => ext_refl, heap_set h1.1⟩
  | @pick i α k st x h =>
    obtain ⟨h1, h2⟩ := hi.threads _ _ h
    exact ⟨W, i, ⟨hi.len, hi.chans, others_step hi.threads (fun _ _ => ext_refl) ⟨h1 x, h2⟩⟩, ⟨_, h, not_done fun _ h => by cases h⟩, rest_set, fun _ _ => ext_refl, fun _ _ _ _ => rfl⟩
  | @goShare i m p k st h =>
    obtain ⟨h1, h2⟩ := hi.threads _ _ h
    exact ⟨W, i, ⟨hi.len, hi.chans, added_thread (others_step hi.threads (fun _ _ => ext_refl) ⟨h1.2, h2⟩) ⟨h1.1 _ _, trivial⟩⟩, ⟨_, h, not_done fun _ h => by cases h⟩, rest_add,
      fun _ _ => ext_refl, fun _ _ _ _ => rfl⟩
  | @goCopy i m f p k st h =>
    obtain ⟨h1, h2⟩ := hi.threads _ _ h
    refine ⟨W ++ [.thread s.threads.length, .thread s.threads.length], i, ⟨by simp [hi.len], chans_add hi.chans,
      added_thread (others_step hi.threads (fun _ _ => ext_add) ⟨safe_mono _ ext_add h1.2, frames_mono ext_add h2⟩) ⟨h1.1 _ _ _ ?_, trivial⟩⟩,
      ⟨_, h, not_done fun _ h => by cases h⟩, rest_add, fun _ _ => ext_add, fun _ _ => heap_add hi.len⟩
    rw [List.length_set]
    exact add_mine hi.len
  | @chan i k st h =>
    obtain ⟨h1, h2⟩ := hi.threads _ _ h
    refine ⟨W, i, ⟨hi.len, ?_, others_step hi.threads (fun _ _ => ext_refl) ⟨h1 _, h2⟩⟩, ⟨_, h, not_done fun _ h => by cases h⟩, rest_set, fun _ _ => ext_refl, fun _ _ _ _ => rfl⟩
    intro c l hc
    replace hc : (s.chans ++ [[]])[c]? = some l := hc
    rw [List.getElem?_append] at hc
    split at hc
    · exact hi.chans c l hc
    · cases hd : c - s.chans.length with
      | zero => rw [hd] at hc; cases hc; exact ⟨(fun r hr => by cases hr), .nil⟩
      | succ d => rw [hd] at hc; cases hc
  | @send i c r k st l h hc =>
    obtain ⟨⟨htop, hr, h1⟩, h2⟩ := hi.threads _ _ h
    have hst : st = [] := List.isEmpty_iff.1 htop
    subst hst
    have hother : ∀ j, j ≠ i → Ext j W (give' W (.chan c) r) := fun j hj => ⟨by rw [give_len]; exact Nat.le_refl _, fun x hx => give_other hr hx fun h => by cases h; exact hj rfl⟩
    refine ⟨give' W (.chan c) r, i, ⟨by rw [give_len]; exact hi.len, ?_, others_step hi.threads hother ⟨h1 _, trivial⟩⟩, ⟨_, h, not_done fun _ h => by cases h⟩, rest_set, hother, fun _ _ _ _ => rfl⟩
    have hold : ∀ (c' : Nat) (l' : List (Option Ptr)), s.chans[c']? = some l' → ∀ r' ∈ l', Own (.chan c') (give' W (.chan c) r) r' := by
      intro c' l' hc' r' hr' p hp
      have := (hi.chans c' l' hc').1 r' hr' p hp
      exact ⟨give_other hr this.1 (fun h => by cases h), give_other hr this.2 (fun h => by cases h)⟩
    intro c' l' hc'
    simp only [St.go] at hc'
    rw [List.getElem?_set] at hc'
    split at hc'
    · next hcc =>
      split at hc'
      · cases hc'
        subst hcc
        refine ⟨fun r' hr' => ?_, List.pairwise_append.2 ⟨(hi.chans _ _ hc).2, List.pairwise_singleton .., fun a ha b hb => ?_⟩⟩
        · rcases List.mem_append.1 hr' with hr' | hr'
          · exact hold _ _ hc r' hr'
          · cases List.mem_singleton.1 hr'; exact give_own hr
        · cases List.mem_singleton.1 hb
          exact own_apart (fun h => by cases h) ((hi.chans _ _ hc).1 a ha) hr
      · cases hc'
    · exact ⟨hold c' l' hc', (hi.chans c' l' hc').2⟩
  | @recv i c k st r l h hc =>
    obtain ⟨h1, h2⟩ := hi.threads _ _ h
    obtain ⟨hown, hpw⟩ := hi.chans _ _ hc
    obtain ⟨hpw1, hpw2⟩ := List.pairwise_cons.1 hpw
    have hr := hown r (List.mem_cons_self ..)
    have hall : ∀ j, Ext j W (give' W (.thread i) r) := fun j => ⟨by rw [give_len]; exact Nat.le_refl _, fun x hx => give_other hr hx fun h => by cases h⟩
    refine ⟨give' W (.thread i) r, i, ⟨by rw [give_len]; exact hi.len, ?_, others_step hi.threads (fun j _ => hall j) ⟨h1 _ _ (hall i) (give_own hr), frames_mono (hall i) h2⟩⟩,
      ⟨_, h, not_done fun _ h => by cases h⟩, rest_set, fun j _ => hall j, fun _ _ _ _ => rfl⟩
    intro c' l' hc'
    simp only [St.go] at hc'
    rw [List.getElem?_set] at hc'
    split at hc'
    · next hcc =>
      split at hc'
      · cases hc'
        subst hcc
        exact ⟨fun r' hr' => give_apart (hpw1 r' hr') (hown r' (List.mem_cons_of_mem _ hr')), hpw2⟩
      · cases hc'
    · next hcc =>
      refine ⟨fun r' hr' p hp => ?_, (hi.chans c' l' hc').2⟩
      have := (hi.chans c' l' hc').1 r' hr' p hp
      exact ⟨give_other hr this.1 (fun h => by cases h; exact hcc rfl), give_other hr this.2 (fun h => by cases h; exact hcc rfl)⟩
  | @lead i t old new st h =>
    obtain ⟨h1, h2⟩ := hi.threads _ _ h
    exact ⟨W, i, ⟨hi.len, hi.chans, others_step hi.threads (fun _ _ => ext_refl) ⟨h1.2 _, h2⟩⟩, ⟨_, h, not_done fun _ h => by cases h⟩, rest_set, fun _ _ => ext_refl, fun _ _ _ _ => rfl⟩
  | @join i t old new st f o h _ =>
    obtain ⟨h1, h2⟩ := hi.threads _ _ h
    exact ⟨W, i, ⟨hi.len, hi.chans, others_step hi.threads (fun _ _ => ext_refl) ⟨h1.1, h2⟩⟩, ⟨_, h, not_done fun _ h => by cases h⟩, rest_set, fun _ _ => ext_refl, fun _ _ _ _ => rfl⟩
  | @wait i f k st t r h _ =>
    obtain ⟨h1, h2⟩ := hi.threads _ _ h
    exact ⟨W, i, ⟨hi.len, hi.chans, others_step hi.threads (fun _ _ => ext_refl) ⟨h1 _, h2⟩⟩, ⟨_, h, not_done fun _ h => by cases h⟩, rest_set, fun _ _ => ext_refl, fun _ _ _ _ => rfl⟩
  | @land i f r k st t o h _ =>
    obtain ⟨h1, h2⟩ := hi.threads _ _ h
    exact ⟨W, i, ⟨hi.len, hi.chans, others_step hi.threads (fun _ _ => ext_refl) ⟨h1, h2⟩⟩, ⟨_, h, not_done fun _ h => by cases h⟩, rest_set, fun _ _ => ext_refl, fun _ _ _ _ => rfl⟩

end

private theorem init_owner {roots : List (Root H)} : ∀ (n j : Nat), j < roots.length → ((roots.zipIdx n).flatMap fun r => [Owner.thread r.2, Owner.thread r.2])[2 * j]? = some (.thread (n + j)) ∧
    ((roots.zipIdx n).flatMap fun r => [Owner.thread r.2, Owner.thread r.2])[2 * j + 1]? = some (.thread (n + j)) := by
  induction roots with
  | nil => intro n j h; cases h
  | cons x l ih =>
    intro n j h
    cases j with
    | zero => exact ⟨rfl, rfl⟩
    | succ j =>
      have := ih (n + 1) j (Nat.lt_of_succ_lt_succ h)
      rw [show n + 1 + j = n + (j + 1) by omega] at this
      exact this

private theorem init_len {roots : List (Root H)} : ∀ n : Nat, ((roots.zipIdx n).flatMap fun r => [Owner.thread r.2, Owner.thread r.2]).length = (roots.flatMap fun r => [r.q, r.q]).length := by
  induction roots with
  | nil => exact fun _ => rfl
  | cons x l ih =>
    intro n
    have := ih (n + 1)
    simp only [List.zipIdx_cons, List.flatMap_cons, List.length_append, List.length_cons, List.length_nil, this]

private theorem inv_reach {roots : List (Root H)} {s : St H} (hs : Steps (init roots) s) : ∃ W, Inv s W := by
  have h0 : ∃ W, Inv (init roots) W := by
    refine ⟨(roots.zipIdx 0).flatMap fun r => [.thread r.2, .thread r.2], init_len 0, (fun c l h => by cases h), ?_⟩
    intro j th h
    simp only [init, List.getElem?_mapIdx, Option.map_eq_some_iff] at h
    obtain ⟨r, hr, rfl⟩ := h
    have hj := init_owner (roots := roots) 0 j (List.getElem?_eq_some_iff.1 hr).1
    rw [Nat.zero_add] at hj
    exact ⟨safe_pass fun p hp => by cases hp; exact hj, trivial⟩
  generalize init roots = a at hs h0
  induction hs with
  | refl => exact h0
  | step _ h ih =>
    obtain ⟨W, hi⟩ := ih
    obtain ⟨W', i, hn⟩ := step_next hi h
    exact ⟨W', hn.inv⟩

/-- C93: a reply that was handed to a listener is not changed by anyone any more, whatever goes on in the background or for other clients. -/
theorem reply_kept (roots : List (Root H)) (s s' : St H) (hs : Steps (init roots) s) (j : Nat) (p : Ptr) (hd : s.threads[j]? = some ⟨.ret (some p), []⟩) (hs' : Steps s s') :
    s'.threads[j]? = some ⟨.ret (some p), []⟩ ∧ value s'.heap p = value s.heap p := by
  obtain ⟨W, hi⟩ := inv_reach hs
  have key : ∃ W', Inv s' W' ∧ s'.threads[j]? = some ⟨.ret (some p), []⟩ ∧ value s'.heap p = value s.heap p := by
    clear hs
    induction hs' with
    | refl => exact ⟨W, hi, hd, rfl⟩
    | step _ h ih =>
      obtain ⟨W1, h1, h2, h3⟩ := ih
      obtain ⟨W2, i, hn⟩ := step_next h1 h
      have hji : j ≠ i := by
        rintro rfl
        obtain ⟨th, h4, h5⟩ := hn.acts
        rw [h2] at h4; cases h4
        exact h5 ⟨_, rfl⟩
      refine ⟨W2, hn.inv, hn.rest j hji _ h2, ?_⟩
      obtain ⟨ho1, ho2⟩ := (h1.threads _ _ h2).1 p rfl
      rw [← h3]
      simp only [value, hn.heap j hji _ ho1, hn.heap j hji _ ho2]
  obtain ⟨_, _, h⟩ := key
  exact h

/-- C93: the replies of two queries have no memory in common. -/
theorem replies_apart (roots : List (Root H)) (s : St H) (hs : Steps (init roots) s) (i j : Nat) (hij : i ≠ j) (p p' : Ptr) (hp : s.threads[i]? = some ⟨.ret (some p), []⟩)
    (hp' : s.threads[j]? = some ⟨.ret (some p'), []⟩) : p.body ≠ p'.body ∧ p.body ≠ p'.arr ∧ p.arr ≠ p'.body ∧ p.arr ≠ p'.arr := by
  obtain ⟨W, hi⟩ := inv_reach hs
  exact own_apart (W := W) (o := .thread i) (o' := .thread j) (fun h => by cases h; exact hij rfl) (hi.threads _ _ hp).1 (hi.threads _ _ hp').1 p p' rfl rfl

section Examples

/-- Two clients have got their replies, one of them the question section of its query in it. -/
example : ∃ (s : St Unit) (p p' : Ptr), Steps (init [⟨.client 0, {}, {}⟩, ⟨.dedup (.client 0), {}, {}⟩]) s ∧ s.threads[0]? = some ⟨.ret (some p), []⟩ ∧
    s.threads[1]? = some ⟨.ret (some p'), []⟩ ∧ p'.arr = (rootPtr 1).arr := by
  have h := Steps.refl (s := init [⟨(.client 0 : Tree Unit), {}, {}⟩, ⟨.dedup (.client 0), {}, {}⟩])
  have h := h.step (.call (i := 0) rfl)
  have h := h.step (.ask (i := 0) (v := { response := true }) rfl)
  have h := h.step (.ret (i := 0) rfl)
  have h := h.step (.call (i := 1) rfl)
  have h := h.step (.lead (i := 1) rfl)
  have h := h.step (.call (i := 1) rfl)
  have h := h.step (.ask (i := 1) (v := { response := true }) rfl)
  have h := h.step (.ret (i := 1) rfl)
  have h := h.step (.land (i := 1) (f := 0) rfl rfl)
  have h := h.step (.read (i := 1) rfl)
  have h := h.step (.read (i := 1) rfl)
  have h := h.step (.answer (i := 1) rfl)
  have h := h.step (.ret (i := 1) rfl)
  exact ⟨_, _, _, h, rfl, rfl, rfl⟩

end Examples

end Verif.Props.SharedReplies
