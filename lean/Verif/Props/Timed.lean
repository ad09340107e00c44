import Verif.Lemmas.SharedGhost
import Verif.Props.Effort
import Verif.Model.Timed
import Verif.Spec.Timed
/-
C102: replies come in time.
-/
namespace Verif.Props.Timed
open Verif Verif.Composition Verif.Shared Verif.Timed Verif.Spec.Shared Verif.Spec.Timed Verif.Lemmas.SharedGhost

variable {H : Type}

/-- What a program may rely on: the requests it may wait for, and by when there is something in each channel, and an answer to each request. -/
private structure Ctx where
  F : Nat → Prop
  dl : List Nat
  fd : List Nat

private def Ext (l l' : List Nat) : Prop := ∀ i g : Nat, l[i]? = some g → l'[i]? = some g

private structure Grows (C C' : Ctx) : Prop where
  F : ∀ f, C.F f → C'.F f
  dl : Ext C.dl C'.dl
  fd : Ext C.fd C'.fd

private theorem Grows.trans {C C' C'' : Ctx} (h : Grows C C') (h' : Grows C' C'') : Grows C C'' :=
  ⟨fun f hf => h'.F f (h.F f hf), fun i g hg => h'.dl i g (h.dl i g hg), fun i g hg => h'.fd i g (h.fd i g hg)⟩

private theorem Grows.refl {C : Ctx} : Grows C C := ⟨fun _ h => h, fun _ _ h => h, fun _ _ h => h⟩

private theorem ext_add {l l' : List Nat} : Ext l (l ++ l') := fun _ _ h => add_get h

/-- What is owed is not overdue at `x`. -/
private def Due (dl fd : List Nat) : Duty → Nat → Prop
  | .nothing, _ => True
  | .chan c, x => ∃ g, dl[c]? = some g ∧ x ≤ g
  | .flight f, x => ∃ g, fd[f]? = some g ∧ x ≤ g

private theorem due_early {dl fd : List Nat} {d : Duty} {x y : Nat} (h : Due dl fd d x) (hy : y ≤ x) : Due dl fd d y := by
  cases d with
  | nothing => trivial
  | chan c => obtain ⟨g, h1, h2⟩ := h; exact ⟨g, h1, by omega⟩
  | flight c => obtain ⟨g, h1, h2⟩ := h; exact ⟨g, h1, by omega⟩

/-- A program of an element `n` which is reached by time `x` returns by time `e`, and does what it owes in time. -/
private def Live (lim : Nat → Nat) (n : Tree H) : Ctx → Duty → Option (Nat × Nat) → Nat → Nat → Prog H → Prop
  | _, d, _, x, e, .ret _ => d = .nothing ∧ x ≤ e
  | C, d, _, x, e, .stop => x ≤ e ∧ Due C.dl C.fd d x
  | C, d, cr, x, e, .call t _ _ k => Child n t ∧ cr = none ∧ ∃ c, Takes lim t c ∧ ∀ r, Live lim n C d none (x + c) e (k r)
  | C, d, cr, x, e, .ask i _ _ k => ∀ r, Live lim n C d cr (x + lim i) e (k r)
  | C, d, cr, x, e, .read _ k => ∀ v, Live lim n C d cr x e (k v)
  | C, d, cr, x, e, .copy _ _ k => ∀ p, Live lim n C d cr x e (k p)
  | C, d, cr, x, e, .new _ k => ∀ p, Live lim n C d cr x e (k p)
  | C, d, cr, x, e, .answer _ _ k => ∀ p, Live lim n C d cr x e (k p)
  | C, d, cr, x, e, .upd _ _ k => Live lim n C d cr x e k
  | C, d, cr, x, e, .setName _ _ k => Live lim n C d cr x e k
  | C, d, cr, x, e, .pick α k => Nonempty α ∧ ∀ y, Live lim n C d cr x e (k y)
  | C, d, cr, x, e, .goShare m p k => ∃ c j, cr = some (c, j) ∧ (∃ e', Live lim n C (.chan c) none x e' (p m)) ∧ Live lim n C d (some (c, j + 1)) x e k
  | C, d, cr, x, e, .goCopy _ _ p k => (∃ e', ∀ y, Live lim n C .nothing none x e' (p y)) ∧ Live lim n C d cr x e k
  | C, d, cr, x, e, .chan k => d = .nothing ∧ cr = none ∧ ∃ g, ∀ c C', Grows C C' → C'.dl[c]? = some g → Live lim n C' d (some (c, 0)) x e (k c)
  | C, d, cr, x, e, .send c _ k => d = .chan c ∧ (∃ g, C.dl[c]? = some g ∧ x ≤ g) ∧ Live lim n C .nothing cr x e k
  | C, d, cr, x, e, .recv c k => d = .nothing ∧ ∃ j g, cr = some (c, j + 1) ∧ C.dl[c]? = some g ∧ ∀ r, Live lim n C d (some (c, j)) (max x g) e (k r)
  | C, d, cr, x, e, .enter t old new => d = .nothing ∧ t = n ∧ ∃ c, Takes lim n c ∧ (∀ c', Takes lim n c' → c ≤ c') ∧ (∀ r, Live lim n C d cr (x + c) e (old r)) ∧
      ∀ f y C', Grows C C' → y ≤ x → C'.fd[f]? = some (y + c) → Live lim n C' (.flight f) cr y e (new f)
  | C, d, cr, x, e, .wait f k => d = .nothing ∧ C.F f ∧ ∃ g, C.fd[f]? = some g ∧ ∀ r, Live lim n C d cr (max x g) e (k r)
  | C, d, cr, x, e, .land f _ k => d = .flight f ∧ (∃ g, C.fd[f]? = some g ∧ x ≤ g) ∧ Live lim n C .nothing cr x e k

section
variable {lim : Nat → Nat} {n : Tree H} {q : Ptr} {C : Ctx} {d : Duty} {x y e : Nat}

private theorem live_grow (p : Prog H) : ∀ {C C' : Ctx} {d : Duty} {cr : Option (Nat × Nat)} {x e : Nat}, Grows C C' → Live lim n C d cr x e p → Live lim n C' d cr x e p := by
  have hdue : ∀ {C C' : Ctx} {d : Duty} {x : Nat}, Grows C C' → Due C.dl C.fd d x → Due C'.dl C'.fd d x := by
    intro C C' d x hG h
    cases d with
    | nothing => trivial
    | chan c => exact ⟨h.choose, hG.dl _ _ h.choose_spec.1, h.choose_spec.2⟩
    | flight c => exact ⟨h.choose, hG.fd _ _ h.choose_spec.1, h.choose_spec.2⟩
  induction p with
  | ret r => exact fun _ hs => hs
  | stop => exact fun hG hs => ⟨hs.1, hdue hG hs.2⟩
  | call t m ci k ih =>
    rintro C C' d cr x e hG ⟨h1, h2, c, h3, h4⟩
    exact ⟨h1, h2, c, h3, fun r => ih r hG (h4 r)⟩
  | ask i m ci k ih => exact fun hG hs r => ih r hG (hs r)
  | read m k ih => exact fun hG hs r => ih r hG (hs r)
  | copy m f k ih => exact fun hG hs r => ih r hG (hs r)
  | new v k ih => exact fun hG hs r => ih r hG (hs r)
  | answer m v k ih => exact fun hG hs r => ih r hG (hs r)
  | upd a f k ih => exact fun hG hs => ih hG hs
  | setName a x k ih => exact fun hG hs => ih hG hs
  | pick α k ih => exact fun hG hs => ⟨hs.1, fun r => ih r hG (hs.2 r)⟩
  | goShare m p k ihp ih =>
    rintro C C' d cr x e hG ⟨c, j, h1, ⟨e', h2⟩, h3⟩
    exact ⟨c, j, h1, ⟨e', ihp _ hG h2⟩, ih hG h3⟩
  | goCopy m f p k ihp ih =>
    rintro C C' d cr x e hG ⟨⟨e', h2⟩, h3⟩
    exact ⟨⟨e', fun y => ihp y hG (h2 y)⟩, ih hG h3⟩
  | chan k ih =>
    rintro C C' d cr x e hG ⟨h1, h2, g, h3⟩
    exact ⟨h1, h2, g, fun c C'' hG' hc => h3 c C'' (hG.trans hG') hc⟩
  | send c r k ih =>
    rintro C C' d cr x e hG ⟨h1, ⟨g, h2, h3⟩, h4⟩
    exact ⟨h1, ⟨g, hG.dl _ _ h2, h3⟩, ih hG h4⟩
  | recv c k ih =>
    rintro C C' d cr x e hG ⟨h1, j, g, h2, h3, h4⟩
    exact ⟨h1, j, g, h2, hG.dl _ _ h3, fun r => ih r hG (h4 r)⟩
  | enter t old new ih1 ih2 =>
    rintro C C' d cr x e hG ⟨h1, h2, c, h3, h4, h5, h6⟩
    exact ⟨h1, h2, c, h3, h4, fun r => ih1 r hG (h5 r), fun f y C'' hG' => h6 f y C'' (hG.trans hG')⟩
  | wait f k ih =>
    rintro C C' d cr x e hG ⟨h1, h2, g, h3, h4⟩
    exact ⟨h1, hG.F _ h2, g, hG.fd _ _ h3, fun r => ih r hG (h4 r)⟩
  | land c r k ih =>
    rintro C C' d cr x e hG ⟨h1, ⟨g, h2, h3⟩, h4⟩
    exact ⟨h1, ⟨g, hG.fd _ _ h2, h3⟩, ih hG h4⟩

private theorem live_early (p : Prog H) : ∀ {C : Ctx} {d : Duty} {cr : Option (Nat × Nat)} {x y e : Nat}, y ≤ x → Live lim n C d cr x e p → Live lim n C d cr y e p := by
  induction p with
  | ret r => exact fun hy hs => ⟨hs.1, Nat.le_trans hy hs.2⟩
  | stop => exact fun hy hs => ⟨Nat.le_trans hy hs.1, due_early hs.2 hy⟩
  | call t m ci k ih =>
    rintro C d cr x y e hy ⟨h1, h2, c, h3, h4⟩
    exact ⟨h1, h2, c, h3, fun r => ih r (Nat.add_le_add_right hy c) (h4 r)⟩
  | ask i m ci k ih => exact fun hy hs r => ih r (Nat.add_le_add_right hy _) (hs r)
  | read m k ih => exact fun hy hs r => ih r hy (hs r)
  | copy m f k ih => exact fun hy hs r => ih r hy (hs r)
  | new v k ih => exact fun hy hs r => ih r hy (hs r)
  | answer m v k ih => exact fun hy hs r => ih r hy (hs r)
  | upd a f k ih => exact fun hy hs => ih hy hs
  | setName a x k ih => exact fun hy hs => ih hy hs
  | pick α k ih => exact fun hy hs => ⟨hs.1, fun r => ih r hy (hs.2 r)⟩
  | goShare m p k ihp ih =>
    rintro C d cr x y e hy ⟨c, j, h1, ⟨e', h2⟩, h3⟩
    exact ⟨c, j, h1, ⟨e', ihp _ hy h2⟩, ih hy h3⟩
  | goCopy m f p k ihp ih =>
    rintro C d cr x y e hy ⟨⟨e', h2⟩, h3⟩
    exact ⟨⟨e', fun z => ihp z hy (h2 z)⟩, ih hy h3⟩
  | chan k ih =>
    rintro C d cr x y e hy ⟨h1, h2, g, h3⟩
    exact ⟨h1, h2, g, fun c C' hG hc => ih c hy (h3 c C' hG hc)⟩
  | send c r k ih =>
    rintro C d cr x y e hy ⟨h1, ⟨g, h2, h3⟩, h4⟩
    exact ⟨h1, ⟨g, h2, Nat.le_trans hy h3⟩, ih hy h4⟩
  | recv c k ih =>
    rintro C d cr x y e hy ⟨h1, j, g, h2, h3, h4⟩
    exact ⟨h1, j, g, h2, h3, fun r => ih r (by omega) (h4 r)⟩
  | enter t old new ih1 ih2 =>
    rintro C d cr x y e hy ⟨h1, h2, c, h3, h4, h5, h6⟩
    exact ⟨h1, h2, c, h3, h4, fun r => ih1 r (by omega) (h5 r), fun f z C' hG hz => h6 f z C' hG (by omega)⟩
  | wait f k ih =>
    rintro C d cr x y e hy ⟨h1, h2, g, h3, h4⟩
    exact ⟨h1, h2, g, h3, fun r => ih r (by omega) (h4 r)⟩
  | land c r k ih =>
    rintro C d cr x y e hy ⟨h1, ⟨g, h2, h3⟩, h4⟩
    exact ⟨h1, ⟨g, h2, Nat.le_trans hy h3⟩, ih hy h4⟩

private theorem live_le (p : Prog H) : ∀ {C : Ctx} {d : Duty} {cr : Option (Nat × Nat)} {x e : Nat}, Live lim n C d cr x e p → x ≤ e ∧ Due C.dl C.fd d x := by
  have before : ∀ {C : Ctx} {d : Duty} {x y e : Nat}, x ≤ y → (y ≤ e ∧ Due C.dl C.fd d y) → (x ≤ e ∧ Due C.dl C.fd d x) :=
    fun h h' => ⟨Nat.le_trans h h'.1, due_early h'.2 h⟩
  induction p with
  | ret r => rintro C d cr x e ⟨rfl, h⟩; exact ⟨h, trivial⟩
  | stop => exact fun h => h
  | call t m ci k ih =>
    rintro C d cr x e ⟨_, _, c, _, h⟩
    exact before (Nat.le_add_right _ _) (ih none (h none))
  | ask i m ci k ih => exact fun h => before (Nat.le_add_right _ _) (ih none (h none))
  | read m k ih => exact fun h => ih {} (h {})
  | copy m f k ih => exact fun h => ih ⟨0, 0⟩ (h _)
  | new v k ih => exact fun h => ih ⟨0, 0⟩ (h _)
  | answer m v k ih => exact fun h => ih ⟨0, 0⟩ (h _)
  | upd a f k ih => exact fun h => ih h
  | setName a x k ih => exact fun h => ih h
  | pick α k ih => rintro C d cr x e ⟨⟨y⟩, h⟩; exact ih y (h y)
  | goShare m p k _ ih => rintro C d cr x e ⟨_, _, _, _, h⟩; exact ih h
  | goCopy m f p k _ ih => exact fun h => ih h.2
  | chan k ih =>
    rintro C d cr x e ⟨rfl, _, g, h⟩
    have := h C.dl.length { C with dl := C.dl ++ [g] } ⟨fun _ h => h, ext_add, fun _ _ h => h⟩ (by simp)
    exact ⟨(ih _ this).1, trivial⟩
  | send c r k ih => rintro C d cr x e ⟨rfl, h1, h2⟩; exact ⟨(ih h2).1, h1⟩
  | recv c k ih =>
    rintro C d cr x e ⟨_, j, g, _, _, h⟩
    exact before (Nat.le_max_left _ _) (ih none (h none))
  | enter t old new ih1 ih2 =>
    rintro C d cr x e ⟨_, _, c, _, _, h, _⟩
    exact before (Nat.le_add_right _ _) (ih1 none (h none))
  | wait f k ih =>
    rintro C d cr x e ⟨_, _, g, _, h⟩
    exact before (Nat.le_max_left _ _) (ih none (h none))
  | land c r k ih => rintro C d cr x e ⟨rfl, h1, h2⟩; exact ⟨(ih h2).1, h1⟩

private theorem live_onSome {k : Ptr → Prog H} (hx : x ≤ e) (hk : ∀ a, Live lim n C .nothing none x e (k a)) (r : Option Ptr) : Live lim n C .nothing none x e (onSome k r) := by
  cases r with
  | none => exact ⟨rfl, hx⟩
  | some a => exact hk a

private theorem live_edit {f : Msg → Msg} {a : Ptr} (hx : x ≤ e) : Live lim n C .nothing none x e (edit f a) := ⟨rfl, hx⟩

private theorem live_give (hx : x ≤ e) (v : Option Msg) : Live lim n C .nothing none x e (give v) := by
  cases v with
  | none => exact ⟨rfl, hx⟩
  | some v => exact fun p => ⟨rfl, hx⟩

private theorem live_keepOrGive {a : Ptr} (hx : x ≤ e) (v : Option Msg) : Live lim n C .nothing none x e (keepOrGive a v) := by
  refine ⟨⟨true⟩, fun y => ?_⟩
  show Live lim n C .nothing none x e (if y = true then _ else _)
  split
  · exact live_edit hx
  · exact live_give hx v

private theorem live_pass {t : Tree H} {ci : ClientInfo} {m : Ptr} {c : Nat} (h : Child n t) (ht : Takes lim t c) (hx : x + c ≤ e) : Live lim n C .nothing none x e (.call t m ci .ret) :=
  ⟨h, rfl, c, ht, fun _ => ⟨rfl, hx⟩⟩

private theorem live_tryMembers {member : Nat → Tree H} {ci : ClientInfo} {c : Nat → Nat} {b : Nat} (hm : ∀ i, Child n (member i)) (hc : ∀ i, Takes lim (member i) (c i)) (hb : ∀ i, c i ≤ b) :
    ∀ m r x, x + m * b ≤ e → Live lim n C .nothing none x e (tryMembers member q ci m r) := by
  intro m
  induction m with
  | zero => exact fun r x hx => ⟨rfl, by omega⟩
  | succ m ih =>
    intro r x hx
    rw [Nat.succ_mul] at hx
    refine ⟨⟨0⟩, fun i => ⟨hm i, rfl, c i, hc i, fun r' => ⟨⟨true⟩, fun y => ?_⟩⟩⟩
    have := hb i
    show Live lim n C .nothing none _ e (if y = true then _ else _)
    split
    · exact ⟨rfl, by omega⟩
    · exact ih r' _ (by omega)

private theorem live_tryCopies {member : Nat → Tree H} {ci : ClientInfo} {c : Nat → Nat} {b : Nat} (hm : ∀ i, Child n (member i)) (hc : ∀ i, Takes lim (member i) (c i)) (hb : ∀ i, c i ≤ b) :
    ∀ m r x, x + m * b ≤ e → Live lim n C .nothing none x e (tryCopies member q ci m r) := by
  intro m
  induction m with
  | zero => exact fun r x hx => ⟨rfl, by omega⟩
  | succ m ih =>
    intro r x hx
    rw [Nat.succ_mul] at hx
    refine ⟨⟨0⟩, fun i p => ⟨hm i, rfl, c i, hc i, fun r' => ⟨⟨true⟩, fun y => ?_⟩⟩⟩
    have := hb i
    show Live lim n C .nothing none _ e (if y = true then _ else _)
    split
    · exact ⟨rfl, by omega⟩
    · exact ih r' _ (by omega)

private theorem live_startAll {member : Nat → Tree H} {ci : ClientInfo} {ch b : Nat} {c : Nat → Nat} {k : Prog H} (hm : ∀ i, Child n (member i)) (hg : C.dl[ch]? = some (x + b)) :
    ∀ m j, (∀ i, i < m → Takes lim (member i) (c i)) → (∀ i, i < m → c i ≤ b) →
      Live lim n C .nothing (some (ch, j + m)) x e k → Live lim n C .nothing (some (ch, j)) x e (startAll member q ci ch k m) := by
  intro m
  induction m with
  | zero => exact fun j _ _ h => h
  | succ m ih =>
    intro j hc hb h
    have := hb m (by omega)
    refine ⟨ch, j, rfl, ⟨x + b, fun p => ⟨hm m, rfl, c m, hc m (by omega), fun r => ⟨rfl, ⟨x + b, hg, by omega⟩, rfl, by omega⟩⟩⟩,
      ih (j + 1) (fun i hi => hc i (by omega)) (fun i hi => hb i (by omega)) ?_⟩
    rwa [show j + 1 + m = j + (m + 1) by omega]

private theorem live_collect {ch g : Nat} (hg : C.dl[ch]? = some g) : ∀ m x, 0 < m → max x g ≤ e → Live lim n C .nothing (some (ch, m)) x e (collect ch m : Prog H) := by
  intro m
  induction m with
  | zero => intro x hm; omega
  | succ m ih =>
    refine fun x _ hx => ⟨rfl, m, g, rfl, hg, fun r => ⟨⟨true⟩, fun y => ?_⟩⟩
    show Live lim n C .nothing _ _ e (if y = true then _ else if m = 0 then _ else _)
    split
    · exact ⟨rfl, hx⟩
    · split
      · exact ⟨rfl, hx⟩
      · exact ih _ (by omega) (by omega)

private theorem live_orStop {α : Type} {k : α → Prog H} {v : Option α} (hx : x ≤ e) (h : ∀ y, Live lim n C .nothing none x e (k y)) : Live lim n C .nothing none x e (orStop k v) := by
  cases v with
  | none => exact ⟨hx, trivial⟩
  | some y => exact h y

private theorem live_act {t a b : Tree H} {ci : ClientInfo} {c : Blocklist.Target → Nat} (hx : ∀ y, x + c y ≤ e) (ht : ∀ y, Takes lim (branch t a b y) (c y))
    (h : ∀ y, Child n (branch t a b y)) (z : Blocklist.Act) : Live lim n C .nothing none x e (act t a b q ci z) := by
  cases z with
  | done r => exact live_give (by have := hx .block; omega) _
  | forward target p => exact live_pass (h target) (ht target) (hx target)

private theorem live_actReply {t b : Tree H} {a : Ptr} {ci : ClientInfo} {c : Nat} (h : Child n b) (ht : Takes lim b c) (hx : x + c ≤ e) (z : Blocklist.Act)
    (hz : ∀ y m, z = .forward y m → y = .block) : Live lim n C .nothing none x e (actReply t b q a ci z) := by
  cases z with
  | done r => exact live_keepOrGive (by omega) _
  | forward target p => cases hz _ _ rfl; exact live_pass h ht hx

private theorem live_handOut (hx : x ≤ e) (r : Option Ptr) : Live lim n C .nothing none x e (handOut q r) := by
  cases r with
  | none => exact ⟨rfl, hx⟩
  | some a => exact fun v w p => ⟨rfl, hx⟩

private theorem least {P : Nat → Prop} : ∀ c, P c → ∃ m, P m ∧ m ≤ c ∧ ∀ c', P c' → m ≤ c' := by
  intro c
  induction c using Nat.strongRecOn with
  | ind c ih =>
    intro h
    by_cases hl : ∃ c', c' < c ∧ P c'
    · obtain ⟨c', h1, h2⟩ := hl
      obtain ⟨m, h3, h4, h5⟩ := ih c' h1 h2
      exact ⟨m, h3, by omega, h5⟩
    · exact ⟨c, h, Nat.le_refl _, fun c' hc => Nat.le_of_not_lt fun hlt => hl ⟨c', hlt, hc⟩⟩

private theorem live_code {t : Tree H} {c : Nat} (ci : ClientInfo) (ht : Takes lim t c) (hs : Sound t) (hx : x + c ≤ e) : Live lim t C .nothing none x e (code t q ci) := by
  cases ht with
  | client => exact fun r => ⟨rfl, hx⟩
  | drop => exact ⟨rfl, by omega⟩
  | static => exact fun v => live_orStop (by omega) fun x => live_give (by omega) _
  | template => exact fun v => live_orStop (by omega) fun x => live_give (by omega) _
  | ttl h => exact ⟨rfl, rfl, c, h, live_onSome hx fun a => live_edit hx⟩
  | collapse h => exact ⟨rfl, rfl, c, h, live_onSome hx fun a v w => live_orStop hx fun x => live_keepOrGive hx _⟩
  | minimize h => exact ⟨rfl, rfl, c, h, live_onSome hx fun a => live_edit hx⟩
  | @modify m t _ h =>
    show Live lim _ C .nothing none x e (Shared.modify m t q ci)
    unfold Shared.modify
    split
    · exact live_pass rfl h hx
    · exact fun p => live_pass rfl h hx
  | @replace exps t _ h =>
    refine fun v => live_orStop (by omega) fun qu => ?_
    unfold replaceWith
    split
    · exact live_pass rfl h hx
    · exact fun p => ⟨rfl, rfl, c, h, live_onSome hx fun a => ⟨rfl, hx⟩⟩
  | syslog h => exact live_pass rfl h hx
  | queryLog h => exact live_pass rfl h hx
  | @dedup t _ h =>
    obtain ⟨m, h1, h2, h3⟩ := least (P := fun c => Takes lim (.dedup t) c) c (.dedup h)
    refine ⟨rfl, rfl, m, h1, h3, live_handOut (by omega), fun f y C' _ hy hf => ?_⟩
    cases h1 with
    | dedup h1 => exact ⟨rfl, rfl, m, h1, fun r => ⟨rfl, ⟨_, hf, Nat.le_refl _⟩, live_handOut (by omega) r⟩⟩
  | cache h =>
    intro w
    show Live lim _ C .nothing none x e (if w.question.length > 1 then _ else _)
    split
    · exact live_pass rfl h hx
    · refine ⟨⟨none⟩, fun stored => ⟨⟨none⟩, fun how => ?_⟩⟩
      show Live lim _ C .nothing none x e (cached _ q ci stored how)
      cases stored with
      | none => exact fun p => live_pass rfl h hx
      | some u =>
        cases how with
        | none => exact live_give (by omega) (some u)
        | some refresh =>
          intro p
          show Live lim _ C .nothing none x e (if refresh = true then _ else _)
          split
          · exact ⟨⟨e, fun y => ⟨rfl, rfl, c, h, fun _ => ⟨rfl, hx⟩⟩⟩, rfl, by omega⟩
          · exact ⟨rfl, by omega⟩
  | prefetch h =>
    refine ⟨rfl, rfl, c, h, fun r => ⟨⟨none⟩, fun z => ?_⟩⟩
    cases z with
    | none => exact ⟨rfl, hx⟩
    | some u => exact ⟨⟨x + c + c, fun y => ⟨rfl, rfl, c, h, fun _ => ⟨rfl, Nat.le_refl _⟩⟩⟩, rfl, hx⟩
  | @blocklist L t a b c1 c2 c3 h1 h2 h3 =>
    obtain ⟨o, ho⟩ := hs
    refine ⟨⟨⟨o, ho⟩⟩, fun o v => live_orStop (by omega) fun z =>
      live_act (c := fun | .upstream => c1 | .allow => c2 | .block => c3) (fun y => ?_) (fun y => ?_) (fun x => by cases x <;> simp [branch, Child]) z⟩
    · cases y <;> dsimp only <;> omega
    · cases y <;> assumption
  | @clientBlocklist L t b c1 c2 h1 h2 =>
    obtain ⟨o1, o2, o3, ho⟩ := hs
    refine ⟨⟨⟨(o1, o2, o3), ho⟩⟩, fun o v => live_act (c := fun | .upstream => c1 | .allow => c1 | .block => c2) (fun y => ?_) (fun y => ?_) (fun x => by cases x <;> simp [branch, Child]) _⟩
    · cases y <;> dsimp only <;> omega
    · cases y <;> assumption
  | @rateLimit hasLimit t l c1 c2 h1 h2 =>
    refine ⟨⟨true⟩, fun z => ?_⟩
    show Live lim _ C .nothing none x e (limited t l q ci (Rate.dest hasLimit z))
    cases Rate.dest hasLimit z
    · exact live_pass (.inl rfl) h1 (by omega)
    · exact live_pass (.inr rfl) h2 (by omega)
    · exact ⟨rfl, by omega⟩
  | @router routes member b cs h1 h2 =>
    refine ⟨⟨fun _ => ⟨0, 0, 0⟩⟩, fun now v => live_orStop (by omega) fun qu => ?_⟩
    cases hr : Route.routeIndex routes v qu ci now 0 with
    | none => exact ⟨rfl, by omega⟩
    | some i =>
      have := h2 i
      exact live_pass (Exists.intro i rfl) (h1 i) (by omega)
  | @roundRobin n member b cs h1 h2 =>
    refine ⟨⟨0⟩, fun i => ?_⟩
    have := h2 i
    exact live_pass (Exists.intro i rfl) (h1 i) (by omega)
  | @truncateRetry t u c1 c2 h1 h2 =>
    refine ⟨.inl rfl, rfl, c1, h1, live_onSome (by omega) fun a v => ?_⟩
    show Live lim _ C .nothing none _ e (if v.tc = true then _ else _)
    split
    · exact live_pass (.inr rfl) h2 (by omega)
    · exact ⟨rfl, by omega⟩
  | @responseIp L t b c1 c2 h1 h2 =>
    obtain ⟨o, ho⟩ := hs
    exact ⟨.inl rfl, rfl, c1, h1, live_onSome (by omega) fun a => ⟨⟨⟨o, ho⟩⟩, fun o v w => live_actReply (show Child (.responseIp L t b) b from .inr rfl) h2 (by omega) _ fun y m h => Effort.ip_target h⟩⟩
  | @responseName L t b c1 c2 h1 h2 =>
    obtain ⟨o, ho⟩ := hs
    exact ⟨.inl rfl, rfl, c1, h1, live_onSome (by omega) fun a => ⟨⟨⟨o, ho⟩⟩, fun o v w => live_actReply (show Child (.responseName L t b) b from .inr rfl) h2 (by omega) _ fun y m h => Effort.name_target h⟩⟩
  | @dns64 ps t c1 h =>
    refine ⟨rfl, rfl, c1, h, live_onSome (by omega) fun a => ⟨⟨true⟩, fun z => ?_⟩⟩
    show Live lim _ C .nothing none _ e (if z = true then _ else _)
    split
    · refine fun p => ⟨rfl, rfl, c1, h, fun _ => ⟨⟨none⟩, fun y => ?_⟩⟩
      show Live lim _ C .nothing none _ e (if y.isSome = true then _ else _)
      split
      · exact live_give (by omega) _
      · exact ⟨rfl, by omega⟩
    · exact ⟨rfl, by omega⟩
  | @failRotate n ok member b cs h1 h2 => exact live_tryMembers (n := .failRotate n ok member) (fun i => Exists.intro i rfl) h1 h2 n none x hx
  | @failBack n ok member b cs h1 h2 => exact live_tryMembers (n := .failBack n ok member) (fun i => Exists.intro i rfl) h1 h2 n none x hx
  | @failBackEach n ok member b cs h1 h2 => exact live_tryMembers (n := .failBackEach n ok member) (fun i => Exists.intro i rfl) h1 h2 n none x hx
  | @random n ok member b cs h1 h2 => exact live_tryMembers (n := .random n ok member) (fun i => Exists.intro i rfl) h1 h2 n none x hx
  | @loadBalance n ok member b cs h1 h2 => exact live_tryCopies (n := .loadBalance n ok member) (fun i => Exists.intro i rfl) h1 h2 n none x hx
  | @fastest n member b cs h1 h2 =>
    refine ⟨rfl, rfl, x + c, fun ch C' _ hg => live_startAll (n := .fastest n member) (fun i => Exists.intro i rfl) hg n 0 h1 h2 ?_⟩
    rw [Nat.zero_add]
    exact live_collect hg n x hs (by omega)

end

/-! ### What holds at each moment -/

private def Kept (n : Tree H) : Prop := ∀ c, Child n c → Tended c

section
variable {lim : Nat → Nat} {roots : List (Root H)}

/-- The callers of an element: each one goes on when the one it called is done, at its time in the list. -/
private def Frames (lim : Nat → Nat) (fl : List (Tree H × Option (Option Ptr))) (dl fd : List Nat) : Tree H → List (Tree H × Duty) → List Nat → List (Option Ptr → Prog H) → Prop
  | _, [], [_], [] => True
  | n, (n', d) :: fs, e :: e' :: es, k :: st => Child n' n ∧ Kept n' ∧ (∀ r, Live lim n' ⟨Begun fl n', dl, fd⟩ d none e e' (k r)) ∧ Frames lim fl dl fd n' fs (e' :: es) st
  | _, _, _, _ => False

private structure Typed (lim : Nat → Nat) (fl : List (Tree H × Option (Option Ptr))) (dl fd : List Nat) (g : Ghost H) (x : Nat) (th : Thread H) : Prop where
  kept : Kept g.node
  prog : ∃ e es, g.ends = e :: es ∧ Live lim g.node ⟨Begun fl g.node, dl, fd⟩ g.duty g.cr x e th.prog
  frames : Frames lim fl dl fd g.node g.frames g.ends th.stack

/-- Goroutine `i` got where it is by time `x`; so far it is not late. -/
private def Calm (R : Run lim roots) (n i : Nat) (dl fd : List Nat) (x : Nat) : Thread H → Prop
  | ⟨.ask c q ci k, st⟩ => ∃ m, m ≤ n ∧ R.time m ≤ x ∧ ∀ j, m ≤ j → j ≤ n → (R.state j).threads[i]? = some ⟨.ask c q ci k, st⟩
  | ⟨.recv c _, _⟩ => ∀ r l g, (R.state n).chans[c]? = some (r :: l) → dl[c]? = some g → R.time n ≤ max x g
  | ⟨.wait f _, _⟩ => ∀ t r g, (R.state n).flights[f]? = some (t, some r) → fd[f]? = some g → R.time n ≤ max x g
  | ⟨.ret _, []⟩ => True
  | ⟨.stop, _⟩ => True
  | _ => R.time n ≤ x

private structure Inv (R : Run lim roots) (n : Nat) (gs : List (Ghost H)) (cn : List (Tree H)) (dl fd since : List Nat) : Prop where
  book : Book (R.state n) gs cn
  slen : since.length = (R.state n).threads.length
  dlen : dl.length = (R.state n).chans.length
  flen : fd.length = (R.state n).flights.length
  typed : ∀ (i : Nat) (g : Ghost H) (th : Thread H) (x : Nat), gs[i]? = some g → (R.state n).threads[i]? = some th → since[i]? = some x → Typed lim (R.state n).flights dl fd g x th
  calm : ∀ (i : Nat) (th : Thread H) (x : Nat), (R.state n).threads[i]? = some th → since[i]? = some x → Calm R n i dl fd x th
  soon : ∀ (f : Nat) (t : Tree H) (o : Option (Option Ptr)) (g c : Nat), (R.state n).flights[f]? = some (t, o) → fd[f]? = some g → Takes lim t c → g ≤ R.time n + c
  unborn : ∀ i : Nat, i < roots.length → n ≤ R.arrival i → since[i]? = some (R.time (R.arrival i))
  root : ∀ (i : Nat) (r : Root H), roots[i]? = some r → ∃ g E, gs[i]? = some g ∧ g.ends.getLast? = some E ∧ ∀ c, Takes lim r.tree c → E ≤ R.time (R.arrival i) + c

private theorem frames_grow {fl fl' : List (Tree H × Option (Option Ptr))} {dl dl' fd fd' : List Nat} (hf : ∀ n f, Begun fl n f → Begun fl' n f) (hd : Ext dl dl') (he : Ext fd fd') :
    ∀ (fs : List (Tree H × Duty)) (es : List Nat) (st : List (Option Ptr → Prog H)) (n : Tree H), Frames lim fl dl fd n fs es st → Frames lim fl' dl' fd' n fs es st := by
  intro fs
  induction fs with
  | nil =>
    intro es st n h
    match es, st, h with
    | [_], [], _ => trivial
  | cons x fs ih =>
    intro es st n h
    match es, st, h with
    | e :: e' :: es, k :: st, h => exact ⟨h.1, h.2.1, fun r => live_grow _ ⟨hf _, hd, he⟩ (h.2.2.1 r), ih _ st _ h.2.2.2⟩

private theorem typed_grow {fl fl' : List (Tree H × Option (Option Ptr))} {dl dl' fd fd' : List Nat} {g : Ghost H} {x : Nat} {th : Thread H} (hf : ∀ n f, Begun fl n f → Begun fl' n f) (hd : Ext dl dl') (he : Ext fd fd')
    (h : Typed lim fl dl fd g x th) : Typed lim fl' dl' fd' g x th := by
  obtain ⟨h1, ⟨e, es, h2, h3⟩, h4⟩ := h
  exact ⟨h1, ⟨e, es, h2, live_grow _ ⟨hf _, hd, he⟩ h3⟩, frames_grow hf hd he _ _ _ _ h4⟩

variable {R : Run lim roots} {n : Nat} {gs : List (Ghost H)} {cn : List (Tree H)} {dl fd since : List Nat}

private theorem time_mono (R : Run lim roots) {m n : Nat} (h : m ≤ n) : R.time m ≤ R.time n := by
  induction h with
  | refl => exact Nat.le_refl _
  | @step k _ ih =>
    show R.time m ≤ R.time (k + 1)
    rcases R.next k with ⟨_, h⟩ | ⟨_, h⟩ <;> omega

private theorem calm_now {i : Nat} {th : Thread H} (h : (R.state n).threads[i]? = some th) : Calm R n i dl fd (R.time n) th := by
  obtain ⟨p, st⟩ := th
  cases p with
  | ask c q ci k => exact ⟨n, Nat.le_refl _, Nat.le_refl _, fun j h1 h2 => by rw [Nat.le_antisymm h2 h1]; exact h⟩
  | recv c k => exact fun r l g _ _ => Nat.le_max_left _ _
  | wait c k => exact fun r l g _ _ => Nat.le_max_left _ _
  | stop => trivial
  | ret r => cases st with
    | nil => trivial
    | cons k st => exact Nat.le_refl _
  | _ => exact Nat.le_refl _

private theorem calm_keep {dl' fd' : List Nat} {i x : Nat} {th : Thread H} (h : (R.state (n + 1)).threads[i]? = some th) (ht : R.time (n + 1) = R.time n)
    (hc : ∀ (c : Nat) r l (g : Nat), (R.state (n + 1)).chans[c]? = some (r :: l) → dl'[c]? = some g → ((∃ r l, (R.state n).chans[c]? = some (r :: l)) ∧ dl[c]? = some g) ∨ R.time n ≤ g)
    (hf : ∀ (f : Nat) t r (g : Nat), (R.state (n + 1)).flights[f]? = some (t, some r) → fd'[f]? = some g → ((∃ t r, (R.state n).flights[f]? = some (t, some r)) ∧ fd[f]? = some g) ∨ R.time n ≤ g)
    (hk : Calm R n i dl fd x th) : Calm R (n + 1) i dl' fd' x th := by
  obtain ⟨p, st⟩ := th
  cases p with
  | ask c q ci k =>
    obtain ⟨m, h1, h2, h3⟩ := hk
    refine ⟨m, by omega, h2, fun j h4 h5 => ?_⟩
    rcases Nat.lt_or_eq_of_le h5 with h6 | rfl
    · exact h3 j h4 (by omega)
    · exact h
  | recv c k =>
    intro r l g h1 h2
    rw [ht]
    rcases hc c r l g h1 h2 with ⟨⟨r', l', h3⟩, h4⟩ | h3
    · exact hk r' l' g h3 h4
    · omega
  | wait c k =>
    intro r l g h1 h2
    rw [ht]
    rcases hf c r l g h1 h2 with ⟨⟨r', l', h3⟩, h4⟩ | h3
    · exact hk r' l' g h3 h4
    · omega
  | stop => trivial
  | ret r => cases st with
    | nil => trivial
    | cons k st => show R.time (n + 1) ≤ x; rw [ht]; exact hk
  | _ => show R.time (n + 1) ≤ x; rw [ht]; exact hk

private theorem calm_tick {i x : Nat} {th : Thread H} (hs : R.state (n + 1) = R.state n) (h : (R.state n).threads[i]? = some th) (ht : R.time (n + 1) = R.time n ∨ R.time (n + 1) ≤ x ∨ Rests (R.state n) th)
    (hk : Calm R n i dl fd x th) : Calm R (n + 1) i dl fd x th := by
  obtain ⟨p, st⟩ := th
  cases p with
  | ask c q ci k =>
    obtain ⟨m, h1, h2, h3⟩ := hk
    refine ⟨m, by omega, h2, fun j h4 h5 => ?_⟩
    rcases Nat.lt_or_eq_of_le h5 with h6 | rfl
    · exact h3 j h4 (by omega)
    · rw [hs]; exact h
  | recv c k =>
    intro r l g h1 h2
    rw [hs] at h1
    rcases ht with ht | ht | ht
    · rw [ht]; exact hk r l g h1 h2
    · omega
    · have ht : (R.state n).chans[c]? = some [] := ht
      rw [ht] at h1; cases h1
  | wait c k =>
    intro r l g h1 h2
    rw [hs] at h1
    rcases ht with ht | ht | ht
    · rw [ht]; exact hk r l g h1 h2
    · omega
    · obtain ⟨t, ht⟩ := ht
      rw [ht] at h1; cases h1
  | stop => trivial
  | ret r => cases st with
    | nil => trivial
    | cons k st =>
      rcases ht with ht | ht | ht
      · show R.time (n + 1) ≤ x; rw [ht]; exact hk
      · exact ht
      · exact ht.elim
  | _ =>
    rcases ht with ht | ht | ht
    · show R.time (n + 1) ≤ x; rw [ht]; exact hk
    · exact ht
    · exact ht.elim

/-- Time passes. -/
private theorem inv_tick (hi : Inv R n gs cn dl fd since) (hs : R.state (n + 1) = R.state n) (ht : R.time n ≤ R.time (n + 1)) : Inv R (n + 1) gs cn dl fd since := by
  refine ⟨by rw [hs]; exact hi.book, by rw [hs]; exact hi.slen, by rw [hs]; exact hi.dlen, by rw [hs]; exact hi.flen, by rw [hs]; exact hi.typed, ?_, ?_, fun i h1 h2 => hi.unborn i h1 (by omega), hi.root⟩
  · intro i th x h1 h2
    rw [hs] at h1
    refine calm_tick hs h1 ?_ (hi.calm i th x h1 h2)
    rcases Nat.lt_or_eq_of_le ht with hlt | heq
    · by_cases ha : i < roots.length ∧ n < R.arrival i
      · have := hi.unborn i ha.1 (by omega)
        rw [h2] at this; cases this
        exact .inr (.inl (time_mono R (by omega)))
      · exact .inr (.inr (R.prompt n i th hlt h1 fun hl => Nat.le_of_not_lt fun h => ha ⟨hl, h⟩))
    · exact .inl heq.symm
  · intro f t o g c h1 h2 h3
    rw [hs] at h1
    have := hi.soon f t o g c h1 h2 h3
    omega

/-- A step of goroutine `i`, which may start others. -/
private theorem inv_act {i : Nat} {th th' : Thread H} {g g' : Ghost H} {new : List (Thread H)} {gs' : List (Ghost H)} {cn' : List (Tree H)} {dl' fd' : List Nat}
    (hi : Inv R n gs cn dl fd since) (ht : R.time (n + 1) = R.time n) (hth : (R.state n).threads[i]? = some th) (hg : gs[i]? = some g)
    (hs : (R.state (n + 1)).threads = (R.state n).threads.set i th' ++ new) (hmove : th.stack = [] → (∃ t m ci k, th.prog = .call t m ci k) → th'.stack ≠ [])
    (hb : Book (R.state (n + 1)) (gs.set i g' ++ gs') cn')
    (hfl : ∀ m f, Begun (R.state n).flights m f → Begun (R.state (n + 1)).flights m f) (hd : Ext dl dl') (he : Ext fd fd')
    (hdl : dl'.length = (R.state (n + 1)).chans.length) (hfd : fd'.length = (R.state (n + 1)).flights.length)
    (ht' : Typed lim (R.state (n + 1)).flights dl' fd' g' (R.time n) th')
    (hn : ∀ (j : Nat) (x : Ghost H) (y : Thread H), gs'[j]? = some x → new[j]? = some y → Typed lim (R.state (n + 1)).flights dl' fd' x (R.time n) y)
    (hlast : g'.ends.getLast? = g.ends.getLast?)
    (hsoon : ∀ (f : Nat) (t : Tree H) (o : Option (Option Ptr)) (g c : Nat), (R.state (n + 1)).flights[f]? = some (t, o) → fd'[f]? = some g → Takes lim t c → g ≤ R.time n + c)
    (hc : ∀ (c : Nat) r l (g : Nat), (R.state (n + 1)).chans[c]? = some (r :: l) → dl'[c]? = some g → ((∃ r l, (R.state n).chans[c]? = some (r :: l)) ∧ dl[c]? = some g) ∨ R.time n ≤ g)
    (hf : ∀ (f : Nat) t r (g : Nat), (R.state (n + 1)).flights[f]? = some (t, some r) → fd'[f]? = some g → ((∃ t r, (R.state n).flights[f]? = some (t, some r)) ∧ fd[f]? = some g) ∨ R.time n ≤ g) :
    Inv R (n + 1) (gs.set i g' ++ gs') cn' dl' fd' (since.set i (R.time n) ++ new.map fun _ => R.time n) := by
  have hil := (List.getElem?_eq_some_iff.1 hth).1
  have hgl := hi.book.len
  have hsl := hi.slen
  -- where the goroutines of the new state come from
  have from_ : ∀ j y, (R.state (n + 1)).threads[j]? = some y → (j = i ∧ y = th') ∨ (j ≠ i ∧ j < (R.state n).threads.length ∧ (R.state n).threads[j]? = some y) ∨
      ((R.state n).threads.length ≤ j ∧ new[j - (R.state n).threads.length]? = some y) := by
    intro j y hj
    rw [hs, List.getElem?_append] at hj
    simp only [List.length_set] at hj
    split at hj
    · next hlt =>
      rcases get_set hj with ⟨rfl, rfl⟩ | ⟨hne, hj⟩
      · exact .inl ⟨rfl, rfl⟩
      · exact .inr (.inl ⟨hne, hlt, hj⟩)
    · next hge => exact .inr (.inr ⟨by omega, hj⟩)
  refine ⟨hb, by rw [hs]; simp [hsl], hdl, hfd, ?_, ?_, by rw [ht]; exact hsoon, ?_, ?_⟩
  · intro j x y z h1 h2 h3
    rw [List.getElem?_append] at h1 h3
    simp only [List.length_set] at h1 h3
    rcases from_ j y h2 with ⟨rfl, rfl⟩ | ⟨hne, hlt, h4⟩ | ⟨hge, h4⟩
    · rw [if_pos (by omega), List.getElem?_set_self (by omega)] at h1 h3
      cases h1; cases h3
      exact ht'
    · rw [if_pos (by omega), List.getElem?_set_ne (by omega)] at h1 h3
      exact typed_grow hfl hd he (hi.typed j x y z h1 h4 h3)
    · rw [if_neg (by omega)] at h1 h3
      rw [hgl] at h1
      rw [hsl, List.getElem?_map, h4] at h3
      cases h3
      exact hn _ x y h1 h4
  · intro j y z h2 h3
    rw [List.getElem?_append] at h3
    simp only [List.length_set] at h3
    rcases from_ j y h2 with ⟨rfl, rfl⟩ | ⟨hne, hlt, h4⟩ | ⟨hge, h4⟩
    · rw [if_pos (by omega), List.getElem?_set_self (by omega)] at h3
      cases h3
      rw [← ht]
      exact calm_now h2
    · rw [if_pos (by omega), List.getElem?_set_ne (by omega)] at h3
      exact calm_keep h2 ht hc hf (hi.calm j y z h4 h3)
    · rw [if_neg (by omega), hsl, List.getElem?_map, h4] at h3
      cases h3
      rw [← ht]
      exact calm_now h2
  · intro j h1 h2
    have h3 := hi.unborn j h1 (by omega)
    have hne : j ≠ i := by
      rintro rfl
      have h4 := R.before j n h1 (by omega)
      have h5 := R.before j (n + 1) h1 h2
      rw [hth] at h4
      rw [← h4, hs, List.getElem?_append_left (by simpa using hil), List.getElem?_set_self hil] at h5
      simp only [init, List.getElem?_mapIdx] at h4
      cases hr : roots[j]? with
      | none => rw [hr] at h4; cases h4
      | some r =>
        rw [hr] at h4
        cases h5
        cases h4
        exact hmove rfl ⟨_, _, _, _, rfl⟩ rfl
    rw [List.getElem?_append_left (by rw [List.length_set]; exact (List.getElem?_eq_some_iff.1 h3).1), List.getElem?_set_ne (by omega)]
    exact h3
  · intro j r h1
    obtain ⟨x, E, h2, h3, h4⟩ := hi.root j r h1
    by_cases hj : j = i
    · subst hj
      rw [hg] at h2; cases h2
      exact ⟨g', E, add_get (set_get hg), by rw [hlast]; exact h3, h4⟩
    · exact ⟨x, E, add_get (set_other hj h2), h3, h4⟩

private theorem ghost_of (hi : Inv R n gs cn dl fd since) {i : Nat} {th : Thread H} (h : (R.state n).threads[i]? = some th) :
    ∃ g x, gs[i]? = some g ∧ since[i]? = some x ∧ Typed lim (R.state n).flights dl fd g x th ∧ Calm R n i dl fd x th := by
  have hl := (List.getElem?_eq_some_iff.1 h).1
  have h1 : i < gs.length := by rw [hi.book.len]; exact hl
  have h2 : i < since.length := by rw [hi.slen]; exact hl
  exact ⟨gs[i], since[i], List.getElem?_eq_getElem h1, List.getElem?_eq_getElem h2, hi.typed i _ th _ (List.getElem?_eq_getElem h1) h (List.getElem?_eq_getElem h2),
    hi.calm i th _ h (List.getElem?_eq_getElem h2)⟩

/-- A step that neither sends, receives, begins nor ends anything that others wait for -/
private theorem inv_plain {i : Nat} {th th' : Thread H} {g g' : Ghost H} (hi : Inv R n gs cn dl fd since) (ht : R.time (n + 1) = R.time n) (hth : (R.state n).threads[i]? = some th) (hg : gs[i]? = some g)
    (hs : (R.state (n + 1)).threads = (R.state n).threads.set i th') (hmove : th.stack = [] → (∃ t m ci k, th.prog = .call t m ci k) → th'.stack ≠ [])
    (hch : (R.state (n + 1)).chans = (R.state n).chans) (hfl : (R.state (n + 1)).flights = (R.state n).flights)
    (ht' : Typed lim (R.state n).flights dl fd g' (R.time n) th') (hlast : g'.ends.getLast? = g.ends.getLast?)
    (hd : ∀ n d, (∀ c, d = .chan c → (n, d) ∈ g'.duties → (n, d) ∈ g.duties) ∧ (∀ f, d = .flight f → ((n, d) ∈ g'.duties ↔ (n, d) ∈ g.duties)))
    (hc : ∀ c, cnt c g' = cnt c g) (hcr : g'.cr = none ∨ (g'.cr = g.cr ∧ g'.node = g.node)) : ∃ gs' cn' dl' fd' since', Inv R (n + 1) gs' cn' dl' fd' since' := by
  refine ⟨_, _, _, _, _, inv_act (new := []) (gs' := []) (th' := th') (g' := g') hi ht hth hg (by rw [hs, List.append_nil]) hmove
    (by rw [List.append_nil]; exact book_plain hi.book hg (by rw [hs, List.length_set]) hch hfl hd hc hcr) (fun m f => by rw [hfl]; exact id) (fun _ _ h => h) (fun _ _ h => h)
    (by rw [hch]; exact hi.dlen) (by rw [hfl]; exact hi.flen) (by rw [hfl]; exact ht') (fun j x y h => by cases h) hlast (by rw [hfl]; exact hi.soon) ?_ ?_⟩
  · intro c r l x h1 h2
    rw [hch] at h1
    exact .inl ⟨⟨r, l, h1⟩, h2⟩
  · intro c r l x h1 h2
    rw [hfl] at h1
    exact .inl ⟨⟨r, l, h1⟩, h2⟩

/-- A step within `Resolve` of one element -/
private theorem inv_same {i : Nat} {th th' : Thread H} {g : Ghost H} {x e : Nat} {es : List Nat} (hi : Inv R n gs cn dl fd since) (ht : R.time (n + 1) = R.time n) (hth : (R.state n).threads[i]? = some th) (hg : gs[i]? = some g)
    (hs : (R.state (n + 1)).threads = (R.state n).threads.set i th') (hmove : th.stack = [] → (∃ t m ci k, th.prog = .call t m ci k) → th'.stack ≠ [])
    (hch : (R.state (n + 1)).chans = (R.state n).chans) (hfl : (R.state (n + 1)).flights = (R.state n).flights) (hty : Typed lim (R.state n).flights dl fd g x th)
    (hst : th'.stack = th.stack) (he : g.ends = e :: es) (hp : Live lim g.node ⟨Begun (R.state n).flights g.node, dl, fd⟩ g.duty g.cr (R.time n) e th'.prog) :
    ∃ gs' cn' dl' fd' since', Inv R (n + 1) gs' cn' dl' fd' since' :=
  inv_plain (g' := g) hi ht hth hg hs hmove hch hfl ⟨hty.kept, ⟨e, es, he, hp⟩, by rw [hst]; exact hty.frames⟩ rfl (fun _ _ => ⟨fun _ _ h => h, fun _ _ => .rfl⟩) (fun _ => rfl) (.inr ⟨rfl, rfl⟩)

private theorem no_call {p : Prog H} {st st' : List (Option Ptr → Prog H)} {p' : Prog H} (h : ∀ t m ci k, p ≠ .call t m ci k) :
    (⟨p, st⟩ : Thread H).stack = [] → (∃ t m ci k, (⟨p, st⟩ : Thread H).prog = .call t m ci k) → (⟨p', st'⟩ : Thread H).stack ≠ [] :=
  fun _ ⟨t, m, ci, k, hp⟩ => absurd hp (h t m ci k)

private theorem set_same {α : Type _} {l : List α} {i : Nat} {x : α} (h : l[i]? = some x) : l.set i x = l := by
  apply List.ext_getElem?
  intro j
  rw [List.getElem?_set]
  split
  · next hij => subst hij; rw [h, if_pos (List.getElem?_eq_some_iff.1 h).1]
  · rfl

private theorem book_nil {s : St H} (h : Book s gs cn) : Book s (gs ++ []) cn := by rw [List.append_nil]; exact h

private theorem last_tail {e e' : Nat} {es : List Nat} : (e :: e' :: es).getLast? = (e' :: es).getLast? := by simp [List.getLast?_cons]

private theorem inv_step (hi : Inv R n gs cn dl fd since) (ht : R.time (n + 1) = R.time n) (hs : Step (R.state n) (R.state (n + 1))) : ∃ gs' cn' dl' fd' since', Inv R (n + 1) gs' cn' dl' fd' since' := by
  generalize hs' : R.state (n + 1) = s' at hs
  cases hs with
  | @ret i r k st h =>
    obtain ⟨⟨n', d, cr, fs, es⟩, x, hg, hx, hty, hk⟩ := ghost_of hi h
    have hk : R.time n ≤ x := hk
    obtain ⟨e, es, rfl, hd, hxe⟩ := hty.prog
    have hf := hty.frames
    have hd : d = .nothing := hd
    subst hd
    clear hty
    match fs, es, hf with
    | [], [], hf => exact hf.elim
    | [], _ :: _, hf => exact hf.elim
    | _ :: _, [], hf => exact hf.elim
    | (m, d') :: fs, e' :: es, ⟨_, h2, h3, h4⟩ =>
      refine inv_plain (g' := ⟨m, d', none, fs, e' :: es⟩) (th' := ⟨k r, st⟩) hi ht h hg (by rw [hs']; rfl) (no_call (by intros; simp)) (by rw [hs']; rfl) (by rw [hs']; rfl)
        ⟨h2, ⟨e', es, rfl, live_early _ (by omega) (h3 r)⟩, h4⟩ last_tail.symm (fun m e => ⟨fun c _ hm => ?_, fun f hf => ?_⟩) (fun c => ?_) (.inl rfl)
      · exact List.mem_cons_of_mem _ hm
      · subst hf
        refine ⟨fun hm => List.mem_cons_of_mem _ hm, fun hm => ?_⟩
        rcases List.mem_cons.1 hm with hm | hm
        · cases hm
        · exact hm
      · simp only [cnt, Ghost.duties, List.countP_cons, isChan]; simp
  | @call i t m ci k st h =>
    obtain ⟨⟨n', d, cr, fs, es⟩, x, hg, hx, hty, hk⟩ := ghost_of hi h
    have hk : R.time n ≤ x := hk
    obtain ⟨e, es, rfl, h1, h2, c, h3, h5⟩ := hty.prog
    cases h2
    have h4 := hty.kept t h1
    refine inv_plain (g' := ⟨t, .nothing, none, (n', d) :: fs, (x + c) :: e :: es⟩) (th' := ⟨code t m ci, k :: st⟩) hi ht h hg (by rw [hs']; rfl) (fun _ _ => by simp) (by rw [hs']; rfl) (by rw [hs']; rfl)
      ⟨fun c hc u hu => h4 u (.deeper hc hu), ⟨_, _, rfl, live_code ci h3 (h4 t .self) (by omega)⟩, h1, hty.kept, h5, hty.frames⟩ last_tail (fun m e => ⟨fun c hc hm => ?_, fun f hf => ?_⟩) (fun c => ?_) (.inl rfl)
    · subst hc
      rcases List.mem_cons.1 hm with hm | hm
      · cases hm
      · exact hm
    · subst hf
      refine ⟨fun hm => ?_, fun hm => List.mem_cons_of_mem _ hm⟩
      rcases List.mem_cons.1 hm with hm | hm
      · cases hm
      · exact hm
    · simp only [cnt, Ghost.duties, List.countP_cons, isChan]; simp
  | @askFail i c m ci k st h =>
    obtain ⟨g, x, hg, hx, hty, m, h1, h2, h3⟩ := ghost_of hi h
    obtain ⟨e, es, he, hp⟩ := hty.prog
    have := R.answered m n i _ _ _ _ _ h1 h3
    exact inv_same hi ht h hg (congrArg St.threads hs') (no_call (by intros; simp)) (by rw [hs']; rfl) (by rw [hs']; rfl) hty rfl he (live_early _ (by omega) (hp _))
  | ask h =>
    obtain ⟨g, x, hg, hx, hty, m, h1, h2, h3⟩ := ghost_of hi h
    obtain ⟨e, es, he, hp⟩ := hty.prog
    have := R.answered m n _ _ _ _ _ _ h1 h3
    exact inv_same hi ht h hg (congrArg St.threads hs') (no_call (by intros; simp)) (by rw [hs']; rfl) (by rw [hs']; rfl) hty rfl he (live_early _ (by omega) (hp _))
  | read h =>
    obtain ⟨g, x, hg, hx, hty, hk⟩ := ghost_of hi h
    obtain ⟨e, es, he, hp⟩ := hty.prog
    exact inv_same hi ht h hg (congrArg St.threads hs') (no_call (by intros; simp)) (by rw [hs']; rfl) (by rw [hs']; rfl) hty rfl he (live_early _ hk (hp _))
  | copy h =>
    obtain ⟨g, x, hg, hx, hty, hk⟩ := ghost_of hi h
    obtain ⟨e, es, he, hp⟩ := hty.prog
    exact inv_same hi ht h hg (congrArg St.threads hs') (no_call (by intros; simp)) (by rw [hs']; rfl) (by rw [hs']; rfl) hty rfl he (live_early _ hk (hp _))
  | new h =>
    obtain ⟨g, x, hg, hx, hty, hk⟩ := ghost_of hi h
    obtain ⟨e, es, he, hp⟩ := hty.prog
    exact inv_same hi ht h hg (congrArg St.threads hs') (no_call (by intros; simp)) (by rw [hs']; rfl) (by rw [hs']; rfl) hty rfl he (live_early _ hk (hp _))
  | answer h =>
    obtain ⟨g, x, hg, hx, hty, hk⟩ := ghost_of hi h
    obtain ⟨e, es, he, hp⟩ := hty.prog
    exact inv_same hi ht h hg (congrArg St.threads hs') (no_call (by intros; simp)) (by rw [hs']; rfl) (by rw [hs']; rfl) hty rfl he (live_early _ hk (hp _))
  | upd h =>
    obtain ⟨g, x, hg, hx, hty, hk⟩ := ghost_of hi h
    obtain ⟨e, es, he, hp⟩ := hty.prog
    exact inv_same hi ht h hg (congrArg St.threads hs') (no_call (by intros; simp)) (by rw [hs']; rfl) (by rw [hs']; rfl) hty rfl he (live_early _ hk hp)
  | setName h =>
    obtain ⟨g, x, hg, hx, hty, hk⟩ := ghost_of hi h
    obtain ⟨e, es, he, hp⟩ := hty.prog
    exact inv_same hi ht h hg (congrArg St.threads hs') (no_call (by intros; simp)) (by rw [hs']; rfl) (by rw [hs']; rfl) hty rfl he (live_early _ hk hp)
  | pick y h =>
    obtain ⟨g, x, hg, hx, hty, hk⟩ := ghost_of hi h
    obtain ⟨e, es, he, hp⟩ := hty.prog
    exact inv_same hi ht h hg (congrArg St.threads hs') (no_call (by intros; simp)) (by rw [hs']; rfl) (by rw [hs']; rfl) hty rfl he (live_early _ hk (hp.2 y))
  | @join i t old new st f o h hf =>
    obtain ⟨g, x, hg, hx, hty, hk⟩ := ghost_of hi h
    have hk : R.time n ≤ x := hk
    obtain ⟨e, es, he, h1, rfl, c, h2, _, h3, _⟩ := hty.prog
    have hlt := (List.getElem?_eq_some_iff.1 hf).1
    rw [← hi.flen] at hlt
    have hfd := List.getElem?_eq_getElem hlt
    have hsoon := hi.soon f _ o _ c hf hfd h2
    exact inv_same (th' := ⟨.wait f old, st⟩) hi ht h hg (by rw [hs']; rfl) (no_call (by intros; simp)) (by rw [hs']; rfl) (by rw [hs']; rfl) hty rfl he
      ⟨h1, ⟨o, hf⟩, fd[f], hfd, fun r => live_early _ (by omega) (h3 r)⟩
  | @wait i f k st t r h hf =>
    obtain ⟨g, x, hg, hx, hty, hk⟩ := ghost_of hi h
    obtain ⟨e, es, he, h1, _, y, h2, h3⟩ := hty.prog
    exact inv_same hi ht h hg (congrArg St.threads hs') (no_call (by intros; simp)) (by rw [hs']; rfl) (by rw [hs']; rfl) hty rfl he (live_early _ (hk t r y hf h2) (h3 r))
  | @goShare i m p k st h =>
    obtain ⟨⟨n', d, cr, fs, es⟩, x, hg, hx, hty, hk⟩ := ghost_of hi h
    obtain ⟨e, es, rfl, c, j, h1, ⟨e', h2⟩, h3⟩ := hty.prog
    cases h1
    refine ⟨_, _, _, _, _, inv_act (new := [⟨p m, []⟩]) (th' := ⟨k, st⟩) (dl' := dl) (fd' := fd) hi ht h hg (by rw [hs']) (no_call (by intros; simp))
      (book_share (es' := e :: es) (es'' := [e']) hi.book hg (by rw [hs']; simp) (by rw [hs']) (by rw [hs'])) (fun m f => by rw [hs']; exact id) (fun _ _ h => h) (fun _ _ h => h)
      (by rw [hs']; exact hi.dlen) (by rw [hs']; exact hi.flen) (by rw [hs']; exact ⟨hty.kept, ⟨e, es, rfl, live_early _ hk h3⟩, hty.frames⟩) ?_ rfl (by rw [hs']; exact hi.soon)
      (fun c r l x h1 h2 => by rw [hs'] at h1; exact .inl ⟨⟨r, l, h1⟩, h2⟩) (fun c r l x h1 h2 => by rw [hs'] at h1; exact .inl ⟨⟨r, l, h1⟩, h2⟩)⟩
    intro j y z hy hz
    match j with
    | 0 =>
      cases hy; cases hz
      rw [hs']
      exact ⟨hty.kept, ⟨e', [], rfl, live_early _ hk h2⟩, trivial⟩
  | @goCopy i m f p k st h =>
    obtain ⟨g, x, hg, hx, hty, hk⟩ := ghost_of hi h
    obtain ⟨e, es, he, ⟨e', h2⟩, h3⟩ := hty.prog
    refine ⟨_, _, _, _, _, inv_act (new := [⟨p (R.state n).next, []⟩]) (th' := ⟨k, st⟩) (g' := g) (gs' := [⟨g.node, .nothing, none, [], [e']⟩]) (dl' := dl) (fd' := fd) hi ht h hg (by rw [hs']) (no_call (by intros; simp))
      (by rw [set_same hg]; exact book_start hi.book (by rw [hs']; simp) (by rw [hs']) (by rw [hs'])) (fun m f => by rw [hs']; exact id) (fun _ _ h => h) (fun _ _ h => h)
      (by rw [hs']; exact hi.dlen) (by rw [hs']; exact hi.flen) (by rw [hs']; exact ⟨hty.kept, ⟨e, es, he, live_early _ hk h3⟩, hty.frames⟩) ?_ rfl (by rw [hs']; exact hi.soon)
      (fun c r l x h1 h2 => by rw [hs'] at h1; exact .inl ⟨⟨r, l, h1⟩, h2⟩) (fun c r l x h1 h2 => by rw [hs'] at h1; exact .inl ⟨⟨r, l, h1⟩, h2⟩)⟩
    intro j y z hy hz
    match j with
    | 0 =>
      cases hy; cases hz
      rw [hs']
      exact ⟨hty.kept, ⟨e', [], rfl, live_early _ hk (h2 _)⟩, trivial⟩
  | @chan i k st h =>
    obtain ⟨⟨n', d, cr, fs, es⟩, x, hg, hx, hty, hk⟩ := ghost_of hi h
    obtain ⟨e, es, rfl, h1, h2, g, h3⟩ := hty.prog
    cases h1
    cases h2
    have hdl := hi.dlen
    refine ⟨_, _, _, _, _, inv_act (new := []) (gs' := []) (th' := ⟨k (R.state n).chans.length, st⟩) (dl' := dl ++ [g]) (fd' := fd) hi ht h hg (by rw [hs']; exact (List.append_nil _).symm) (no_call (by intros; simp))
      (book_nil (book_chan (s' := R.state (n + 1)) (es' := e :: es) hi.book hg (by rw [hs']; simp [St.go]) (by rw [hs']; rfl) (by rw [hs']; rfl))) (fun m f => by rw [hs']; exact id) ext_add (fun _ _ h => h)
      (by rw [hs']; simp [St.go, hdl]) (by rw [hs']; exact hi.flen)
      (by
        rw [hs']
        refine ⟨hty.kept, ⟨e, es, rfl, live_early _ hk (h3 _ _ ⟨fun _ h => h, ext_add, fun _ _ h => h⟩ ?_)⟩, frames_grow (fun _ _ h => h) ext_add (fun _ _ h => h) _ _ _ _ hty.frames⟩
        rw [← hdl]; simp)
      (fun j x y h => by cases h) rfl (by rw [hs']; exact hi.soon) ?_ (fun c r l x h1 h2 => by rw [hs'] at h1; exact .inl ⟨⟨r, l, h1⟩, h2⟩)⟩
    intro c r l y h4 h5
    rw [hs'] at h4
    rcases get_add h4 with ⟨_, h6⟩ | h6
    · cases h6
    · have hlt := (List.getElem?_eq_some_iff.1 h6).1
      rw [List.getElem?_append_left (by omega)] at h5
      exact .inl ⟨⟨r, l, h6⟩, h5⟩
  | @send i c r k st l h hc =>
    obtain ⟨⟨n', d, cr, fs, es⟩, x, hg, hx, hty, hk⟩ := ghost_of hi h
    have hk : R.time n ≤ x := hk
    obtain ⟨e, es, rfl, h1, ⟨g, h2, h4⟩, h3⟩ := hty.prog
    cases h1
    refine ⟨_, _, _, _, _, inv_act (new := []) (gs' := []) (th' := ⟨k, st⟩) (dl' := dl) (fd' := fd) hi ht h hg (by rw [hs']; exact (List.append_nil _).symm) (no_call (by intros; simp))
      (book_nil (book_send (s' := R.state (n + 1)) (es' := e :: es) hi.book hg hc (by rw [hs']; simp [St.go]) (by rw [hs']; rfl) (by rw [hs']; rfl))) (fun m f => by rw [hs']; exact id) (fun _ _ h => h) (fun _ _ h => h)
      (by rw [hs']; simp [St.go, hi.dlen]) (by rw [hs']; exact hi.flen) (by rw [hs']; exact ⟨hty.kept, ⟨e, es, rfl, live_early _ hk h3⟩, hty.frames⟩)
      (fun j x y h => by cases h) rfl (by rw [hs']; exact hi.soon) ?_ (fun c r l x h1 h2 => by rw [hs'] at h1; exact .inl ⟨⟨r, l, h1⟩, h2⟩)⟩
    intro c' r' l' y h5 h6
    rw [hs'] at h5
    rcases get_set h5 with ⟨rfl, _⟩ | ⟨_, h7⟩
    · rw [h2] at h6; cases h6
      exact .inr (by omega)
    · exact .inl ⟨⟨r', l', h7⟩, h6⟩
  | @recv i c k st r l h hc =>
    obtain ⟨⟨n', d, cr, fs, es⟩, x, hg, hx, hty, hk⟩ := ghost_of hi h
    obtain ⟨e, es, rfl, h1, j, g, h2, h3, h4⟩ := hty.prog
    cases h1
    cases h2
    refine ⟨_, _, _, _, _, inv_act (new := []) (gs' := []) (th' := ⟨k r, st⟩) (dl' := dl) (fd' := fd) hi ht h hg (by rw [hs']; exact (List.append_nil _).symm) (no_call (by intros; simp))
      (book_nil (book_recv (s' := R.state (n + 1)) (es' := e :: es) hi.book hg hc (by rw [hs']; simp [St.go]) (by rw [hs']; rfl) (by rw [hs']; rfl))) (fun m f => by rw [hs']; exact id) (fun _ _ h => h) (fun _ _ h => h)
      (by rw [hs']; simp [St.go, hi.dlen]) (by rw [hs']; exact hi.flen) (by rw [hs']; exact ⟨hty.kept, ⟨e, es, rfl, live_early _ (hk r l g hc h3) (h4 r)⟩, hty.frames⟩)
      (fun j x y h => by cases h) rfl (by rw [hs']; exact hi.soon) ?_ (fun c r l x h1 h2 => by rw [hs'] at h1; exact .inl ⟨⟨r, l, h1⟩, h2⟩)⟩
    intro c' r' l' y h5 h6
    rw [hs'] at h5
    rcases get_set h5 with ⟨rfl, _⟩ | ⟨_, h7⟩
    · exact .inl ⟨⟨r, l, hc⟩, h6⟩
    · exact .inl ⟨⟨r', l', h7⟩, h6⟩
  | @lead i t old new st h =>
    obtain ⟨⟨n', d, cr, fs, es⟩, x, hg, hx, hty, hk⟩ := ghost_of hi h
    obtain ⟨e, es, rfl, h1, h2, c, h3, h4, _, h5⟩ := hty.prog
    cases h1
    subst h2
    have hfl := hi.flen
    have hm : ∀ m f, Begun (R.state n).flights m f → Begun ((R.state n).flights ++ [(t, none)]) m f := fun n f ⟨o, ho⟩ => ⟨o, add_get ho⟩
    have hk : R.time n ≤ x := hk
    refine ⟨_, _, _, _, _, inv_act (new := []) (gs' := []) (th' := ⟨new (R.state n).flights.length, st⟩) (dl' := dl) (fd' := fd ++ [R.time n + c]) hi ht h hg (by rw [hs']; exact (List.append_nil _).symm) (no_call (by intros; simp))
      (book_nil (book_lead (s' := R.state (n + 1)) (es' := e :: es) hi.book hg (by rw [hs']; simp [St.go]) (by rw [hs']; rfl) (by rw [hs']; rfl))) (fun m f => by rw [hs']; exact hm m f) (fun _ _ h => h) ext_add
      (by rw [hs']; exact hi.dlen) (by rw [hs']; simp [St.go, hfl])
      (by
        rw [hs']
        refine ⟨hty.kept, ⟨e, es, rfl, h5 _ (R.time n) _ ⟨hm t, fun _ _ h => h, ext_add⟩ hk ?_⟩, frames_grow hm (fun _ _ h => h) ext_add _ _ _ _ hty.frames⟩
        rw [← hfl]; simp)
      (fun j x y h => by cases h) rfl ?_ (fun c r l x h1 h2 => by rw [hs'] at h1; exact .inl ⟨⟨r, l, h1⟩, h2⟩) ?_⟩
    · intro f u o y c' h6 h7 h8
      rw [hs'] at h6
      rcases get_add h6 with ⟨hff, h9⟩ | h9
      · cases h9
        rw [← hfl] at hff
        subst hff
        rw [List.getElem?_append_right (Nat.le_refl _)] at h7
        simp only [Nat.sub_self, List.getElem?_cons_zero, Option.some.injEq] at h7
        have := h4 c' h8
        omega
      · have hlt := (List.getElem?_eq_some_iff.1 h9).1
        rw [List.getElem?_append_left (by omega)] at h7
        exact hi.soon f u o y c' h9 h7 h8
    · intro f u r y h6 h7
      rw [hs'] at h6
      rcases get_add h6 with ⟨_, h9⟩ | h9
      · cases h9
      · have hlt := (List.getElem?_eq_some_iff.1 h9).1
        rw [List.getElem?_append_left (by omega)] at h7
        exact .inl ⟨⟨u, r, h9⟩, h7⟩
  | @land i f r k st t o h hf =>
    obtain ⟨⟨n', d, cr, fs, es⟩, x, hg, hx, hty, hk⟩ := ghost_of hi h
    have hk : R.time n ≤ x := hk
    obtain ⟨e, es, rfl, h1, ⟨g, h2, h4⟩, h3⟩ := hty.prog
    cases h1
    have hm : ∀ m f', Begun (R.state n).flights m f' → Begun ((R.state n).flights.set f (t, some r)) m f' := by
      rintro m f' ⟨o', ho'⟩
      by_cases hff : f' = f
      · subst hff
        rw [hf] at ho'
        cases ho'
        exact ⟨some r, set_get hf⟩
      · exact ⟨o', set_other hff ho'⟩
    refine ⟨_, _, _, _, _, inv_act (new := []) (gs' := []) (th' := ⟨k, st⟩) (dl' := dl) (fd' := fd) hi ht h hg (by rw [hs']; exact (List.append_nil _).symm) (no_call (by intros; simp))
      (book_nil (book_land (s' := R.state (n + 1)) (es' := e :: es) hi.book hg hf (by rw [hs']; simp [St.go]) (by rw [hs']; rfl) (by rw [hs']; rfl))) (fun m f => by rw [hs']; exact hm m f) (fun _ _ h => h) (fun _ _ h => h)
      (by rw [hs']; exact hi.dlen) (by rw [hs']; simp [St.go, hi.flen])
      (by
        rw [hs']
        exact ⟨hty.kept, ⟨e, es, rfl, live_grow (C := ⟨Begun (R.state n).flights n', dl, fd⟩) _ ⟨hm n', fun _ _ h => h, fun _ _ h => h⟩ (live_early _ hk h3)⟩, frames_grow hm (fun _ _ h => h) (fun _ _ h => h) _ _ _ _ hty.frames⟩)
      (fun j x y h => by cases h) rfl ?_ (fun c r l x h1 h2 => by rw [hs'] at h1; exact .inl ⟨⟨r, l, h1⟩, h2⟩) ?_⟩
    · intro f' u o' y c' h6 h7 h8
      rw [hs'] at h6
      rcases get_set h6 with ⟨rfl, h9⟩ | ⟨_, h9⟩
      · cases h9
        exact hi.soon f' t o y c' hf h7 h8
      · exact hi.soon f' u o' y c' h9 h7 h8
    · intro f' u r' y h6 h7
      rw [hs'] at h6
      rcases get_set h6 with ⟨rfl, h9⟩ | ⟨_, h9⟩
      · rw [h2] at h7; cases h7
        exact .inr (by omega)
      · exact .inl ⟨⟨u, r', h9⟩, h7⟩

private theorem inv_start (R : Run lim roots) (hr : ∀ r ∈ roots, Tended r.tree ∧ ∃ c, Takes lim r.tree c) : ∃ gs since, Inv R 0 gs [] [] [] since := by
  have hmin : ∀ r : Root H, ∃ c, (∃ c', Takes lim r.tree c') → Takes lim r.tree c ∧ ∀ c', Takes lim r.tree c' → c ≤ c' := by
    intro r
    by_cases h : ∃ c', Takes lim r.tree c'
    · obtain ⟨c', h⟩ := h
      obtain ⟨m, h1, _, h2⟩ := least (P := Takes lim r.tree) c' h
      exact ⟨m, fun _ => ⟨h1, h2⟩⟩
    · exact ⟨0, fun h' => absurd h' h⟩
  have hs := R.start
  let ct : Root H → Nat := fun r => (hmin r).choose
  have hct : ∀ r : Root H, (∃ c', Takes lim r.tree c') → Takes lim r.tree (ct r) ∧ ∀ c', Takes lim r.tree c' → ct r ≤ c' := fun r => (hmin r).choose_spec
  refine ⟨roots.mapIdx fun i r => ⟨.queryLog r.tree, .nothing, none, [], [R.time (R.arrival i) + ct r]⟩, roots.mapIdx fun i _ => R.time (R.arrival i), book_init _ (by rw [hs]; simp [init]) (by rw [hs]; rfl) (by rw [hs]; rfl) ?_,
    by rw [hs]; simp [init], by rw [hs]; rfl, by rw [hs]; rfl, ?_, ?_, ?_, ?_, ?_⟩
  · intro i g h1
    simp only [List.getElem?_mapIdx, Option.map_eq_some_iff] at h1
    obtain ⟨r, _, rfl⟩ := h1
    exact ⟨rfl, _, rfl⟩
  · intro i g th x h1 h2 h3
    rw [hs] at h2
    simp only [List.getElem?_mapIdx, Option.map_eq_some_iff] at h1 h3
    simp only [init, List.getElem?_mapIdx, Option.map_eq_some_iff] at h2
    obtain ⟨r, h4, rfl⟩ := h1
    obtain ⟨r', h5, rfl⟩ := h2
    obtain ⟨r'', h6, rfl⟩ := h3
    rw [h4] at h5; cases h5
    obtain ⟨h7, h8⟩ := hr r (List.mem_of_getElem? h4)
    refine ⟨fun c hc => ?_, ⟨_, _, rfl, rfl, rfl, _, (hct r h8).1, fun _ => ⟨rfl, Nat.le_refl _⟩⟩, trivial⟩
    cases hc
    exact h7
  · intro i th x h1 h2
    rw [hs] at h1
    simp only [List.getElem?_mapIdx, Option.map_eq_some_iff] at h2
    simp only [init, List.getElem?_mapIdx, Option.map_eq_some_iff] at h1
    obtain ⟨r, h4, rfl⟩ := h1
    obtain ⟨r', h5, rfl⟩ := h2
    exact time_mono R (Nat.zero_le _)
  · intro f t o g c h1 h2
    cases h2
  · intro i h1 h2
    rw [List.getElem?_mapIdx, List.getElem?_eq_getElem h1]
    rfl
  · intro i r h1
    refine ⟨_, R.time (R.arrival i) + ct r, by rw [List.getElem?_mapIdx, h1]; rfl, rfl, fun c hc => ?_⟩
    have := (hct r ⟨c, hc⟩).2 c hc
    omega

private theorem inv_at (R : Run lim roots) (hr : ∀ r ∈ roots, Tended r.tree ∧ ∃ c, Takes lim r.tree c) (n : Nat) : ∃ gs cn dl fd since, Inv R n gs cn dl fd since := by
  induction n with
  | zero =>
    obtain ⟨gs, since, h⟩ := inv_start R hr
    exact ⟨gs, [], [], [], since, h⟩
  | succ n ih =>
    obtain ⟨gs, cn, dl, fd, since, hi⟩ := ih
    rcases R.next n with ⟨h1, h2⟩ | ⟨h1, h2⟩
    · exact inv_step hi h2 h1
    · exact ⟨gs, cn, dl, fd, since, inv_tick hi h1 h2⟩

/-! ### Nobody is late -/

/-- Waiting for somebody else -/
private def Waits : Prog H → Prop
  | .recv _ _ => True
  | .wait _ _ => True
  | _ => False

/-- One who neither waits nor is done is not late. -/
private theorem quick {i x e : Nat} {n' : Tree H} {C : Ctx} {d : Duty} {cr : Option (Nat × Nat)} {p : Prog H} {st : List (Option Ptr → Prog H)} (hk : Calm R n i dl fd x ⟨p, st⟩) (hl : Live lim n' C d cr x e p)
    (hw : ¬ Waits p) (hp : p ≠ .stop) (hd : ∀ r, p = .ret r → st ≠ []) : R.time n ≤ e ∧ Due C.dl C.fd d (R.time n) := by
  have key : ∀ y p', R.time n ≤ y → Live lim n' C d cr y e p' → R.time n ≤ e ∧ Due C.dl C.fd d (R.time n) := by
    intro y p' h1 h2
    obtain ⟨h3, h4⟩ := live_le p' h2
    exact ⟨Nat.le_trans h1 h3, due_early h4 h1⟩
  cases p with
  | ask c q ci k =>
    obtain ⟨m, h1, h2, h3⟩ := hk
    have := R.answered m n i _ _ _ _ _ h1 h3
    exact key _ _ (by omega) (hl none)
  | recv c k => exact absurd trivial hw
  | wait f k => exact absurd trivial hw
  | stop => exact absurd rfl hp
  | ret r => cases st with
    | nil => exact absurd rfl (hd r rfl)
    | cons k st => exact key x _ hk hl
  | _ => exact key x _ hk hl

private theorem frames_below {fl : List (Tree H × Option (Option Ptr))} : ∀ (fs : List (Tree H × Duty)) (es : List Nat) (st : List (Option Ptr → Prog H)) (n : Tree H), Frames lim fl dl fd n fs es st →
    ∀ n' d, (n', d) ∈ fs → ∃ c, Child n' c ∧ Within c n := by
  intro fs
  induction fs with
  | nil => intro es st n _ n' d h; cases h
  | cons x fs ih =>
    intro es st n hf n' d hm
    match es, st, hf with
    | _ :: _ :: _, _ :: _, ⟨h1, _, _, h2⟩ =>
      rcases List.mem_cons.1 hm with rfl | hm
      · exact ⟨n, h1, .self⟩
      · obtain ⟨c, h3, h4⟩ := ih _ _ _ h2 n' d hm
        exact ⟨c, h3, within_child h4 h1⟩

/-- Callers are done later than the ones they called, and what they owe is due later. -/
private theorem frames_due {fl : List (Tree H × Option (Option Ptr))} {y : Nat} : ∀ (fs : List (Tree H × Duty)) (e : Nat) (es : List Nat) (st : List (Option Ptr → Prog H)) (n : Tree H), Frames lim fl dl fd n fs (e :: es) st → y ≤ e →
    (∀ n' d, (n', d) ∈ fs → Due dl fd d y) ∧ ∀ E, (e :: es).getLast? = some E → y ≤ E := by
  intro fs
  induction fs with
  | nil =>
    intro e es st n hf hy
    match es, st, hf with
    | [], [], _ => exact ⟨fun n' d h => (by cases h), fun E hE => (by cases hE; exact hy)⟩
  | cons x fs ih =>
    intro e es st n hf hy
    match es, st, hf with
    | e' :: es, k :: st, ⟨_, _, h1, h2⟩ =>
      obtain ⟨h3, h4⟩ := live_le _ (h1 none)
      obtain ⟨h5, h6⟩ := ih e' es st _ h2 (by omega)
      refine ⟨fun n' d hm => ?_, fun E hE => h6 E (by rw [← hE]; exact last_tail.symm)⟩
      rcases List.mem_cons.1 hm with rfl | hm
      · exact due_early h4 hy
      · exact h5 n' d hm

private theorem none_late (hi : Inv R n gs cn dl fd since) (hp : ∀ (i : Nat) (st : List (Option Ptr → Prog H)), (R.state n).threads[i]? ≠ some ⟨.stop, st⟩) (t : Tree H) :
    ∀ u, Within t u → ∀ (i : Nat) (g : Ghost H) (th : Thread H), gs[i]? = some g → (R.state n).threads[i]? = some th → g.node = u → (∀ r, th ≠ ⟨.ret r, []⟩) →
      ∀ e es, g.ends = e :: es → R.time n ≤ e := by
  have ht := child_acc t
  induction ht with
  | intro t _ ih =>
    intro u hu
    cases hu with
    | deeper hc hu => exact ih _ hc u hu
    | self =>
      -- what is owed at `t` is not overdue
      have helper : ∀ (i : Nat) (g : Ghost H) (d : Duty), gs[i]? = some g → (t, d) ∈ g.duties → d ≠ .nothing → Due dl fd d (R.time n) := by
        intro i g d hg hm hd
        have hl := (List.getElem?_eq_some_iff.1 hg).1
        rw [hi.book.len] at hl
        have hth := List.getElem?_eq_getElem hl
        generalize (R.state n).threads[i] = th at hth
        obtain ⟨p, st⟩ := th
        obtain ⟨g', x, hg', _, hty, hk⟩ := ghost_of hi hth
        rw [hg] at hg'; cases hg'
        have hns : p ≠ .stop := fun h => hp i st (by rw [← h]; exact hth)
        obtain ⟨e, es, he, hpr⟩ := hty.prog
        rcases List.mem_cons.1 hm with hm | hm
        · have hdd : d = g.duty := congrArg Prod.snd hm
          subst hdd
          have hw : ¬ Waits p ∧ ∀ r, p ≠ .ret r := by
            cases p with
            | ret r => exact absurd hpr.1 hd
            | recv c k => exact absurd hpr.1 hd
            | wait f k => exact absurd hpr.1 hd
            | _ => exact ⟨id, fun r hr => by cases hr⟩
          exact (quick hk hpr hw.1 hns fun r hr => absurd hr (hw.2 r)).2
        · have hf := hty.frames
          obtain ⟨c, h1, h2⟩ := frames_below _ _ _ _ hf t d hm
          have h3 := ih c h1 _ h2 i g _ hg hth rfl (fun r hr => by
            cases hr
            dsimp only at hf
            rw [he] at hf
            cases hfs : g.frames with
            | nil => rw [hfs] at hm; cases hm
            | cons y fs =>
              rw [hfs] at hf
              cases es <;> exact hf.elim) e es he
          rw [he] at hf
          exact (frames_due _ e es _ _ hf h3).1 t d hm
      rintro i g ⟨p, st⟩ hg hth rfl hnd e es he
      obtain ⟨g', x, hg', _, hty, hk⟩ := ghost_of hi hth
      rw [hg] at hg'; cases hg'
      have hns : p ≠ .stop := fun h => hp i st (by rw [← h]; exact hth)
      obtain ⟨e', es', he', hpr⟩ := hty.prog
      rw [he] at he'; cases he'
      by_cases hw : Waits p
      · cases p with
        | recv c k =>
          obtain ⟨_, j, y, h1, hy, hpr⟩ := hpr
          have hle := (live_le _ (hpr none)).1
          obtain ⟨h2, h3⟩ := hi.book.credit i g c (j + 1) hg h1
          have h4 := (List.getElem?_eq_some_iff.1 h2).1
          rw [hi.book.clen] at h4
          have h5 := List.getElem?_eq_getElem h4
          have h6 := h3 _ h5
          generalize (R.state n).chans[c] = l at h5 h6
          cases l with
          | cons r l =>
            have := hk r l y h5 hy
            omega
          | nil =>
            simp only [List.length_nil] at h6
            obtain ⟨i', g', h7, h8⟩ := owed_pos gs (show 0 < owed c gs by omega)
            obtain ⟨⟨n', d'⟩, h9, h10⟩ := List.countP_pos_iff.1 h8
            cases d' with
            | nothing => cases h10
            | flight f => cases h10
            | chan c' =>
              have h11 : c' = c := by simpa [isChan] using h10
              subst h11
              have h12 := hi.book.sends i' g' n' c' h7 h9
              rw [h2] at h12; cases h12
              obtain ⟨y', h13, h14⟩ := helper i' g' _ h7 h9 (fun h => by cases h)
              dsimp only at hy
              rw [hy] at h13; cases h13
              omega
        | wait f k =>
          obtain ⟨_, ⟨o, ho⟩, y, hy, hpr⟩ := hpr
          have hle := (live_le _ (hpr none)).1
          cases o with
          | some r =>
            have := hk _ r y ho hy
            omega
          | none =>
            obtain ⟨i', g', h7, h9⟩ := hi.book.flown f _ ho
            obtain ⟨y', h13, h14⟩ := helper i' g' _ h7 h9 (fun h => by cases h)
            dsimp only at hy
            rw [hy] at h13; cases h13
            omega
        | _ => exact hw.elim
      · exact (quick hk hpr hw hns fun r h1 h2 => hnd r (by rw [h1, h2])).1

end

/-- C102: with any number of queries, whenever they come in, and however the goroutines take turns: if each server that is asked answers, or fails, within its time, then at the latest
after the time that `Takes` gives for the element, the query has its reply (or was dropped, or failed), unless a goroutine panicked. -/
theorem reply_in_time {lim : Nat → Nat} {roots : List (Root H)} (R : Run lim roots) (hr : ∀ r ∈ roots, Tended r.tree ∧ ∃ c, Takes lim r.tree c) (i : Nat) (r : Root H) (hi : roots[i]? = some r)
    (c : Nat) (hc : Takes lim r.tree c) (n : Nat) (hn : R.time (R.arrival i) + c < R.time n) (hp : ∀ (j : Nat) (st : List (Option Ptr → Prog H)), (R.state n).threads[j]? ≠ some ⟨.stop, st⟩) :
    ∃ x, (R.state n).threads[i]? = some ⟨.ret x, []⟩ := by
  obtain ⟨gs, cn, dl, fd, since, hinv⟩ := inv_at R hr n
  obtain ⟨g, E, hg, hE, hle⟩ := hinv.root i r hi
  have hl := (List.getElem?_eq_some_iff.1 hg).1
  rw [hinv.book.len] at hl
  have hth := List.getElem?_eq_getElem hl
  generalize (R.state n).threads[i] = th at hth
  refine Classical.byContradiction fun hno => ?_
  obtain ⟨g', x, hg', _, hty, hk⟩ := ghost_of hinv hth
  rw [hg] at hg'; cases hg'
  obtain ⟨e, es, he, _⟩ := hty.prog
  have h1 := none_late hinv hp g.node g.node .self i g th hg hth rfl (fun r hr => hno ⟨r, by rw [hth, hr]⟩) e es he
  have hf := hty.frames
  rw [he] at hf hE
  have h2 := (frames_due _ e es _ _ hf h1).2 E hE
  have := hle c hc
  omega

section Examples

/-- De-duplication above a server that answers after 3 at the latest -/
private def one : Tree Unit := .dedup (.client 0)

private theorem one_tended : Tended one := by
  intro u hu
  cases hu with
  | self => trivial
  | deeper hc hu =>
    cases hc
    cases hu with
    | self => trivial
    | deeper hc _ => exact hc.elim

private theorem one_takes : Takes (fun _ => 3) one 3 := .dedup (.client (i := 0))

private def ask0 : Prog Unit := .ask 0 (rootPtr 0) {} .ret
private def lead0 : Option Ptr → Prog Unit := fun r => .land 0 r (handOut (rootPtr 0) r)
private def queries : List (Root Unit) := [⟨one, {}, {}⟩, ⟨one, { id := 7 }, {}⟩]

/-- Two clients ask the same; the second comes at time 1, and waits for what the first has asked. The server does not answer, and at time 3 both have an error. -/
private def s0 : St Unit := init queries
private def s1 : St Unit := (s0).go 0 (code one (rootPtr 0) {}) [.ret]
private def s2 : St Unit := { s1 with flights := [(one, none)] }.go 0 (.call (.client 0) (rootPtr 0) {} lead0) [.ret]
private def s3 : St Unit := (s2).go 0 ask0 [lead0, .ret]
private def s4 : St Unit := s3
private def s5 : St Unit := (s4).go 1 (code one (rootPtr 1) {}) [.ret]
private def s6 : St Unit := (s5).go 1 (.wait 0 (handOut (rootPtr 1))) [.ret]
private def s7 : St Unit := s6
private def s8 : St Unit := { s7 with asked := [(0, {}, {})] }.go 0 (.ret none) [lead0, .ret]
private def s9 : St Unit := (s8).go 0 (lead0 none) [.ret]
private def s10 : St Unit := { s9 with flights := [(one, some none)] }.go 0 (.ret none) [.ret]
private def s11 : St Unit := (s10).go 0 (.ret none) []
private def s12 : St Unit := (s11).go 1 (.ret none) [.ret]
private def s13 : St Unit := (s12).go 1 (.ret none) []

private def states : Nat → St Unit
  | 0 => s0
  | 1 => s1
  | 2 => s2
  | 3 => s3
  | 4 => s4
  | 5 => s5
  | 6 => s6
  | 7 => s7
  | 8 => s8
  | 9 => s9
  | 10 => s10
  | 11 => s11
  | 12 => s12
  | 13 => s13
  | _ => s13

private def times : Nat → Nat
  | 0 | 1 | 2 | 3 => 0
  | 4 | 5 | 6 => 1
  | 7 | 8 | 9 | 10 | 11 | 12 | 13 => 3
  | _ => 5

private def arrivals : Nat → Nat
  | 0 => 0
  | _ => 4

private theorem states_next (n : Nat) : (Step (states n) (states (n + 1)) ∧ times (n + 1) = times n) ∨ (states (n + 1) = states n ∧ times n ≤ times (n + 1)) := by
  match n with
  | 0 => exact .inl ⟨Step.call (s := s0) (i := 0) rfl, rfl⟩
  | 1 => exact .inl ⟨Step.lead (s := s1) (i := 0) rfl, rfl⟩
  | 2 => exact .inl ⟨Step.call (s := s2) (i := 0) rfl, rfl⟩
  | 3 => exact .inr ⟨rfl, by decide⟩
  | 4 => exact .inl ⟨Step.call (s := s4) (i := 1) rfl, rfl⟩
  | 5 => exact .inl ⟨Step.join (s := s5) (i := 1) (f := 0) rfl rfl, rfl⟩
  | 6 => exact .inr ⟨rfl, by decide⟩
  | 7 => exact .inl ⟨Step.askFail (s := s7) (i := 0) rfl, rfl⟩
  | 8 => exact .inl ⟨Step.ret (s := s8) (i := 0) rfl, rfl⟩
  | 9 => exact .inl ⟨Step.land (s := s9) (i := 0) (f := 0) rfl rfl, rfl⟩
  | 10 => exact .inl ⟨Step.ret (s := s10) (i := 0) rfl, rfl⟩
  | 11 => exact .inl ⟨Step.wait (s := s11) (i := 1) (f := 0) (k := handOut (rootPtr 1)) (r := none) rfl rfl, rfl⟩
  | 12 => exact .inl ⟨Step.ret (s := s12) (i := 1) rfl, rfl⟩
  | 13 => exact .inr ⟨rfl, by decide⟩
  | n + 14 => exact .inr ⟨rfl, Nat.le_refl _⟩

private theorem states_len (n : Nat) : (states n).threads.length = 2 := by
  match n with
  | 0 | 1 | 2 | 3 | 4 | 5 | 6 | 7 | 8 | 9 | 10 | 11 | 12 | 13 => rfl
  | n + 14 => rfl

private theorem two {i : Nat} {th : Thread Unit} {n : Nat} (h : (states n).threads[i]? = some th) : i = 0 ∨ i = 1 := by
  have := (List.getElem?_eq_some_iff.1 h).1
  rw [states_len] at this
  omega

/-- The run -/
private def run : Run (fun _ => 3) queries where
  state := states
  time := times
  arrival := arrivals
  start := rfl
  next := states_next
  before := by
    intro i n hi hn
    have : i = 0 ∨ i = 1 := by simp [queries] at hi; omega
    rcases this with rfl | rfl
    · have : n = 0 := by simp [arrivals] at hn; omega
      subst this; rfl
    · have : n = 0 ∨ n = 1 ∨ n = 2 ∨ n = 3 ∨ n = 4 := by simp [arrivals] at hn; omega
      rcases this with rfl | rfl | rfl | rfl | rfl <;> rfl
  prompt := by
    intro n i th ht hth ha
    match n with
    | 3 =>
      rcases two hth with rfl | rfl
      · cases hth; trivial
      · have := ha (by decide)
        simp [arrivals] at this
    | 6 =>
      rcases two hth with rfl | rfl
      · cases hth; trivial
      · cases hth; exact ⟨one, rfl⟩
    | 13 =>
      rcases two hth with rfl | rfl
      · cases hth; trivial
      · cases hth; trivial
    | 0 | 1 | 2 | 4 | 5 | 7 | 8 | 9 | 10 | 11 | 12 => simp [times] at ht
    | n + 14 => simp [times] at ht
  answered := by
    intro m n i c q ci k st hm h
    have hn := h n hm (Nat.le_refl _)
    have : times n ≤ 3 := by
      match n with
      | 0 | 1 | 2 | 3 | 4 | 5 | 6 | 7 | 8 | 9 | 10 | 11 | 12 | 13 => decide
      | n + 14 => rcases two hn with rfl | rfl <;> cases hn
    show times n ≤ times m + 3
    omega

/-- Of this run it says that both have their reply at time 5, as they had to by 3 and by 4. -/
example : (∃ x, (run.state 14).threads[0]? = some ⟨.ret x, []⟩) ∧ ∃ x, (run.state 14).threads[1]? = some ⟨.ret x, []⟩ := by
  have hr : ∀ r ∈ queries, Tended r.tree ∧ ∃ c, Takes (fun _ => 3) r.tree c := by
    intro r hr
    rcases List.mem_cons.1 hr with rfl | hr
    · exact ⟨one_tended, 3, one_takes⟩
    · cases List.mem_singleton.1 hr; exact ⟨one_tended, 3, one_takes⟩
  have hp : ∀ (j : Nat) (st : List (Option Ptr → Prog Unit)), (states 14).threads[j]? ≠ some ⟨.stop, st⟩ := by
    intro j st h
    rcases two h with rfl | rfl <;> cases h
  exact ⟨reply_in_time run hr 0 ⟨one, {}, {}⟩ rfl 3 one_takes 14 (show 0 + 3 < 5 by decide) hp, reply_in_time run hr 1 ⟨one, { id := 7 }, {}⟩ rfl 3 one_takes 14 (show 1 + 3 < 5 by decide) hp⟩

/-- The bound is not too high: until time 3 the first of these has none. -/
example : ¬ ∃ x, (run.state 7).threads[0]? = some ⟨.ret x, []⟩ := by
  rintro ⟨x, h⟩
  cases h

/-- A fail-over group of two servers, with truncated replies asked again elsewhere -/
example : Takes (H := Unit) (fun i => 2 + i) (.truncateRetry (.failRotate 2 (fun _ => True) fun i => if i = 0 then .client 0 else .client 1) (.client 5)) 13 :=
  .truncateRetry (.failRotate (c := fun i => if i = 0 then 2 else 3) (b := 3) (fun i => by split <;> exact .client) (fun i => by split <;> omega)) (.client (i := 5))

end Examples

end Verif.Props.Timed
