import Verif.Lemmas.SharedGhost
import Verif.Props.Shared
/-
C94: every query ends. A run of the program never goes on for ever, and it cannot stop before all queries have their reply, however many of them there are at the same time, whatever
goroutines are faster, and whoever waits for whom.
-/
namespace Verif.Props.SharedEnds
open Verif Verif.Composition Verif.Shared Verif.Spec.Shared Verif.Lemmas.SharedGhost

variable {H : Type}

/-- A program of an element `n`, which may wait for the requests `F`. It calls elements below `n` only, does what it owes before it returns, does not wait as long as it owes anything, and
receives at most as many messages from a channel as goroutines were started for it: `cr` is the channel and how many are left.
With `Z`, it may wait in vain. -/
private def Live (Z : Prop) (n : Tree H) (F : Nat → Prop) : Duty → Option (Nat × Nat) → Prog H → Prop
  | d, _, .ret _ => d = .nothing
  | _, _, .stop => True
  | d, cr, .call t _ _ k => Child n t ∧ cr = none ∧ ∀ r, Live Z n F d none (k r)
  | d, cr, .ask _ _ _ k => ∀ r, Live Z n F d cr (k r)
  | d, cr, .read _ k => ∀ v, Live Z n F d cr (k v)
  | d, cr, .copy _ _ k => ∀ p, Live Z n F d cr (k p)
  | d, cr, .new _ k => ∀ p, Live Z n F d cr (k p)
  | d, cr, .answer _ _ k => ∀ p, Live Z n F d cr (k p)
  | d, cr, .upd _ _ k => Live Z n F d cr k
  | d, cr, .setName _ _ k => Live Z n F d cr k
  | d, cr, .pick α k => (Z ∨ Nonempty α) ∧ ∀ x, Live Z n F d cr (k x)
  | d, cr, .goShare m p k => ∃ c j, cr = some (c, j) ∧ (∀ F, Live Z n F (.chan c) none (p m)) ∧ Live Z n F d (some (c, j + 1)) k
  | d, cr, .goCopy _ _ p k => (∀ F x, Live Z n F .nothing none (p x)) ∧ Live Z n F d cr k
  | d, cr, .chan k => d = .nothing ∧ cr = none ∧ ∀ c, Live Z n F d (some (c, 0)) (k c)
  | d, cr, .send c _ k => d = .chan c ∧ Live Z n F .nothing cr k
  | d, cr, .recv c k => d = .nothing ∧ ∃ j, (Z ∨ cr = some (c, j + 1)) ∧ ∀ r, Live Z n F d (some (c, j)) (k r)
  | d, cr, .enter t old new => d = .nothing ∧ t = n ∧ (∀ r, Live Z n F d cr (old r)) ∧ ∀ f, Live Z n F (.flight f) cr (new f)
  | d, cr, .wait f k => d = .nothing ∧ F f ∧ ∀ r, Live Z n F d cr (k r)
  | d, cr, .land f _ k => d = .flight f ∧ Live Z n F .nothing cr k

section
variable {Z : Prop} {n : Tree H} {F : Nat → Prop} {q : Ptr}

private theorem live_mono {F' : Nat → Prop} (h : ∀ f, F f → F' f) (p : Prog H) : ∀ {d : Duty} {cr : Option (Nat × Nat)}, Live Z n F d cr p → Live Z n F' d cr p := by
  induction p with
  | ret r => exact fun hs => hs
  | stop => exact fun _ => trivial
  | call t m ci k ih => exact fun hs => ⟨hs.1, hs.2.1, fun r => ih r (hs.2.2 r)⟩
  | ask i m ci k ih => exact fun hs r => ih r (hs r)
  | read m k ih => exact fun hs r => ih r (hs r)
  | copy m f k ih => exact fun hs r => ih r (hs r)
  | new v k ih => exact fun hs r => ih r (hs r)
  | answer m v k ih => exact fun hs r => ih r (hs r)
  | upd a f k ih => exact fun hs => ih hs
  | setName a x k ih => exact fun hs => ih hs
  | pick α k ih => exact fun hs => ⟨hs.1, fun r => ih r (hs.2 r)⟩
  | goShare m p k _ ih =>
    rintro d cr ⟨c, j, h1, h2, h3⟩
    exact ⟨c, j, h1, h2, ih h3⟩
  | goCopy m f p k _ ih => exact fun hs => ⟨hs.1, ih hs.2⟩
  | chan k ih => exact fun hs => ⟨hs.1, hs.2.1, fun r => ih r (hs.2.2 r)⟩
  | send c r k ih => exact fun hs => ⟨hs.1, ih hs.2⟩
  | recv c k ih =>
    rintro d cr ⟨h1, j, h2, h3⟩
    exact ⟨h1, j, h2, fun r => ih r (h3 r)⟩
  | enter t old new ih1 ih2 => exact fun hs => ⟨hs.1, hs.2.1, fun r => ih1 r (hs.2.2.1 r), fun f => ih2 f (hs.2.2.2 f)⟩
  | wait f k ih => exact fun hs => ⟨hs.1, h _ hs.2.1, fun r => ih r (hs.2.2 r)⟩
  | land f r k ih => exact fun hs => ⟨hs.1, ih hs.2⟩

variable {d : Duty}

private theorem live_onSome {k : Ptr → Prog H} (hk : ∀ a, Live Z n F .nothing none (k a)) (r : Option Ptr) : Live Z n F .nothing none (onSome k r) := by
  cases r with
  | none => rfl
  | some a => exact hk a

private theorem live_give (x : Option Msg) : Live Z n F .nothing none (give x) := by
  cases x with
  | none => rfl
  | some v => exact fun p => rfl

private theorem live_keepOrGive {a : Ptr} (x : Option Msg) : Live Z n F .nothing none (keepOrGive a x) := by
  refine ⟨.inr ⟨true⟩, fun y => ?_⟩
  show Live Z n F .nothing none (if y = true then _ else _)
  split
  · exact rfl
  · exact live_give x

private theorem live_pass {t : Tree H} {ci : ClientInfo} {m : Ptr} (h : Child n t) : Live Z n F .nothing none (.call t m ci .ret) := ⟨h, rfl, fun _ => rfl⟩

private theorem live_tryMembers {member : Nat → Tree H} {ci : ClientInfo} (hm : ∀ i, Child n (member i)) : ∀ m r, Live Z n F .nothing none (tryMembers member q ci m r) := by
  intro m
  induction m with
  | zero => exact fun r => rfl
  | succ m ih =>
    refine fun r => ⟨.inr ⟨0⟩, fun i => ⟨hm i, rfl, fun r' => ⟨.inr ⟨true⟩, fun y => ?_⟩⟩⟩
    show Live Z n F .nothing none (if y = true then _ else _)
    split
    · exact rfl
    · exact ih r'

private theorem live_tryCopies {member : Nat → Tree H} {ci : ClientInfo} (hm : ∀ i, Child n (member i)) : ∀ m r, Live Z n F .nothing none (tryCopies member q ci m r) := by
  intro m
  induction m with
  | zero => exact fun r => rfl
  | succ m ih =>
    refine fun r => ⟨.inr ⟨0⟩, fun i p => ⟨hm i, rfl, fun r' => ⟨.inr ⟨true⟩, fun y => ?_⟩⟩⟩
    show Live Z n F .nothing none (if y = true then _ else _)
    split
    · exact rfl
    · exact ih r'

private theorem live_startAll {member : Nat → Tree H} {ci : ClientInfo} {c : Nat} {k : Prog H} (hm : ∀ i, Child n (member i)) :
    ∀ m j, Live Z n F .nothing (some (c, j + m)) k → Live Z n F .nothing (some (c, j)) (startAll member q ci c k m) := by
  intro m
  induction m with
  | zero => exact fun j h => h
  | succ m ih =>
    refine fun j h => ⟨c, j, rfl, fun F p => ⟨hm m, rfl, fun r => ⟨rfl, rfl⟩⟩, ih (j + 1) ?_⟩
    rwa [show j + 1 + m = j + (m + 1) by omega]

private theorem live_collect {c : Nat} : ∀ m, (Z ∨ 0 < m) → Live Z n F .nothing (some (c, m)) (collect c m : Prog H) := by
  intro m
  induction m with
  | zero =>
    rintro (h | h)
    · exact ⟨rfl, 0, .inl h, fun r => rfl⟩
    · omega
  | succ m ih =>
    refine fun hz => ⟨rfl, m, .inr rfl, fun r => ⟨.inr ⟨true⟩, fun y => ?_⟩⟩
    show Live Z n F .nothing _ (if y = true then _ else if m = 0 then _ else _)
    split
    · exact rfl
    · split
      · exact rfl
      · next h => exact ih (hz.imp id fun _ => by omega)

private theorem live_lookups {t : Tree H} {k : Prog H} (ht : Child n t) (hk : Live Z n F .nothing none k) : ∀ m, Live Z n F .nothing none (lookups t q k m) := by
  intro m
  induction m with
  | zero => exact hk
  | succ m ih => exact ⟨.inr ⟨⟨_, 0, [], 48, .inl rfl, rfl⟩⟩, fun v p => ⟨ht, rfl, fun _ => ih⟩⟩

private theorem live_orStop {α : Type} {k : α → Prog H} {x : Option α} (h : ∀ y, Live Z n F .nothing none (k y)) : Live Z n F .nothing none (orStop k x) := by
  cases x with
  | none => trivial
  | some y => exact h y

private theorem live_act {t a b : Tree H} {ci : ClientInfo} (h : ∀ x, Child n (branch t a b x)) (x : Blocklist.Act) : Live Z n F .nothing none (act t a b q ci x) := by
  cases x with
  | done r => exact live_give _
  | forward target p => exact live_pass (h target)

private theorem live_actReply {t b : Tree H} {a : Ptr} {ci : ClientInfo} (h : ∀ x, Child n (branch t t b x)) (x : Blocklist.Act) : Live Z n F .nothing none (actReply t b q a ci x) := by
  cases x with
  | done r => exact live_keepOrGive _
  | forward target p => exact live_pass (h target)

private theorem live_handOut (r : Option Ptr) : Live Z n F .nothing none (handOut q r) := by
  cases r with
  | none => rfl
  | some a => exact fun v w p => rfl

private theorem live_code (t : Tree H) (ci : ClientInfo) (hs : Z ∨ Sound t) : Live Z t F .nothing none (code t q ci) := by
  cases t with
  | client i => exact fun r => rfl
  | ttl o t => exact ⟨rfl, rfl, live_onSome fun a => rfl⟩
  | truncateRetry t u =>
    refine ⟨.inl rfl, rfl, live_onSome fun a v => ?_⟩
    show Live Z _ F .nothing none (if v.tc = true then _ else _)
    split
    · exact live_pass (.inr rfl)
    · exact rfl
  | collapse n t => exact ⟨rfl, rfl, live_onSome fun a v w => live_orStop fun x => live_keepOrGive _⟩
  | minimize t => exact ⟨rfl, rfl, live_onSome fun a => rfl⟩
  | drop => exact rfl
  | modify m t =>
    show Live Z _ F .nothing none (Shared.modify m t q ci)
    unfold Shared.modify
    split
    · exact live_pass rfl
    · exact fun p => live_pass rfl
  | blocklist L t a b =>
    exact ⟨hs.imp id fun ⟨o, ho⟩ => ⟨⟨o, ho⟩⟩, fun o v => live_orStop fun x => live_act (fun x => by cases x <;> simp [branch, Child]) x⟩
  | clientBlocklist L t b =>
    exact ⟨hs.imp id fun ⟨o1, o2, o3, ho⟩ => ⟨⟨(o1, o2, o3), ho⟩⟩, fun o v => live_act (fun x => by cases x <;> simp [branch, Child]) _⟩
  | responseIp L t b =>
    exact ⟨.inl rfl, rfl, live_onSome fun a => ⟨hs.imp id fun ⟨o, ho⟩ => ⟨⟨o, ho⟩⟩, fun o v w => live_actReply (fun x => by cases x <;> simp [branch, Child]) _⟩⟩
  | responseName L t b =>
    exact ⟨.inl rfl, rfl, live_onSome fun a => ⟨hs.imp id fun ⟨o, ho⟩ => ⟨⟨o, ho⟩⟩, fun o v w => live_actReply (fun x => by cases x <;> simp [branch, Child]) _⟩⟩
  | rateLimit hasLimit t l =>
    refine ⟨.inr ⟨true⟩, fun x => ?_⟩
    show Live Z _ F .nothing none (limited t l q ci (Rate.dest hasLimit x))
    cases Rate.dest hasLimit x
    · exact live_pass (.inl rfl)
    · exact live_pass (.inr rfl)
    · exact rfl
  | static s => exact fun v => live_orStop fun x => live_give _
  | template newRR s => exact fun v => live_orStop fun x => live_give _
  | replace exps t =>
    refine fun v => live_orStop fun qu => ?_
    unfold replaceWith
    split
    · exact live_pass rfl
    · exact fun p => ⟨rfl, rfl, live_onSome fun a => rfl⟩
  | syslog o t => exact live_pass rfl
  | queryLog t => exact live_pass rfl
  | dns64 ps t =>
    refine ⟨rfl, rfl, live_onSome fun a => ⟨.inr ⟨true⟩, fun x => ?_⟩⟩
    show Live Z _ F .nothing none (if x = true then _ else _)
    split
    · refine fun p => ⟨rfl, rfl, fun _ => ⟨.inr ⟨none⟩, fun y => ?_⟩⟩
      show Live Z _ F .nothing none (if y.isSome = true then _ else _)
      split
      · exact live_give _
      · exact rfl
    · exact rfl
  | failRotate n ok member => exact live_tryMembers (n := .failRotate n ok member) (fun i => Exists.intro i rfl) n none
  | failBack n ok member => exact live_tryMembers (n := .failBack n ok member) (fun i => Exists.intro i rfl) n none
  | failBackEach n ok member => exact live_tryMembers (n := .failBackEach n ok member) (fun i => Exists.intro i rfl) n none
  | roundRobin n member => exact ⟨.inr ⟨0⟩, fun m => live_pass (Exists.intro m rfl)⟩
  | random n ok member => exact live_tryMembers (n := .random n ok member) (fun i => Exists.intro i rfl) n none
  | loadBalance n ok member => exact live_tryCopies (n := .loadBalance n ok member) (fun i => Exists.intro i rfl) n none
  | fastest n member => exact ⟨rfl, rfl, fun c => live_startAll (n := .fastest n member) (fun i => Exists.intro i rfl) n 0 (by rw [Nat.zero_add]; exact live_collect n hs)⟩
  | fastestTcp wa n t => exact ⟨rfl, rfl, live_onSome fun a => ⟨.inr ⟨id⟩, fun f => rfl⟩⟩
  | router routes member =>
    refine ⟨.inr ⟨fun _ => ⟨0, 0, 0⟩⟩, fun now v => live_orStop fun qu => ?_⟩
    cases Route.routeIndex routes v qu ci now 0
    · exact rfl
    · exact live_pass (Exists.intro _ rfl)
  | dedup t => exact ⟨rfl, rfl, live_handOut, fun f => ⟨rfl, rfl, fun r => ⟨rfl, live_handOut r⟩⟩⟩
  | cache env o cap t =>
    intro w
    show Live Z _ F .nothing none (if w.question.length > 1 then _ else _)
    split
    · exact live_pass rfl
    · refine ⟨.inr ⟨none⟩, fun stored => ⟨.inr ⟨none⟩, fun how => ?_⟩⟩
      show Live Z _ F .nothing none (cached t q ci stored how)
      cases stored with
      | none => exact fun p => live_pass rfl
      | some u =>
        cases how with
        | none => exact live_give (some u)
        | some refresh =>
          intro p
          show Live Z _ F .nothing none (if refresh = true then _ else _)
          split
          · exact ⟨fun F x => ⟨rfl, rfl, fun _ => rfl⟩, rfl⟩
          · exact rfl
  | prefetch t =>
    refine ⟨rfl, rfl, fun r => ⟨.inr ⟨none⟩, fun x => ?_⟩⟩
    cases x with
    | none => exact rfl
    | some u => exact ⟨fun F x => ⟨rfl, rfl, fun _ => rfl⟩, rfl⟩
  | dnssec lo t =>
    refine fun p => ⟨rfl, rfl, live_onSome fun a => ⟨.inr ⟨0⟩, fun k => live_lookups (n := .dnssec lo t) rfl ?_ k⟩⟩
    refine ⟨.inr ⟨none⟩, fun x => ⟨.inr ⟨id⟩, fun f => ?_⟩⟩
    show Live Z _ F .nothing none (if x.isSome = true then _ else _)
    split
    · exact live_give _
    · exact rfl

end

/-! ### No run goes on for ever -/

/-- What a goroutine may become in one step, or start -/
private inductive Succ : Thread H → Thread H → Prop
  | ret {r k st} : Succ ⟨k r, st⟩ ⟨.ret r, k :: st⟩
  | call {t m ci k st} : Succ ⟨code t m ci, k :: st⟩ ⟨.call t m ci k, st⟩
  | ask {i m ci k st r} : Succ ⟨k r, st⟩ ⟨.ask i m ci k, st⟩
  | read {m k st v} : Succ ⟨k v, st⟩ ⟨.read m k, st⟩
  | copy {m f k st p} : Succ ⟨k p, st⟩ ⟨.copy m f k, st⟩
  | new {v k st p} : Succ ⟨k p, st⟩ ⟨.new v k, st⟩
  | answer {m v k st p} : Succ ⟨k p, st⟩ ⟨.answer m v k, st⟩
  | upd {a f k st} : Succ ⟨k, st⟩ ⟨.upd a f k, st⟩
  | setName {a n k st} : Succ ⟨k, st⟩ ⟨.setName a n k, st⟩
  | pick {α k st} {x : α} : Succ ⟨k x, st⟩ ⟨.pick α k, st⟩
  | goShare {m p k st} : Succ ⟨k, st⟩ ⟨.goShare m p k, st⟩
  | shared {m p k st} : Succ ⟨p m, []⟩ ⟨.goShare m p k, st⟩
  | goCopy {m f p k st} : Succ ⟨k, st⟩ ⟨.goCopy m f p k, st⟩
  | copied {m f p k st x} : Succ ⟨p x, []⟩ ⟨.goCopy m f p k, st⟩
  | chan {k st c} : Succ ⟨k c, st⟩ ⟨.chan k, st⟩
  | send {c r k st} : Succ ⟨k, st⟩ ⟨.send c r k, st⟩
  | recv {c k st r} : Succ ⟨k r, st⟩ ⟨.recv c k, st⟩
  | lead {t old new st f} : Succ ⟨new f, st⟩ ⟨.enter t old new, st⟩
  | join {t old new st f} : Succ ⟨.wait f old, st⟩ ⟨.enter t old new, st⟩
  | wait {f k st r} : Succ ⟨k r, st⟩ ⟨.wait f k, st⟩
  | land {f r k st} : Succ ⟨k, st⟩ ⟨.land f r k, st⟩

private theorem step_succ {s s' : St H} (h : Step s s') : ∃ (i : Nat) (th th' : Thread H) (l : List (Thread H)),
    s.threads[i]? = some th ∧ s'.threads = s.threads.set i th' ++ l ∧ Succ th' th ∧ ∀ x ∈ l, Succ x th := by
  cases h with
  | goShare h => exact ⟨_, _, _, [_], h, rfl, .goShare, fun x hx => by cases List.mem_singleton.1 hx; exact .shared⟩
  | goCopy h => exact ⟨_, _, _, [_], h, rfl, .goCopy, fun x hx => by cases List.mem_singleton.1 hx; exact .copied⟩
  | ret h => exact ⟨_, _, _, [], h, (List.append_nil _).symm, .ret, fun x hx => by cases hx⟩
  | call h => exact ⟨_, _, _, [], h, (List.append_nil _).symm, .call, fun x hx => by cases hx⟩
  | askFail h => exact ⟨_, _, _, [], h, (List.append_nil _).symm, .ask, fun x hx => by cases hx⟩
  | ask h => exact ⟨_, _, _, [], h, (List.append_nil _).symm, .ask, fun x hx => by cases hx⟩
  | read h => exact ⟨_, _, _, [], h, (List.append_nil _).symm, .read, fun x hx => by cases hx⟩
  | copy h => exact ⟨_, _, _, [], h, (List.append_nil _).symm, .copy, fun x hx => by cases hx⟩
  | new h => exact ⟨_, _, _, [], h, (List.append_nil _).symm, .new, fun x hx => by cases hx⟩
  | answer h => exact ⟨_, _, _, [], h, (List.append_nil _).symm, .answer, fun x hx => by cases hx⟩
  | upd h => exact ⟨_, _, _, [], h, (List.append_nil _).symm, .upd, fun x hx => by cases hx⟩
  | setName h => exact ⟨_, _, _, [], h, (List.append_nil _).symm, .setName, fun x hx => by cases hx⟩
  | pick x h => exact ⟨_, _, _, [], h, (List.append_nil _).symm, .pick, fun x hx => by cases hx⟩
  | chan h => exact ⟨_, _, _, [], h, (List.append_nil _).symm, .chan, fun x hx => by cases hx⟩
  | send h _ => exact ⟨_, _, _, [], h, (List.append_nil _).symm, .send, fun x hx => by cases hx⟩
  | recv h _ => exact ⟨_, _, _, [], h, (List.append_nil _).symm, .recv, fun x hx => by cases hx⟩
  | lead h => exact ⟨_, _, _, [], h, (List.append_nil _).symm, .lead, fun x hx => by cases hx⟩
  | join h _ => exact ⟨_, _, _, [], h, (List.append_nil _).symm, .join, fun x hx => by cases hx⟩
  | wait h _ => exact ⟨_, _, _, [], h, (List.append_nil _).symm, .wait, fun x hx => by cases hx⟩
  | land h _ => exact ⟨_, _, _, [], h, (List.append_nil _).symm, .land, fun x hx => by cases hx⟩

/-- In a collection of things, one is replaced by any number of smaller ones. -/
private def Smaller {α : Type 1} (R : α → α → Prop) (l' l : List α) : Prop := ∃ a l1 new, l.Perm (a :: l1) ∧ l'.Perm (new ++ l1) ∧ ∀ x ∈ new, R x a

private theorem smaller_perm {α : Type 1} {R : α → α → Prop} {l l' : List α} (hp : l.Perm l') (h : Acc (Smaller R) l) : Acc (Smaller R) l' := by
  refine ⟨_, fun x hx => h.inv ?_⟩
  obtain ⟨a, l1, new, h1, h2, h3⟩ := hx
  exact ⟨a, l1, new, hp.trans h1, h2, h3⟩

private theorem smaller_cons {α : Type 1} {R : α → α → Prop} {a : α} (ha : Acc R a) : ∀ l, Acc (Smaller R) l → Acc (Smaller R) (a :: l) := by
  induction ha with
  | intro a _ iha =>
    intro l hl
    induction hl with
    | intro l hl ihl =>
      refine ⟨_, fun x hx => ?_⟩
      obtain ⟨b, l1, new, h1, h2, h3⟩ := hx
      have hb : b ∈ a :: l := h1.symm.subset (List.mem_cons_self ..)
      refine smaller_perm h2.symm ?_
      rcases List.mem_cons.1 hb with rfl | hb
      · have hl1 : Acc (Smaller R) l1 := smaller_perm h1.cons_inv ⟨_, hl⟩
        clear h2 hb h1
        induction new with
        | nil => exact hl1
        | cons y new ih => exact iha y (h3 y (List.mem_cons_self ..)) _ (ih fun x hx => h3 x (List.mem_cons_of_mem _ hx))
      · obtain ⟨u, v, rfl⟩ := List.append_of_mem hb
        have h4 : (u ++ b :: v).Perm (b :: (u ++ v)) := List.perm_middle
        have h5 : l1.Perm (a :: (u ++ v)) := by
          have : (b :: l1).Perm (b :: a :: (u ++ v)) := h1.symm.trans ((h4.cons a).trans (.swap ..))
          exact this.cons_inv
        refine smaller_perm ?_ (ihl (new ++ (u ++ v)) ⟨b, u ++ v, new, h4, .refl _, h3⟩)
        exact (List.perm_middle.symm).trans (h5.symm.append_left new)

private theorem smaller_acc {α : Type 1} {R : α → α → Prop} : ∀ l : List α, (∀ x ∈ l, Acc R x) → Acc (Smaller R) l := by
  intro l
  induction l with
  | nil =>
    refine fun _ => ⟨_, fun x hx => ?_⟩
    obtain ⟨a, l1, new, h1, _⟩ := hx
    exact absurd h1.length_eq (by simp)
  | cons x l ih => exact fun h => smaller_cons (h x (List.mem_cons_self ..)) l (ih fun y hy => h y (List.mem_cons_of_mem _ hy))

private theorem acc_done {r : Option Ptr} : Acc Succ (⟨.ret r, []⟩ : Thread H) := ⟨_, fun _ h => by cases h⟩

private theorem acc_prog {n : Tree H} (hn : ∀ t, Child n t → ∀ m ci st, (∀ r, Acc Succ ⟨.ret r, st⟩) → Acc Succ ⟨code t m ci, st⟩) (p : Prog H) :
    ∀ {d : Duty} {cr : Option (Nat × Nat)} {st : List (Option Ptr → Prog H)}, Live True n (fun _ => True) d cr p → (∀ r, Acc Succ ⟨.ret r, st⟩) → Acc Succ ⟨p, st⟩ := by
  induction p with
  | ret r => exact fun _ h => h r
  | stop => exact fun _ _ => ⟨_, fun _ h => by cases h⟩
  | call t m ci k ih =>
    refine fun hl h => ⟨_, fun _ hs => ?_⟩
    cases hs
    refine hn t hl.1 m ci _ fun r => ⟨_, fun _ hs => ?_⟩
    cases hs
    exact ih r (hl.2.2 r) h
  | ask i m ci k ih => exact fun hl h => ⟨_, fun _ hs => by cases hs; exact ih _ (hl _) h⟩
  | read m k ih => exact fun hl h => ⟨_, fun _ hs => by cases hs; exact ih _ (hl _) h⟩
  | copy m f k ih => exact fun hl h => ⟨_, fun _ hs => by cases hs; exact ih _ (hl _) h⟩
  | new v k ih => exact fun hl h => ⟨_, fun _ hs => by cases hs; exact ih _ (hl _) h⟩
  | answer m v k ih => exact fun hl h => ⟨_, fun _ hs => by cases hs; exact ih _ (hl _) h⟩
  | upd a f k ih => exact fun hl h => ⟨_, fun _ hs => by cases hs; exact ih hl h⟩
  | setName a x k ih => exact fun hl h => ⟨_, fun _ hs => by cases hs; exact ih hl h⟩
  | pick α k ih => exact fun hl h => ⟨_, fun _ hs => by cases hs; exact ih _ (hl.2 _) h⟩
  | goShare m p k ih1 ih2 =>
    rintro d cr st ⟨c, j, _, hl1, hl2⟩ h
    exact ⟨_, fun _ hs => by
      cases hs with
      | goShare => exact ih2 hl2 h
      | shared => exact ih1 _ (hl1 _) fun _ => acc_done⟩
  | goCopy m f p k ih1 ih2 =>
    rintro d cr st ⟨hl1, hl2⟩ h
    exact ⟨_, fun _ hs => by
      cases hs with
      | goCopy => exact ih2 hl2 h
      | copied => exact ih1 _ (hl1 _ _) fun _ => acc_done⟩
  | chan k ih => exact fun hl h => ⟨_, fun _ hs => by cases hs; exact ih _ (hl.2.2 _) h⟩
  | send c r k ih => exact fun hl h => ⟨_, fun _ hs => by cases hs; exact ih hl.2 h⟩
  | recv c k ih =>
    rintro d cr st ⟨_, j, _, hl⟩ h
    exact ⟨_, fun _ hs => by cases hs; exact ih _ (hl _) h⟩
  | enter t old new ih1 ih2 =>
    rintro d cr st ⟨_, _, hl1, hl2⟩ h
    exact ⟨_, fun _ hs => by
      cases hs with
      | lead => exact ih2 _ (hl2 _) h
      | join => exact ⟨_, fun _ hs => by cases hs; exact ih1 _ (hl1 _) h⟩⟩
  | wait f k ih => exact fun hl h => ⟨_, fun _ hs => by cases hs; exact ih _ (hl.2.2 _) h⟩
  | land f r k ih => exact fun hl h => ⟨_, fun _ hs => by cases hs; exact ih hl.2 h⟩

private theorem acc_code (t : Tree H) : ∀ m ci st, (∀ r, Acc Succ ⟨.ret r, st⟩) → Acc Succ ⟨code t m ci, st⟩ := by
  have ht := child_acc t
  induction ht with
  | intro t _ ih => exact fun m ci st h => acc_prog (n := t) ih _ (live_code t ci (.inl trivial)) h

private theorem perm_at {α : Type 1} : ∀ (l : List α) (i : Nat) (x : α), l[i]? = some x → ∃ rest, l.Perm (x :: rest) ∧ ∀ y, (l.set i y).Perm (y :: rest) := by
  intro l
  induction l with
  | nil => intro i x h; cases h
  | cons a l ih =>
    intro i x h
    cases i with
    | zero => cases h; exact ⟨l, .refl _, fun y => .refl _⟩
    | succ i =>
      obtain ⟨rest, h1, h2⟩ := ih i x h
      exact ⟨a :: rest, (h1.cons a).trans (.swap ..), fun y => ((h2 y).cons a).trans (.swap ..)⟩

private theorem acc_steps (roots : List (Root H)) : Acc (fun b a : St H => Step a b) (init roots) := by
  have h : Acc (Smaller Succ) (init roots).threads := by
    refine smaller_acc _ fun x hx => ?_
    obtain ⟨i, hi⟩ := List.mem_iff_getElem?.1 hx
    simp only [init, List.getElem?_mapIdx, Option.map_eq_some_iff] at hi
    obtain ⟨r, -, rfl⟩ := hi
    refine ⟨_, fun _ hs => ?_⟩
    cases hs
    exact acc_code _ _ _ _ fun r => ⟨_, fun _ hs => by cases hs; exact acc_done⟩
  generalize init roots = a at h
  generalize hl : a.threads = l at h
  induction h generalizing a with
  | intro l _ ih =>
    subst hl
    refine ⟨_, fun b hb => ih b.threads ?_ b rfl⟩
    obtain ⟨i, th, th', new, h1, h2, h3, h4⟩ := step_succ hb
    obtain ⟨rest, h5, h6⟩ := perm_at a.threads i th h1
    refine ⟨th, rest, th' :: new, h5, ?_, ?_⟩
    · rw [h2]
      exact ((h6 th').append_right new).trans ((List.perm_append_comm (l₁ := rest)).cons th')
    · intro x hx
      rcases List.mem_cons.1 hx with rfl | hx
      · exact h3
      · exact h4 x hx

/-- C94: no run of the program goes on for ever. -/
theorem no_endless_run (roots : List (Root H)) (run : Nat → St H) (h0 : run 0 = init roots) : ¬ ∀ n, Step (run n) (run (n + 1)) := by
  intro h
  have key : ∀ a : St H, Acc (fun b a : St H => Step a b) a → ∀ n, run n ≠ a := by
    intro a ha
    induction ha with
    | intro a _ ih =>
      rintro n rfl
      exact ih (run (n + 1)) (h n) (n + 1) rfl
  exact key _ (acc_steps roots) 0 h0

/-! ### No run stops too early -/

private def Kept (n : Tree H) : Prop := ∀ c, Child n c → Tended c

private def Frames (fl : List (Tree H × Option (Option Ptr))) : Tree H → List (Tree H × Duty) → List (Option Ptr → Prog H) → Prop
  | _, [], [] => True
  | n, (n', d) :: fs, k :: st => Child n' n ∧ Kept n' ∧ (∀ r, Live False n' (Begun fl n') d none (k r)) ∧ Frames fl n' fs st
  | _, _, _ => False

private structure Typed (fl : List (Tree H × Option (Option Ptr))) (g : Ghost H) (th : Thread H) : Prop where
  kept : Kept g.node
  prog : Live False g.node (Begun fl g.node) g.duty g.cr th.prog
  frames : Frames fl g.node g.frames th.stack

private structure Inv (s : St H) (gs : List (Ghost H)) (cn : List (Tree H)) : Prop where
  book : Book s gs cn
  typed : ∀ (i : Nat) (g : Ghost H) (th : Thread H), gs[i]? = some g → s.threads[i]? = some th → Typed s.flights g th

section
variable {fl fl' : List (Tree H × Option (Option Ptr))} {g g' : Ghost H} {s : St H} {gs : List (Ghost H)} {cn : List (Tree H)}

private theorem frames_mono (h : ∀ n f, Begun fl n f → Begun fl' n f) : ∀ (fs : List (Tree H × Duty)) (st : List (Option Ptr → Prog H)) (n : Tree H), Frames fl n fs st → Frames fl' n fs st := by
  intro fs
  induction fs with
  | nil =>
    intro st n hf
    cases st with
    | nil => trivial
    | cons k st => exact hf.elim
  | cons x fs ih =>
    intro st n hf
    cases st with
    | nil => exact hf.elim
    | cons k st => exact ⟨hf.1, hf.2.1, fun r => live_mono (h _) _ (hf.2.2.1 r), ih st _ hf.2.2.2⟩

private theorem typed_mono {th : Thread H} (h : ∀ n f, Begun fl n f → Begun fl' n f) (ht : Typed fl g th) : Typed fl' g th :=
  ⟨ht.kept, live_mono (h _) _ ht.prog, frames_mono h _ _ _ ht.frames⟩

private theorem ghost_of (hi : Inv s gs cn) {i : Nat} {th : Thread H} (h : s.threads[i]? = some th) : ∃ g, gs[i]? = some g ∧ Typed s.flights g th := by
  have hl := (List.getElem?_eq_some_iff.1 h).1
  rw [← hi.book.len] at hl
  exact ⟨gs[i], List.getElem?_eq_getElem hl, hi.typed i _ th (List.getElem?_eq_getElem hl) h⟩

private theorem typed_set {i : Nat} {th' : Thread H} (hi : Inv s gs cn) (hm : ∀ n f, Begun s.flights n f → Begun fl' n f) (ht : Typed fl' g' th') :
    ∀ (j : Nat) (x : Ghost H) (th : Thread H), (gs.set i g')[j]? = some x → (s.threads.set i th')[j]? = some th → Typed fl' x th := by
  intro j x th h1 h2
  rcases get_set h1 with ⟨rfl, rfl⟩ | ⟨hj, h1⟩
  · rcases get_set h2 with ⟨_, rfl⟩ | ⟨hj, _⟩
    · exact ht
    · exact absurd rfl hj
  · rcases get_set h2 with ⟨hj', _⟩ | ⟨_, h2⟩
    · exact absurd hj' hj
    · exact typed_mono hm (hi.typed j x th h1 h2)

private theorem typed_add {ths : List (Thread H)} {th' : Thread H} (hl : gs.length = ths.length)
    (h : ∀ (j : Nat) (x : Ghost H) (th : Thread H), gs[j]? = some x → ths[j]? = some th → Typed fl x th) (ht : Typed fl g' th') :
    ∀ (j : Nat) (x : Ghost H) (th : Thread H), (gs ++ [g'])[j]? = some x → (ths ++ [th'])[j]? = some th → Typed fl x th := by
  intro j x th h1 h2
  rcases get_add h1 with ⟨rfl, rfl⟩ | h1
  · rcases get_add h2 with ⟨_, rfl⟩ | h2
    · exact ht
    · have := (List.getElem?_eq_some_iff.1 h2).1
      omega
  · rcases get_add h2 with ⟨rfl, rfl⟩ | h2
    · have := (List.getElem?_eq_some_iff.1 h1).1
      omega
    · exact h j x th h1 h2

/-- A step that neither sends, receives, begins nor ends anything that others wait for -/
private theorem inv_plain {s' : St H} {i : Nat} {th' : Thread H} (hi : Inv s gs cn) (hg : gs[i]? = some g) (hth : s'.threads = s.threads.set i th') (hch : s'.chans = s.chans)
    (hfl : s'.flights = s.flights) (ht : Typed s.flights g' th') (hd : ∀ n d, (∀ c, d = .chan c → (n, d) ∈ g'.duties → (n, d) ∈ g.duties) ∧ (∀ f, d = .flight f → ((n, d) ∈ g'.duties ↔ (n, d) ∈ g.duties)))
    (hc : ∀ c, cnt c g' = cnt c g) (hcr : g'.cr = none ∨ (g'.cr = g.cr ∧ g'.node = g.node)) : Inv s' (gs.set i g') cn := by
  refine ⟨book_plain hi.book hg (by rw [hth, List.length_set]) hch hfl hd hc hcr, ?_⟩
  rw [hth, hfl]
  exact typed_set hi (fun _ _ h => h) ht

/-- A step within `Resolve` of one element -/
private theorem inv_same {s' : St H} {i : Nat} {th' : Thread H} (hi : Inv s gs cn) (hg : gs[i]? = some g) (hth : s'.threads = s.threads.set i th') (hch : s'.chans = s.chans)
    (hfl : s'.flights = s.flights) (ht : Typed s.flights g th') : ∃ gs' cn', Inv s' gs' cn' :=
  ⟨_, _, inv_plain hi hg hth hch hfl ht (fun _ _ => ⟨fun _ _ h => h, fun _ _ => .rfl⟩) (fun _ => rfl) (.inr ⟨rfl, rfl⟩)⟩

private theorem inv_step {s' : St H} (hi : Inv s gs cn) (hs : Step s s') : ∃ gs' cn', Inv s' gs' cn' := by
  cases hs with
  | @ret i r k st h =>
    obtain ⟨⟨n, d, cr, fs, es⟩, hg, ht⟩ := ghost_of hi h
    have hf := ht.frames
    have hp : d = .nothing := ht.prog
    subst hp
    cases fs with
    | nil => exact hf.elim
    | cons x fs =>
      obtain ⟨n', d'⟩ := x
      obtain ⟨_, h2, h3, h4⟩ := hf
      refine ⟨_, _, inv_plain (g' := ⟨n', d', none, fs, es⟩) hi hg rfl rfl rfl ⟨h2, h3 r, h4⟩ (fun m e => ⟨fun c _ hm => ?_, fun f hf => ?_⟩) (fun c => ?_) (.inl rfl)⟩
      · exact List.mem_cons_of_mem _ hm
      · subst hf
        refine ⟨fun hm => List.mem_cons_of_mem _ hm, fun hm => ?_⟩
        rcases List.mem_cons.1 hm with hm | hm
        · cases hm
        · exact hm
      · simp only [cnt, Ghost.duties, List.countP_cons, isChan]; simp
  | @call i t m ci k st h =>
    obtain ⟨⟨n, d, cr, fs, es⟩, hg, ht⟩ := ghost_of hi h
    obtain ⟨h1, h2, h3⟩ := ht.prog
    cases h2
    have h4 := ht.kept t h1
    refine ⟨_, _, inv_plain (g' := ⟨t, .nothing, none, (n, d) :: fs, es⟩) hi hg rfl rfl rfl
      ⟨fun c hc u hu => h4 u (.deeper hc hu), live_code t ci (.inr (h4 t .self)), h1, ht.kept, h3, ht.frames⟩ (fun m e => ⟨fun c hc hm => ?_, fun f hf => ?_⟩) (fun c => ?_) (.inl rfl)⟩
    · subst hc
      rcases List.mem_cons.1 hm with hm | hm
      · cases hm
      · exact hm
    · subst hf
      refine ⟨fun hm => ?_, fun hm => List.mem_cons_of_mem _ hm⟩
      rcases List.mem_cons.1 hm with hm | hm
      · cases hm
      · exact hm
    · simp only [cnt, Ghost.duties, List.countP_cons, isChan]; simp
  | askFail h =>
    obtain ⟨g, hg, ht⟩ := ghost_of hi h
    exact inv_same hi hg rfl rfl rfl ⟨ht.kept, ht.prog _, ht.frames⟩
  | ask h =>
    obtain ⟨g, hg, ht⟩ := ghost_of hi h
    exact inv_same hi hg rfl rfl rfl ⟨ht.kept, ht.prog _, ht.frames⟩
  | read h =>
    obtain ⟨g, hg, ht⟩ := ghost_of hi h
    exact inv_same hi hg rfl rfl rfl ⟨ht.kept, ht.prog _, ht.frames⟩
  | copy h =>
    obtain ⟨g, hg, ht⟩ := ghost_of hi h
    exact inv_same hi hg rfl rfl rfl ⟨ht.kept, ht.prog _, ht.frames⟩
  | new h =>
    obtain ⟨g, hg, ht⟩ := ghost_of hi h
    exact inv_same hi hg rfl rfl rfl ⟨ht.kept, ht.prog _, ht.frames⟩
  | answer h =>
    obtain ⟨g, hg, ht⟩ := ghost_of hi h
    exact inv_same hi hg rfl rfl rfl ⟨ht.kept, ht.prog _, ht.frames⟩
  | upd h =>
    obtain ⟨g, hg, ht⟩ := ghost_of hi h
    exact inv_same hi hg rfl rfl rfl ⟨ht.kept, ht.prog, ht.frames⟩
  | setName h =>
    obtain ⟨g, hg, ht⟩ := ghost_of hi h
    exact inv_same hi hg rfl rfl rfl ⟨ht.kept, ht.prog, ht.frames⟩
  | pick x h =>
    obtain ⟨g, hg, ht⟩ := ghost_of hi h
    exact inv_same hi hg rfl rfl rfl ⟨ht.kept, ht.prog.2 x, ht.frames⟩
  | @join i t old new st f o h hf =>
    obtain ⟨g, hg, ht⟩ := ghost_of hi h
    obtain ⟨h1, rfl, h3, h4⟩ := ht.prog
    exact inv_same hi hg rfl rfl rfl ⟨ht.kept, ⟨h1, ⟨o, hf⟩, h3⟩, ht.frames⟩
  | wait h _ =>
    obtain ⟨g, hg, ht⟩ := ghost_of hi h
    exact inv_same hi hg rfl rfl rfl ⟨ht.kept, ht.prog.2.2 _, ht.frames⟩
  | @goShare i m p k st h =>
    obtain ⟨⟨n, d, cr, fs, es⟩, hg, ht⟩ := ghost_of hi h
    obtain ⟨c, j, h1, h2, h3⟩ := ht.prog
    cases h1
    refine ⟨_, _, book_share (es' := es) (es'' := []) hi.book hg (by simp) rfl rfl, ?_⟩
    exact typed_add (by simp only [List.length_set]; exact hi.book.len) (typed_set (s := s) hi (fun _ _ h => h) ⟨ht.kept, h3, ht.frames⟩) ⟨ht.kept, h2 _, trivial⟩
  | @goCopy i m f p k st h =>
    obtain ⟨⟨n, d, cr, fs, es⟩, hg, ht⟩ := ghost_of hi h
    obtain ⟨h2, h3⟩ := ht.prog
    have hset : gs.set i ⟨n, d, cr, fs, es⟩ = gs := by
      apply List.ext_getElem?
      intro j
      rw [List.getElem?_set]
      split
      · next hij => subst hij; rw [hg, if_pos (List.getElem?_eq_some_iff.1 hg).1]
      · rfl
    refine ⟨_, _, book_start (n := n) (es := []) hi.book (by simp) rfl rfl, ?_⟩
    refine typed_add (by simp only [List.length_set]; exact hi.book.len) ?_ ⟨ht.kept, h2 _ _, trivial⟩
    have := typed_set (g' := ⟨n, d, cr, fs, es⟩) (th' := ⟨k, st⟩) (i := i) hi (fun _ _ h => h) ⟨ht.kept, h3, ht.frames⟩
    rwa [hset] at this
  | @chan i k st h =>
    obtain ⟨⟨n, d, cr, fs, es⟩, hg, ht⟩ := ghost_of hi h
    obtain ⟨h1, h2, h3⟩ := ht.prog
    cases h1
    cases h2
    exact ⟨_, _, book_chan (es' := es) hi.book hg (by simp [St.go]) rfl rfl, typed_set (s := s) hi (fun _ _ h => h) ⟨ht.kept, h3 _, ht.frames⟩⟩
  | @send i c r k st l h hc =>
    obtain ⟨⟨n, d, cr, fs, es⟩, hg, ht⟩ := ghost_of hi h
    obtain ⟨h1, h2⟩ := ht.prog
    cases h1
    exact ⟨_, _, book_send (es' := es) hi.book hg hc (by simp [St.go]) rfl rfl, typed_set (s := s) hi (fun _ _ h => h) ⟨ht.kept, h2, ht.frames⟩⟩
  | @recv i c k st r l h hc =>
    obtain ⟨⟨n, d, cr, fs, es⟩, hg, ht⟩ := ghost_of hi h
    obtain ⟨h1, j, h2, h3⟩ := ht.prog
    cases h1
    rcases h2 with h2 | h2
    · exact h2.elim
    cases h2
    exact ⟨_, _, book_recv (es' := es) hi.book hg hc (by simp [St.go]) rfl rfl, typed_set (s := s) hi (fun _ _ h => h) ⟨ht.kept, h3 _, ht.frames⟩⟩
  | @lead i t old new st h =>
    obtain ⟨⟨n, d, cr, fs, es⟩, hg, ht⟩ := ghost_of hi h
    obtain ⟨h1, h2, h3, h4⟩ := ht.prog
    cases h1
    subst h2
    have hm : ∀ n f, Begun s.flights n f → Begun (s.flights ++ [(t, none)]) n f := fun n f ⟨o, ho⟩ => ⟨o, add_get ho⟩
    exact ⟨_, _, book_lead (es' := es) hi.book hg (by simp [St.go]) rfl rfl, typed_set (s := s) hi hm ⟨ht.kept, live_mono (hm t) _ (h4 _), frames_mono hm _ _ _ ht.frames⟩⟩
  | @land i f r k st t o h hf =>
    obtain ⟨⟨n, d, cr, fs, es⟩, hg, ht⟩ := ghost_of hi h
    obtain ⟨h1, h2⟩ := ht.prog
    cases h1
    have hm : ∀ n f', Begun s.flights n f' → Begun (s.flights.set f (t, some r)) n f' := by
      rintro n f' ⟨o', ho'⟩
      by_cases hff : f' = f
      · subst hff
        rw [hf] at ho'
        cases ho'
        exact ⟨some r, set_get hf⟩
      · exact ⟨o', set_other hff ho'⟩
    exact ⟨_, _, book_land (es' := es) hi.book hg hf (by simp [St.go]) rfl rfl, typed_set (s := s) hi hm ⟨ht.kept, live_mono (hm n) _ h2, frames_mono hm _ _ _ ht.frames⟩⟩

private theorem inv_reach {roots : List (Root H)} (hr : ∀ r ∈ roots, Tended r.tree) {s : St H} (hs : Steps (init roots) s) : ∃ gs cn, Inv s gs cn := by
  have h0 : ∃ gs cn, Inv (init roots) gs cn := by
    refine ⟨roots.map fun r => ⟨.queryLog r.tree, .nothing, none, [], []⟩, [], book_init _ (by simp [init]) rfl rfl ?_, ?_⟩
    · intro i g h1
      simp only [List.getElem?_map, Option.map_eq_some_iff] at h1
      obtain ⟨r, _, rfl⟩ := h1
      exact ⟨rfl, _, rfl⟩
    · intro i g th h1 h2
      simp only [List.getElem?_map, Option.map_eq_some_iff] at h1
      simp only [init, List.getElem?_mapIdx, Option.map_eq_some_iff] at h2
      obtain ⟨r, h3, rfl⟩ := h1
      obtain ⟨r', h4, rfl⟩ := h2
      rw [h3] at h4; cases h4
      refine ⟨fun c hc => ?_, ⟨rfl, rfl, fun _ => rfl⟩, trivial⟩
      cases hc
      exact hr r (List.mem_of_getElem? h3)
  generalize init roots = a at hs h0
  induction hs with
  | refl => exact h0
  | step _ h ih =>
    obtain ⟨gs, cn, hi⟩ := ih
    exact inv_step hi h

/-- Waiting for somebody else -/
private def Waits : Prog H → Prop
  | .recv _ _ => True
  | .wait _ _ => True
  | _ => False

/-- One who neither waits nor is done can go on. -/
private theorem can_step (hi : Inv s gs cn) {i : Nat} {p : Prog H} {st : List (Option Ptr → Prog H)} (h : s.threads[i]? = some ⟨p, st⟩) (hw : ¬ Waits p) (hp : p ≠ .stop)
    (hd : ∀ r, p = .ret r → st ≠ []) : ∃ s', Step s s' := by
  obtain ⟨g, hg, ht⟩ := ghost_of hi h
  cases p with
  | ret r =>
    cases st with
    | nil => exact absurd rfl (hd r rfl)
    | cons k st => exact ⟨_, .ret h⟩
  | stop => exact absurd rfl hp
  | call t m ci k => exact ⟨_, .call h⟩
  | ask n m ci k => exact ⟨_, .askFail h⟩
  | read m k => exact ⟨_, .read h⟩
  | copy m f k => exact ⟨_, .copy h⟩
  | new v k => exact ⟨_, .new h⟩
  | answer m v k => exact ⟨_, .answer h⟩
  | upd a f k => exact ⟨_, .upd h⟩
  | setName a n k => exact ⟨_, .setName h⟩
  | pick α k =>
    rcases ht.prog.1 with h1 | ⟨⟨x⟩⟩
    · exact h1.elim
    · exact ⟨_, .pick x h⟩
  | goShare m p k => exact ⟨_, .goShare h⟩
  | goCopy m f p k => exact ⟨_, .goCopy h⟩
  | chan k => exact ⟨_, .chan h⟩
  | send c r k =>
    have h1 := hi.book.sends i g g.node c hg (by rw [← ht.prog.1]; exact List.mem_cons_self ..)
    have h2 := (List.getElem?_eq_some_iff.1 h1).1
    rw [hi.book.clen] at h2
    exact ⟨_, .send h (List.getElem?_eq_getElem h2)⟩
  | recv c k => exact absurd trivial hw
  | enter t old new => exact ⟨_, .lead h⟩
  | wait f k => exact absurd trivial hw
  | land f r k =>
    obtain ⟨o, ho⟩ := hi.book.lands i g g.node f hg (by rw [← ht.prog.1]; exact List.mem_cons_self ..)
    exact ⟨_, .land h ho⟩

private theorem duty_waits {n : Tree H} {F : Nat → Prop} {d : Duty} {cr : Option (Nat × Nat)} {p : Prog H} (h : Live False n F d cr p) (hd : d ≠ .nothing) : ¬ Waits p ∧ ∀ r, p ≠ .ret r := by
  cases p with
  | ret r => exact absurd h hd
  | recv c k => exact absurd h.1 hd
  | wait f k => exact absurd h.1 hd
  | _ => exact ⟨id, fun r hr => by cases hr⟩

private theorem frames_below : ∀ (fs : List (Tree H × Duty)) (st : List (Option Ptr → Prog H)) (n : Tree H), Frames fl n fs st → ∀ n' d, (n', d) ∈ fs → ∃ c, Child n' c ∧ Within c n := by
  intro fs
  induction fs with
  | nil => intro st n _ n' d h; cases h
  | cons x fs ih =>
    intro st n hf n' d hm
    cases st with
    | nil => exact hf.elim
    | cons k st =>
      obtain ⟨h1, _, _, h2⟩ := hf
      rcases List.mem_cons.1 hm with rfl | hm
      · exact ⟨n, h1, .self⟩
      · obtain ⟨c, h3, h4⟩ := ih st _ h2 n' d hm
        exact ⟨c, h3, within_child h4 h1⟩

private theorem none_waits (hi : Inv s gs cn) (hstuck : ∀ s', ¬ Step s s') (hp : ∀ (i : Nat) (st : List (Option Ptr → Prog H)), s.threads[i]? ≠ some ⟨.stop, st⟩) (t : Tree H) :
    ∀ u, Within t u → ∀ (i : Nat) (g : Ghost H) (th : Thread H), gs[i]? = some g → s.threads[i]? = some th → g.node = u → ¬ Waits th.prog := by
  have ht := child_acc t
  induction ht with
  | intro t _ ih =>
    intro u hu
    cases hu with
    | deeper hc hu => exact ih _ hc u hu
    | self =>
      -- whoever owes something at `t` can go on
      have helper : ∀ (i : Nat) (g : Ghost H) (d : Duty), gs[i]? = some g → (t, d) ∈ g.duties → d ≠ .nothing → False := by
        intro i g d hg hm hd
        have hl := (List.getElem?_eq_some_iff.1 hg).1
        rw [hi.book.len] at hl
        have hth := List.getElem?_eq_getElem hl
        generalize s.threads[i] = th at hth
        obtain ⟨p, st⟩ := th
        have hty := hi.typed i g _ hg hth
        have hns : p ≠ .stop := fun h => hp i st (by rw [← h]; exact hth)
        rcases List.mem_cons.1 hm with hm | hm
        · cases hm
          obtain ⟨h1, h2⟩ := duty_waits hty.prog hd
          obtain ⟨s', hs'⟩ := can_step hi hth h1 hns fun r hr => absurd hr (h2 r)
          exact hstuck s' hs'
        · obtain ⟨c, h1, h2⟩ := frames_below _ _ _ hty.frames t d hm
          have h3 := ih c h1 _ h2 i g _ hg hth rfl
          obtain ⟨s', hs'⟩ := can_step hi hth h3 hns fun r _ hst => by
            have hf := hty.frames
            dsimp only at hf
            rw [hst] at hf
            cases hfs : g.frames with
            | nil => rw [hfs] at hm; cases hm
            | cons x fs => rw [hfs] at hf; exact hf.elim
          exact hstuck s' hs'
      rintro i g ⟨p, st⟩ hg hth rfl hw
      have hty := hi.typed i g _ hg hth
      cases p with
      | recv c k =>
        obtain ⟨_, j, h1, _⟩ := hty.prog
        rcases h1 with h1 | h1
        · exact h1
        obtain ⟨h2, h3⟩ := hi.book.credit i g c (j + 1) hg h1
        have h4 := (List.getElem?_eq_some_iff.1 h2).1
        rw [hi.book.clen] at h4
        have h5 := List.getElem?_eq_getElem h4
        have h6 := h3 _ h5
        generalize s.chans[c] = l at h5 h6
        cases l with
        | cons r l => exact hstuck _ (.recv hth h5)
        | nil =>
          simp only [List.length_nil] at h6
          obtain ⟨i', g', h7, h8⟩ := owed_pos gs (show 0 < owed c gs by omega)
          obtain ⟨⟨n', d'⟩, h9, h10⟩ := List.countP_pos_iff.1 h8
          cases d' with
          | nothing => cases h10
          | flight f => cases h10
          | chan c' =>
            have h11 : c' = c := by simpa [isChan] using h10
            subst h11
            have h12 := hi.book.sends i' g' n' c' h7 h9
            rw [h2] at h12; cases h12
            exact helper i' g' _ h7 h9 (fun h => by cases h)
      | wait f k =>
        obtain ⟨_, ⟨o, ho⟩, _⟩ := hty.prog
        cases o with
        | some r => exact hstuck _ (.wait hth ho)
        | none =>
          obtain ⟨i', g', h7, h9⟩ := hi.book.flown f _ ho
          exact helper i' g' _ h7 h9 (fun h => by cases h)
      | _ => exact hw

/-- C94: the program cannot come to a halt before every query has its reply and every goroutine has ended, unless one of them panicked. -/
theorem halts_only_done (roots : List (Root H)) (hr : ∀ r ∈ roots, Tended r.tree) (s : St H) (hs : Steps (init roots) s) (hstuck : ∀ s', ¬ Step s s')
    (hp : ∀ (i : Nat) (st : List (Option Ptr → Prog H)), s.threads[i]? ≠ some ⟨.stop, st⟩) (i : Nat) (th : Thread H) (hi : s.threads[i]? = some th) : ∃ r, th = ⟨.ret r, []⟩ := by
  obtain ⟨gs, cn, hinv⟩ := inv_reach hr hs
  obtain ⟨g, hg, ht⟩ := ghost_of hinv hi
  obtain ⟨p, st⟩ := th
  have hw := none_waits hinv hstuck hp g.node g.node .self i g _ hg hi rfl
  refine Classical.byContradiction fun hn => ?_
  obtain ⟨s', hs'⟩ := can_step hinv hi hw (fun h => hp i st (by rw [← h]; exact hi)) fun r h1 h2 => hn ⟨r, by rw [h1, h2]⟩
  exact hstuck s' hs'

end

private theorem done_halts {s : St H} (h : ∀ th ∈ s.threads, ∃ r, th = ⟨.ret r, []⟩) : ∀ s', ¬ Step s s' := by
  intro s' hs
  obtain ⟨i, th, th', _, h1, _, h2, _⟩ := step_succ hs
  obtain ⟨r, rfl⟩ := h th (List.mem_of_getElem? h1)
  cases h2

/-- C94: with any number of queries at the same time, however the goroutines take turns: if the program goes on as long as it can, there is a moment at which every query has its reply
(or was dropped, or failed) and every goroutine has ended, unless one of them panicked. -/
theorem every_query_ends (roots : List (Root H)) (hr : ∀ r ∈ roots, Tended r.tree) (run : Nat → St H) (h0 : run 0 = init roots)
    (hrun : ∀ n, Step (run n) (run (n + 1)) ∨ ((∀ s', ¬ Step (run n) s') ∧ run (n + 1) = run n)) :
    ∃ n, (∃ (i : Nat) (st : List (Option Ptr → Prog H)), (run n).threads[i]? = some ⟨.stop, st⟩) ∨ ∀ (i : Nat) (th : Thread H), (run n).threads[i]? = some th → ∃ r, th = ⟨.ret r, []⟩ := by
  have hreach : ∀ n, Steps (init roots) (run n) := by
    intro n
    induction n with
    | zero => rw [h0]; exact .refl
    | succ n ih =>
      rcases hrun n with h | ⟨_, h⟩
      · exact ih.step h
      · rw [h]; exact ih
  refine Classical.byContradiction fun hn => no_endless_run roots run h0 fun n => ?_
  rcases hrun n with h | ⟨h, _⟩
  · exact h
  · refine absurd ⟨n, ?_⟩ hn
    by_cases hp : ∃ (i : Nat) (st : List (Option Ptr → Prog H)), (run n).threads[i]? = some ⟨.stop, st⟩
    · exact .inl hp
    · exact .inr fun i th hi => halts_only_done roots hr (run n) (hreach n) h (fun i st hi => hp ⟨i, st, hi⟩) i th hi

private theorem one_thread {s : St H} {p p' : Prog H} {st st' : List (Option Ptr → Prog H)} {i : Nat} (ht : s.threads = [⟨p, st⟩]) (h : s.At i p' st') : i = 0 ∧ p' = p ∧ st' = st := by
  simp only [St.At, ht] at h
  match i with
  | 0 => cases h; exact ⟨rfl, rfl, rfl⟩
  | i + 1 => cases h

/-- C94, what the code does otherwise: a `fastest` group without members, which the configuration allows, waits for a message that nobody sends (fastest.go:51). -/
theorem empty_fastest_never_replies (member : Nat → Tree H) (q : Msg) (ci : ClientInfo) (s : St H) (hs : Steps (init [⟨.fastest 0 member, q, ci⟩]) s) (r : Option Ptr) :
    s.threads[0]? ≠ some ⟨.ret r, []⟩ := by
  have key : (s.threads = [⟨.call (.fastest 0 member) (rootPtr 0) ci .ret, []⟩] ∧ s.chans = []) ∨ (s.threads = [⟨.chan fun c => .recv c .ret, [.ret]⟩] ∧ s.chans = []) ∨
      (s.threads = [⟨.recv 0 .ret, [.ret]⟩] ∧ s.chans = [[]]) := by
    induction hs with
    | refl => exact .inl ⟨rfl, rfl⟩
    | @step b c _ h ih =>
      rcases ih with ⟨ht, hc⟩ | ⟨ht, hc⟩ | ⟨ht, hc⟩
      · cases h with
        | call h =>
          obtain ⟨rfl, hp, rfl⟩ := one_thread ht h
          cases hp
          exact .inr (.inl ⟨by simp only [St.go, ht]; rfl, hc⟩)
        | pick x h | send h _ | recv h _ | join h _ | wait h _ | land h _ => cases (one_thread ht h).2.1
        | _ h => cases (one_thread ht h).2.1
      · cases h with
        | chan h =>
          obtain ⟨rfl, hp, rfl⟩ := one_thread ht h
          cases hp
          exact .inr (.inr ⟨by simp only [St.go, ht, hc]; rfl, by simp only [St.go, hc]; rfl⟩)
        | pick x h | send h _ | recv h _ | join h _ | wait h _ | land h _ => cases (one_thread ht h).2.1
        | _ h => cases (one_thread ht h).2.1
      · cases h with
        | recv h hl =>
          obtain ⟨rfl, hp, rfl⟩ := one_thread ht h
          cases hp
          rw [hc] at hl
          cases hl
        | pick x h | send h _ | join h _ | wait h _ | land h _ => cases (one_thread ht h).2.1
        | _ h => cases (one_thread ht h).2.1
  rcases key with ⟨ht, _⟩ | ⟨ht, _⟩ | ⟨ht, _⟩ <;> rw [ht] <;> intro h <;> cases h

section Examples

/-- De-duplication above a `fastest` group of two servers -/
private def both : Tree Unit := .dedup (.fastest 2 .client)

private theorem both_tended : Tended both := by
  intro u hu
  cases hu with
  | self => trivial
  | deeper hc hu =>
    cases hc
    cases hu with
    | self => exact (by decide : 0 < 2)
    | deeper hc hu =>
      obtain ⟨i, rfl⟩ := hc
      cases hu with
      | self => trivial
      | deeper hc _ => exact hc.elim

private def one : Tree Unit := .dedup (.client 0)

private theorem one_tended : Tended one := by
  intro u hu
  cases hu with
  | self => trivial
  | deeper hc hu =>
    cases hc
    cases hu with
    | self => trivial
    | deeper hc _ => exact hc.elim

/-- Two clients have asked the same. The second waits for the first. All goroutines have ended, each client has a reply, the second one with the ID of its query. -/
example : ∃ s : St Unit, Steps (init [⟨one, {}, {}⟩, ⟨one, { id := 7 }, {}⟩]) s ∧ (∀ s', ¬ Step s s') ∧ (∀ r ∈ [(⟨one, {}, {}⟩ : Root Unit), ⟨one, { id := 7 }, {}⟩], Tended r.tree) ∧
    (∃ p p', s.threads = [⟨.ret (some p'), []⟩, ⟨.ret (some p), []⟩] ∧ (value s.heap p).id = 7) := by
  have h := Steps.refl (s := init [⟨one, {}, {}⟩, ⟨one, { id := 7 }, {}⟩])
  have h := h.step (.call (i := 0) rfl)
  have h := h.step (.call (i := 1) rfl)
  have h := h.step (.lead (i := 0) rfl)
  have h := h.step (.join (i := 1) (f := 0) rfl rfl)
  have h := h.step (.call (i := 0) rfl)
  have h := h.step (.ask (i := 0) (v := { response := true }) rfl)
  have h := h.step (.ret (i := 0) rfl)
  have h := h.step (.land (i := 0) (f := 0) rfl rfl)
  have h := h.step (.wait (i := 1) (f := 0) rfl rfl)
  have h := h.step (.read (i := 1) rfl)
  have h := h.step (.read (i := 1) rfl)
  have h := h.step (.answer (i := 1) rfl)
  have h := h.step (.ret (i := 1) rfl)
  have h := h.step (.read (i := 0) rfl)
  have h := h.step (.read (i := 0) rfl)
  have h := h.step (.answer (i := 0) rfl)
  have h := h.step (.ret (i := 0) rfl)
  have ht : ∃ s : St Unit, Steps (init [⟨one, {}, {}⟩, ⟨one, { id := 7 }, {}⟩]) s ∧ ∃ p p', s.threads = [⟨.ret (some p'), []⟩, ⟨.ret (some p), []⟩] ∧ (value s.heap p).id = 7 :=
    ⟨_, h, _, _, rfl, rfl⟩
  obtain ⟨s, hs, p, p', ht, hv⟩ := ht
  refine ⟨s, hs, done_halts ?_, ?_, p, p', ht, hv⟩
  · intro th hth
    rw [ht] at hth
    rcases List.mem_cons.1 hth with rfl | hth
    · exact ⟨_, rfl⟩
    · cases List.mem_singleton.1 hth; exact ⟨_, rfl⟩
  · intro r hr
    rcases List.mem_cons.1 hr with rfl | hr
    · exact one_tended
    · cases List.mem_singleton.1 hr; exact one_tended

end Examples

end Verif.Props.SharedEnds
