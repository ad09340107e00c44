import Verif.Model.Limits
import Verif.Spec.Limits
import Verif.Spec.Rate
import Verif.Props.Effort
import Verif.Props.Rate
/-
C116: rate limits protect servers in whole configurations.
-/
set_option linter.unusedSectionVars false
namespace Verif.Props.Limits
open Verif Verif.Composition Verif.Shared Verif.Limits Verif.Spec.Limits Verif.Props.Effort

variable {H : Type}

/-- a number that counts for clients in `K` only -/
private def w (K : ClientInfo → Bool) (ci : ClientInfo) (n : Nat) : Nat := if K ci then n else 0

private theorem w_mono {K : ClientInfo → Bool} {ci : ClientInfo} {a b : Nat} (h : a ≤ b) : w K ci a ≤ w K ci b := by unfold w; split <;> omega
private theorem w_zero {K : ClientInfo → Bool} {ci : ClientInfo} : w K ci 0 = 0 := by unfold w; split <;> rfl
private theorem w_add {K : ClientInfo → Bool} {ci : ClientInfo} {a b : Nat} : w K ci (a + b) = w K ci a + w K ci b := by unfold w; split <;> rfl
private theorem w_mul {K : ClientInfo → Bool} {ci : ClientInfo} {a b : Nat} : w K ci (a * b) = a * w K ci b := by unfold w; split <;> simp
private theorem w_sum {K : ClientInfo → Bool} {ci : ClientInfo} {c : Nat → Nat} {l : List Nat} : w K ci (l.map c).sum = (l.map fun i => w K ci (c i)).sum := by
  induction l with
  | nil => exact w_zero
  | cons x l ih => simp only [List.map_cons, List.sum_cons, w_add, ih]

/-- what a program asks at most, with all goroutines it starts, besides what the limiter lets through -/
private inductive PC (S : Nat → Prop) (K : ClientInfo → Bool) (hl : Bool) (t0 l0 : Tree H) : Prog H → Nat → Prop
  | ret {r n} : PC S K hl t0 l0 (.ret r) n
  | stop {n} : PC S K hl t0 l0 .stop n
  | call {t m ci k c n} : Causes S (.rateLimit hl t0 l0) t c → (∀ r, PC S K hl t0 l0 (k r) n) → PC S K hl t0 l0 (.call t m ci k) (w K ci c + n)
  | ask {i m ci k n} : S i → (∀ r, PC S K hl t0 l0 (k r) n) → PC S K hl t0 l0 (.ask i m ci k) (n + w K ci 1)
  | askOther {i m ci k n} : ¬ S i → (∀ r, PC S K hl t0 l0 (k r) n) → PC S K hl t0 l0 (.ask i m ci k) n
  | gate {m ci n} : PC S K hl t0 l0 (limited t0 l0 m ci (Rate.dest hl true)) n → PC S K hl t0 l0 (code (.rateLimit hl t0 l0) m ci) n
  | read {m k n} : (∀ v, PC S K hl t0 l0 (k v) n) → PC S K hl t0 l0 (.read m k) n
  | copy {m f k n} : (∀ p, PC S K hl t0 l0 (k p) n) → PC S K hl t0 l0 (.copy m f k) n
  | new {v k n} : (∀ p, PC S K hl t0 l0 (k p) n) → PC S K hl t0 l0 (.new v k) n
  | answer {m v k n} : (∀ p, PC S K hl t0 l0 (k p) n) → PC S K hl t0 l0 (.answer m v k) n
  | upd {a f k n} : PC S K hl t0 l0 k n → PC S K hl t0 l0 (.upd a f k) n
  | setName {a s k n} : PC S K hl t0 l0 k n → PC S K hl t0 l0 (.setName a s k) n
  | pick {α k n} : (∀ x, PC S K hl t0 l0 (k x) n) → PC S K hl t0 l0 (.pick α k) n
  | goShare {m p k a b} : (∀ x, PC S K hl t0 l0 (p x) a) → PC S K hl t0 l0 k b → PC S K hl t0 l0 (.goShare m p k) (a + b)
  | goCopy {m f p k a b} : (∀ x, PC S K hl t0 l0 (p x) a) → PC S K hl t0 l0 k b → PC S K hl t0 l0 (.goCopy m f p k) (a + b)
  | chan {k n} : (∀ x, PC S K hl t0 l0 (k x) n) → PC S K hl t0 l0 (.chan k) n
  | send {c r k n} : PC S K hl t0 l0 k n → PC S K hl t0 l0 (.send c r k) n
  | recv {c k n} : (∀ x, PC S K hl t0 l0 (k x) n) → PC S K hl t0 l0 (.recv c k) n
  | enter {t old new n} : (∀ x, PC S K hl t0 l0 (old x) n) → (∀ x, PC S K hl t0 l0 (new x) n) → PC S K hl t0 l0 (.enter t old new) n
  | wait {f k n} : (∀ x, PC S K hl t0 l0 (k x) n) → PC S K hl t0 l0 (.wait f k) n
  | land {f r k n} : PC S K hl t0 l0 k n → PC S K hl t0 l0 (.land f r k) n
  | weaken {p n m} : PC S K hl t0 l0 p n → n ≤ m → PC S K hl t0 l0 p m

variable {S : Nat → Prop} {K : ClientInfo → Bool} {hl : Bool} {t0 l0 : Tree H}

local notation "Bound" => PC S K hl t0 l0
local notation "Few" => Causes S (Tree.rateLimit hl t0 l0)

private theorem call_ret {t : Tree H} {m ci c} (h : Few t c) : Bound (.call t m ci .ret) (w K ci c) := .call (n := 0) h fun _ => .ret

private theorem onSome_pc {k : Ptr → Prog H} {n} (h : ∀ a, Bound (k a) n) : ∀ r, Bound (onSome k r) n
  | none => .ret
  | some a => h a

private theorem orStop_pc {α : Type} {k : α → Prog H} {n} (h : ∀ a, Bound (k a) n) : ∀ r, Bound (orStop k r) n
  | none => .stop
  | some a => h a

private theorem edit_pc {f : Msg → Msg} {a : Ptr} {n} : Bound (edit f a : Prog H) n := .upd .ret

private theorem give_pc {n} : ∀ x, Bound (give x : Prog H) n
  | none => .ret
  | some _ => .new fun _ => .ret

private theorem keepOrGive_pc {a : Ptr} {x n} : Bound (keepOrGive a x : Prog H) n := .pick fun keep => by
  cases keep
  · exact give_pc _
  · exact edit_pc

private theorem tryMembers_pc {member : Nat → Tree H} {q ci c} (h : ∀ i, Few (member i) c) : ∀ n last, Bound (tryMembers member q ci n last) (n * w K ci c)
  | 0, _ => .ret
  | n + 1, _ => by
    refine .pick fun i => .weaken (.call (h i) (n := n * w K ci c) fun r => .pick fun good => ?_) (by rw [Nat.succ_mul]; omega)
    cases good
    · exact tryMembers_pc h n r
    · exact .ret

private theorem tryCopies_pc {member : Nat → Tree H} {q ci c} (h : ∀ i, Few (member i) c) : ∀ n last, Bound (tryCopies member q ci n last) (n * w K ci c)
  | 0, _ => .ret
  | n + 1, _ => by
    refine .pick fun i => .copy fun _ => .weaken (.call (h i) (n := n * w K ci c) fun r => .pick fun good => ?_) (by rw [Nat.succ_mul]; omega)
    cases good
    · exact tryCopies_pc h n r
    · exact .ret

private theorem racer_pc {t : Tree H} {ci ch c} (h : Few t c) (q : Ptr) : Bound (racer t ci ch q) (w K ci c) := .copy fun _ => .call (n := 0) h fun _ => .send .ret

private theorem collect_pc {ch : Nat} : ∀ n, Bound (collect ch n : Prog H) 0
  | 0 => .recv fun _ => .ret
  | n + 1 => .recv fun r => .pick fun good => by
    cases good
    · simp only [Bool.false_eq_true, if_false]
      split
      · exact .ret
      · exact collect_pc n
    · exact .ret

private theorem startAll_pc {member : Nat → Tree H} {q ci ch} {k : Prog H} {c : Nat → Nat} (h : ∀ i, Few (member i) (c i)) (hk : Bound k 0) :
    ∀ n, Bound (startAll member q ci ch k n) ((List.range n).map fun i => w K ci (c i)).sum
  | 0 => hk
  | n + 1 => by
    refine .weaken (.goShare (fun x => racer_pc (h n) x) (startAll_pc h hk n)) ?_
    rw [List.range_succ, List.map_append, List.sum_append]
    simp only [List.map_cons, List.map_nil, List.sum_cons, List.sum_nil]
    omega

private theorem lookups_pc {t : Tree H} {q : Ptr} {k : Prog H} (h : Few t 0) (hk : Bound k 0) : ∀ n, Bound (lookups t q k n) 0
  | 0 => hk
  | n + 1 => .pick fun v => .copy fun _ => .weaken (.call (n := 0) h fun _ => lookups_pc h hk n) (by rw [w_zero]; omega)

private theorem code_pc {t : Tree H} {c : Nat} (h : Few t c) : ∀ q ci, Bound (code t q ci) (w K ci c) := by
  induction h with
  | weaken _ hle ih => intro q ci; exact .weaken (ih q ci) (w_mono hle)
  | server hs => intro q ci; exact .weaken (.ask (n := 0) hs fun _ => .ret) (by omega)
  | other hs => intro q ci; exact .askOther hs fun _ => .ret
  | @limiter h t l d heq hl' ih =>
    cases heq
    intro q ci
    refine .gate ?_
    cases hl
    · exact .ret
    · exact call_ret hl'
  | prefetch h =>
    intro q ci
    refine .weaken (.call (n := 0) h fun r => .pick fun x => ?_) (by rw [w_zero]; omega)
    cases x with
    | none => exact .ret
    | some v => exact .weaken (.goCopy (a := 0) (b := 0) (fun _ => .weaken (.call (n := 0) h fun _ => .ret) (by rw [w_zero]; omega)) .ret) (by omega)
  | dnssec h =>
    intro q ci
    refine .copy fun _ => .weaken (.call (n := 0) h (onSome_pc fun a => .pick fun k => lookups_pc h (.pick fun x => .pick fun f => ?_) k)) (by rw [w_zero]; omega)
    split
    · exact give_pc _
    · exact edit_pc
  | drop => intro q ci; exact .ret
  | static => intro q ci; exact .read fun v => orStop_pc (fun _ => give_pc _) _
  | template => intro q ci; exact .read fun v => orStop_pc (fun _ => give_pc _) _
  | ttl h => intro q ci; exact .call (n := 0) h (onSome_pc fun _ => edit_pc)
  | collapse h => intro q ci; exact .call (n := 0) h (onSome_pc fun _ => .read fun _ => .read fun _ => orStop_pc (fun _ => keepOrGive_pc) _)
  | minimize h => intro q ci; exact .call (n := 0) h (onSome_pc fun _ => edit_pc)
  | modify h =>
    intro q ci
    simp only [code, Shared.modify]
    split
    · exact call_ret h
    · exact .copy fun _ => call_ret h
  | replace h =>
    intro q ci
    refine .read fun v => orStop_pc (fun qu => ?_) _
    unfold replaceWith
    split
    · exact call_ret h
    · exact .copy fun _ => .call (n := 0) h (onSome_pc fun _ => .setName edit_pc)
  | syslog h => intro q ci; exact call_ret h
  | queryLog h => intro q ci; exact call_ret h
  | fastestTcp h => intro q ci; exact .call (n := 0) h (onSome_pc fun _ => .pick fun _ => edit_pc)
  | dedup h =>
    intro q ci
    have ho : ∀ r, Bound (handOut q r : Prog H) 0 := onSome_pc fun _ => .read fun _ => .read fun _ => .answer fun _ => .ret
    exact .enter (fun r => .weaken (ho r) (Nat.zero_le _)) fun f => .call (n := 0) h fun r => .land (ho r)
  | cache h =>
    intro q ci
    refine .read fun v => ?_
    split
    · exact call_ret h
    · refine .pick fun stored => .pick fun how => ?_
      cases stored with
      | none => exact .copy fun _ => call_ret h
      | some v =>
        cases how with
        | none => exact give_pc (some v)
        | some refresh =>
          refine .answer fun a => ?_
          split
          · exact .goCopy (b := 0) (fun _ => .call (n := 0) h fun _ => .ret) .ret
          · exact .ret
  | blocklist h1 h2 h3 =>
    intro q ci
    refine .pick fun o => .read fun v => orStop_pc (fun x => ?_) _
    cases x with
    | done r => exact give_pc _
    | forward target m =>
      cases target
      · exact .weaken (call_ret h1) (w_mono (by omega))
      · exact .weaken (call_ret h2) (w_mono (by omega))
      · exact .weaken (call_ret h3) (w_mono (by omega))
  | clientBlocklist h1 h2 =>
    intro q ci
    refine .pick fun o => .read fun v => ?_
    generalize Blocklist.resolveClient _ _ _ _ _ = x
    cases x with
    | done r => exact give_pc _
    | forward target m =>
      cases target
      · exact .weaken (call_ret h1) (w_mono (by omega))
      · exact .weaken (call_ret h1) (w_mono (by omega))
      · exact .weaken (call_ret h2) (w_mono (by omega))
  | rateLimit h1 h2 =>
    intro q ci
    refine .pick fun r => ?_
    generalize Rate.dest _ _ = x
    cases x
    · exact .weaken (call_ret h1) (w_mono (by omega))
    · exact .weaken (call_ret h2) (w_mono (by omega))
    · exact .ret
  | router h =>
    intro q ci
    refine .pick fun now => .read fun v => orStop_pc (fun qu => ?_) _
    generalize Route.routeIndex _ _ _ _ _ _ = x
    cases x with
    | none => exact .ret
    | some i => exact call_ret (h i)
  | roundRobin h => intro q ci; exact .pick fun i => call_ret (h i)
  | truncateRetry h1 h2 =>
    intro q ci
    rw [w_add]
    refine .call h1 (onSome_pc fun a => .read fun v => ?_)
    split
    · exact call_ret h2
    · exact .ret
  | responseIp h1 h2 =>
    intro q ci
    rw [w_add]
    refine .call h1 (onSome_pc fun a => .pick fun o => .read fun v => .read fun w => ?_)
    cases hx : Blocklist.resolveIp o.1 (.ok v) w with
    | done r => exact keepOrGive_pc
    | forward target m => cases ip_target hx; exact call_ret h2
  | responseName h1 h2 =>
    intro q ci
    rw [w_add]
    refine .call h1 (onSome_pc fun a => .pick fun o => .read fun v => .read fun w => ?_)
    cases hx : Blocklist.resolveName o.1 (.ok v) w with
    | done r => exact keepOrGive_pc
    | forward target m => cases name_target hx; exact call_ret h2
  | dns64 h =>
    intro q ci
    refine .weaken (.call h (onSome_pc fun a => .pick fun again => ?_)) (show _ + _ ≤ _ by rw [Nat.two_mul, w_add]; exact Nat.le_refl _)
    split
    · refine .copy fun _ => .call (n := 0) h fun _ => .pick fun x => ?_
      split
      · exact give_pc _
      · exact .ret
    · exact .ret
  | failRotate h => intro q ci; rw [w_mul]; exact tryMembers_pc h _ _
  | failBack h => intro q ci; rw [w_mul]; exact tryMembers_pc h _ _
  | failBackEach h => intro q ci; rw [w_mul]; exact tryMembers_pc h _ _
  | random h => intro q ci; rw [w_mul]; exact tryMembers_pc h _ _
  | loadBalance h => intro q ci; rw [w_mul]; exact tryCopies_pc h _ _
  | fastest h => intro q ci; rw [w_sum]; exact .chan fun c => startAll_pc h (collect_pc _) _

/-! ### Goroutines -/

/-- what a goroutine asks at most -/
private inductive SC (S : Nat → Prop) (K : ClientInfo → Bool) (hl : Bool) (t0 l0 : Tree H) : List (Option Ptr → Prog H) → Nat → Prop
  | nil : SC S K hl t0 l0 [] 0
  | cons {k st a b} : (∀ r, PC S K hl t0 l0 (k r) a) → SC S K hl t0 l0 st b → SC S K hl t0 l0 (k :: st) (a + b)

private def TC (S : Nat → Prop) (K : ClientInfo → Bool) (hl : Bool) (t0 l0 : Tree H) (t : Thread H) (n : Nat) : Prop := ∃ a b, PC S K hl t0 l0 t.prog a ∧ SC S K hl t0 l0 t.stack b ∧ a + b ≤ n

local notation "Thr" => TC S K hl t0 l0

private inductive TsC (S : Nat → Prop) (K : ClientInfo → Bool) (hl : Bool) (t0 l0 : Tree H) : List (Thread H) → Nat → Prop
  | nil : TsC S K hl t0 l0 [] 0
  | cons {t ts a b} : TC S K hl t0 l0 t a → TsC S K hl t0 l0 ts b → TsC S K hl t0 l0 (t :: ts) (a + b)

local notation "Thrs" => TsC S K hl t0 l0

private theorem ts_set {ts : List (Thread H)} {n : Nat} (h : Thrs ts n) : ∀ {i t}, ts[i]? = some t →
    ∃ a b, Thr t a ∧ a + b ≤ n ∧ ∀ t' a', Thr t' a' → Thrs (ts.set i t') (a' + b) := by
  induction h with
  | nil => intro i t hi; simp at hi
  | @cons t0 ts x y h1 h2 ih =>
    intro i t hi
    cases i with
    | zero =>
      simp only [List.getElem?_cons_zero, Option.some.injEq] at hi
      subst hi
      exact ⟨x, y, h1, Nat.le_refl _, fun t' a' h' => .cons h' h2⟩
    | succ i =>
      simp only [List.getElem?_cons_succ] at hi
      obtain ⟨a, b, ha, hab, hs⟩ := ih hi
      refine ⟨a, x + b, ha, by omega, fun t' a' h' => ?_⟩
      have := TsC.cons h1 (hs t' a' h')
      rw [show a' + (x + b) = x + (a' + b) by omega]
      exact this

private theorem ts_append {ts : List (Thread H)} {n : Nat} (h : Thrs ts n) {t : Thread H} {a : Nat} (ht : Thr t a) : Thrs (ts ++ [t]) (n + a) := by
  induction h with
  | nil => rw [Nat.add_comm]; exact .cons ht .nil
  | cons h1 _ ih => rw [Nat.add_assoc]; exact .cons h1 ih

/-- how many queries of clients in `K` went to servers in `S` -/
def asked (S : Nat → Prop) [DecidablePred S] (K : ClientInfo → Bool) (s : St H) : Nat := (s.asked.filter fun a => S a.1 ∧ K a.2.2).length

/-- so many queries have gone out, and so many may -/
private def Inv (S : Nat → Prop) [DecidablePred S] (K : ClientInfo → Bool) (hl : Bool) (t0 l0 : Tree H) (N : Nat) (s : St H) : Prop :=
  ∃ n, TsC S K hl t0 l0 s.threads n ∧ asked S K s + n ≤ N

variable [DecidablePred S]

private theorem asked_more (s s' : St H) (i : Nat) (v : Msg) (ci : ClientInfo) (h : s'.asked = s.asked ++ [(i, v, ci)]) :
    asked S K s' = asked S K s + if S i then w K ci 1 else 0 := by
  unfold asked w
  rw [h, List.filter_append, List.length_append]
  by_cases h1 : S i <;> by_cases h2 : K ci = true <;> simp [h1, h2]

private theorem inv_call {t : Tree H} {m ci k n} (h : Bound (.call t m ci k) n) : ∃ c d, Few t c ∧ (∀ r, Bound (k r) d) ∧ w K ci c + d ≤ n := by
  generalize hp : Prog.call t m ci k = p at h
  induction h with
  | call h1 h2 => cases hp; exact ⟨_, _, h1, h2, Nat.le_refl _⟩
  | weaken _ hle ih => obtain ⟨c, d, h1, h2, h3⟩ := ih hp; exact ⟨c, d, h1, h2, by omega⟩
  | _ => cases hp

private theorem inv_ask {i m ci} {k : Option Ptr → Prog H} {n} (h : Bound (.ask i m ci k) n) : ∃ d, (∀ r, Bound (k r) d) ∧ (d + if S i then w K ci 1 else 0) ≤ n := by
  generalize hp : Prog.ask i m ci k = p at h
  induction h with
  | ask hs h1 => cases hp; exact ⟨_, h1, by rw [if_pos hs]; exact Nat.le_refl _⟩
  | askOther hs h1 => cases hp; exact ⟨_, h1, by rw [if_neg hs]; exact Nat.le_refl _⟩
  | weaken _ hle ih => obtain ⟨d, h1, h3⟩ := ih hp; exact ⟨d, h1, by omega⟩
  | _ => cases hp

private theorem inv_read {m} {k : Msg → Prog H} {n} (h : Bound (.read m k) n) : ∀ v, Bound (k v) n := by
  generalize hp : Prog.read m k = p at h
  induction h with
  | read h1 => cases hp; exact h1
  | weaken _ hle ih => exact fun v => .weaken (ih hp v) hle
  | _ => cases hp

private theorem inv_copy {m f} {k : Ptr → Prog H} {n} (h : Bound (.copy m f k) n) : ∀ v, Bound (k v) n := by
  generalize hp : Prog.copy m f k = p at h
  induction h with
  | copy h1 => cases hp; exact h1
  | weaken _ hle ih => exact fun v => .weaken (ih hp v) hle
  | _ => cases hp

private theorem inv_new {v} {k : Ptr → Prog H} {n} (h : Bound (.new v k) n) : ∀ v, Bound (k v) n := by
  generalize hp : Prog.new v k = p at h
  induction h with
  | new h1 => cases hp; exact h1
  | weaken _ hle ih => exact fun v => .weaken (ih hp v) hle
  | _ => cases hp

private theorem inv_answer {m v} {k : Ptr → Prog H} {n} (h : Bound (.answer m v k) n) : ∀ v, Bound (k v) n := by
  generalize hp : Prog.answer m v k = p at h
  induction h with
  | answer h1 => cases hp; exact h1
  | weaken _ hle ih => exact fun v => .weaken (ih hp v) hle
  | _ => cases hp

private theorem inv_upd {a f} {k : Prog H} {n} (h : Bound (.upd a f k) n) : Bound k n := by
  generalize hp : Prog.upd a f k = p at h
  induction h with
  | upd h1 => cases hp; exact h1
  | weaken _ hle ih => exact .weaken (ih hp) hle
  | _ => cases hp

private theorem inv_setName {a f} {k : Prog H} {n} (h : Bound (.setName a f k) n) : Bound k n := by
  generalize hp : Prog.setName a f k = p at h
  induction h with
  | setName h1 => cases hp; exact h1
  | weaken _ hle ih => exact .weaken (ih hp) hle
  | _ => cases hp

private theorem inv_pick {p : Prog H} {α : Type} {k : α → Prog H} {n} (h : Bound p n) (hp : p = .pick α k) :
    (∀ x, Bound (k x) n) ∨ ∃ m ci, p = code (.rateLimit hl t0 l0) m ci ∧ Bound (limited t0 l0 m ci (Rate.dest hl true)) n := by
  induction h with
  | pick h1 => cases hp; exact .inl h1
  | gate h1 => exact .inr ⟨_, _, rfl, h1⟩
  | weaken _ hle ih => exact (ih hp).imp (fun h v => .weaken (h v) hle) fun ⟨m, ci, h1, h2⟩ => ⟨m, ci, h1, .weaken h2 hle⟩
  | _ => cases hp

private theorem inv_goShare {m p} {k : Prog H} {n} (h : Bound (.goShare m p k) n) : ∃ a b, (∀ x, Bound (p x) a) ∧ Bound k b ∧ a + b ≤ n := by
  generalize hp : Prog.goShare m p k = x at h
  induction h with
  | goShare h1 h2 => cases hp; exact ⟨_, _, h1, h2, Nat.le_refl _⟩
  | weaken _ hle ih => obtain ⟨a, b, h1, h2, h3⟩ := ih hp; exact ⟨a, b, h1, h2, by omega⟩
  | _ => cases hp

private theorem inv_goCopy {m f p} {k : Prog H} {n} (h : Bound (.goCopy m f p k) n) : ∃ a b, (∀ x, Bound (p x) a) ∧ Bound k b ∧ a + b ≤ n := by
  generalize hp : Prog.goCopy m f p k = x at h
  induction h with
  | goCopy h1 h2 => cases hp; exact ⟨_, _, h1, h2, Nat.le_refl _⟩
  | weaken _ hle ih => obtain ⟨a, b, h1, h2, h3⟩ := ih hp; exact ⟨a, b, h1, h2, by omega⟩
  | _ => cases hp

private theorem inv_chan {k : Nat → Prog H} {n} (h : Bound (.chan k) n) : ∀ x, Bound (k x) n := by
  generalize hp : Prog.chan k = p at h
  induction h with
  | chan h1 => cases hp; exact h1
  | weaken _ hle ih => exact fun v => .weaken (ih hp v) hle
  | _ => cases hp

private theorem inv_send {c r} {k : Prog H} {n} (h : Bound (.send c r k) n) : Bound k n := by
  generalize hp : Prog.send c r k = p at h
  induction h with
  | send h1 => cases hp; exact h1
  | weaken _ hle ih => exact .weaken (ih hp) hle
  | _ => cases hp

private theorem inv_recv {c} {k : Option Ptr → Prog H} {n} (h : Bound (.recv c k) n) : ∀ x, Bound (k x) n := by
  generalize hp : Prog.recv c k = p at h
  induction h with
  | recv h1 => cases hp; exact h1
  | weaken _ hle ih => exact fun v => .weaken (ih hp v) hle
  | _ => cases hp

private theorem inv_enter {t old} {new : Nat → Prog H} {n} (h : Bound (.enter t old new) n) : (∀ x, Bound (old x) n) ∧ ∀ x, Bound (new x) n := by
  generalize hp : Prog.enter t old new = p at h
  induction h with
  | enter h1 h2 => cases hp; exact ⟨h1, h2⟩
  | weaken _ hle ih => exact ⟨fun v => .weaken ((ih hp).1 v) hle, fun v => .weaken ((ih hp).2 v) hle⟩
  | _ => cases hp

private theorem inv_wait {f} {k : Option Ptr → Prog H} {n} (h : Bound (.wait f k) n) : ∀ x, Bound (k x) n := by
  generalize hp : Prog.wait f k = p at h
  induction h with
  | wait h1 => cases hp; exact h1
  | weaken _ hle ih => exact fun v => .weaken (ih hp v) hle
  | _ => cases hp

private theorem inv_land {f r} {k : Prog H} {n} (h : Bound (.land f r k) n) : Bound k n := by
  generalize hp : Prog.land f r k = p at h
  induction h with
  | land h1 => cases hp; exact h1
  | weaken _ hle ih => exact .weaken (ih hp) hle
  | _ => cases hp

/-- a step that asks nothing and starts no goroutine -/
private theorem go_inv {N : Nat} {s s1 : St H} {i p st p'} (h : Inv S K hl t0 l0 N s) (hat : s.At i p st) (ht : s1.threads = s.threads) (ha : s1.asked = s.asked)
    (hp : ∀ n, Bound p n → Bound p' n) : Inv S K hl t0 l0 N (s1.go i p' st) := by
  obtain ⟨n, h1, h2⟩ := h
  obtain ⟨a, b, ⟨x, y, hx, hy, hxy⟩, hab, hs⟩ := ts_set h1 hat
  exact ⟨a + b, by simp only [St.go, ht]; exact hs _ _ ⟨x, y, hp x hx, hy, hxy⟩, by simp only [asked, St.go, ha] at h2 ⊢; omega⟩

private theorem inv_step {N : Nat} {s s' : St H} (h : Inv S K hl t0 l0 N s) (hs : Step s s')
    (hn : ∀ i m ci st x, s.At i (code (.rateLimit hl t0 l0) m ci) st → s' ≠ s.go i (limited t0 l0 m ci (Rate.dest hl x)) st) : Inv S K hl t0 l0 N s' := by
  cases hs with
  | ret hat =>
    obtain ⟨n, h1, h2⟩ := h
    obtain ⟨a, b, ⟨x, y, hx, hy, hxy⟩, hab, hs⟩ := ts_set h1 hat
    cases hy with
    | @cons _ _ c d hk hst => exact ⟨a + b, hs _ _ ⟨c, d, hk _, hst, by omega⟩, by show asked S K s + _ ≤ N; omega⟩
  | @call i t m ci k st hat =>
    obtain ⟨n, h1, h2⟩ := h
    obtain ⟨a, b, ⟨x, y, hx, hy, hxy⟩, hab, hs⟩ := ts_set h1 hat
    obtain ⟨c, d, hc, hk, hcd⟩ := inv_call hx
    exact ⟨a + b, hs _ _ ⟨w K ci c, d + y, code_pc hc _ _, .cons hk hy, by omega⟩, by show asked S K s + _ ≤ N; omega⟩
  | @askFail i n m ci k st hat =>
    obtain ⟨n, h1, h2⟩ := h
    obtain ⟨a, b, ⟨x, y, hx, hy, hxy⟩, hab, hs⟩ := ts_set h1 hat
    obtain ⟨d, hk, hd⟩ := inv_ask hx
    exact ⟨d + y + b, hs _ _ ⟨d, y, hk _, hy, Nat.le_refl _⟩, by rw [asked_more s _ _ _ _ rfl]; omega⟩
  | @ask i n m ci k st v hat =>
    obtain ⟨n, h1, h2⟩ := h
    obtain ⟨a, b, ⟨x, y, hx, hy, hxy⟩, hab, hs⟩ := ts_set h1 hat
    obtain ⟨d, hk, hd⟩ := inv_ask hx
    exact ⟨d + y + b, hs _ _ ⟨d, y, hk _, hy, Nat.le_refl _⟩, by rw [asked_more s _ _ _ _ rfl]; omega⟩
  | read hat => exact go_inv h hat rfl rfl fun _ hp => inv_read hp _
  | copy hat => exact go_inv h hat rfl rfl fun _ hp => inv_copy hp _
  | new hat => exact go_inv h hat rfl rfl fun _ hp => inv_new hp _
  | answer hat => exact go_inv h hat rfl rfl fun _ hp => inv_answer hp _
  | upd hat => exact go_inv h hat rfl rfl fun _ hp => inv_upd hp
  | setName hat => exact go_inv h hat rfl rfl fun _ hp => inv_setName hp
  | @pick i α k st x hat =>
    refine go_inv h hat rfl rfl fun n hp => ?_
    rcases inv_pick hp rfl with h1 | ⟨m, ci, h1, h2⟩
    · exact h1 x
    · exfalso
      rw [h1] at hat
      simp only [code, Prog.pick.injEq] at h1
      obtain ⟨h3, h4⟩ := h1
      subst h3
      cases h4
      exact hn i m ci st x hat rfl
  | @goShare i m p k st hat =>
    obtain ⟨n, h1, h2⟩ := h
    obtain ⟨a, b, ⟨x, y, hx, hy, hxy⟩, hab, hs⟩ := ts_set h1 hat
    obtain ⟨c, d, hc, hd, hcd⟩ := inv_goShare hx
    have h3 : Thr ⟨k, st⟩ (d + y) := ⟨d, y, hd, hy, Nat.le_refl _⟩
    have h4 : ∀ x, Thr ⟨p x, []⟩ c := fun x => ⟨c, 0, hc x, .nil, Nat.le_refl _⟩
    exact ⟨d + y + b + c, ts_append (hs _ _ h3) (h4 _), by show asked S K s + _ ≤ N; omega⟩
  | @goCopy i m f p k st hat =>
    obtain ⟨n, h1, h2⟩ := h
    obtain ⟨a, b, ⟨x, y, hx, hy, hxy⟩, hab, hs⟩ := ts_set h1 hat
    obtain ⟨c, d, hc, hd, hcd⟩ := inv_goCopy hx
    have h3 : Thr ⟨k, st⟩ (d + y) := ⟨d, y, hd, hy, Nat.le_refl _⟩
    have h4 : ∀ x, Thr ⟨p x, []⟩ c := fun x => ⟨c, 0, hc x, .nil, Nat.le_refl _⟩
    exact ⟨d + y + b + c, ts_append (hs _ _ h3) (h4 _), by show asked S K s + _ ≤ N; omega⟩
  | chan hat => exact go_inv h hat rfl rfl fun _ hp => inv_chan hp _
  | send hat _ => exact go_inv h hat rfl rfl fun _ hp => inv_send hp
  | recv hat _ => exact go_inv h hat rfl rfl fun _ hp => inv_recv hp _
  | lead hat => exact go_inv h hat rfl rfl fun _ hp => (inv_enter hp).2 _
  | join hat _ => exact go_inv h hat rfl rfl fun _ hp => .wait (inv_enter hp).1
  | wait hat _ => exact go_inv h hat rfl rfl fun _ hp => inv_wait hp _
  | land hat _ => exact go_inv h hat rfl rfl fun _ hp => inv_land hp


/-- how many queries of clients in `K` the limiter let through -/
def passed (K : ClientInfo → Bool) (log : List Verdict) : Nat := (log.filter fun v => K v.client ∧ v.rejected = false).length

private theorem inv_verdict {N c : Nat} {s : St H} {i m ci st} (h : Inv S K hl t0 l0 N s) (hc : Few t0 c) (hat : s.At i (code (.rateLimit hl t0 l0) m ci) st) (x : Bool) :
    Inv S K hl t0 l0 (N + if x then 0 else w K ci c) (s.go i (limited t0 l0 m ci (Rate.dest hl x)) st) := by
  obtain ⟨n, h1, h2⟩ := h
  obtain ⟨a, b, ⟨y, z, hy, hz, hyz⟩, hab, hs⟩ := ts_set h1 hat
  cases x with
  | true =>
    have hb : Bound (limited t0 l0 m ci (Rate.dest hl true)) y := by
      rcases inv_pick hy rfl with h3 | ⟨m', ci', h3, h4⟩
      · exact h3 true
      · simp only [code, Prog.pick.injEq, heq_eq_eq, true_and] at h3
        have h5 := congrFun h3 true
        rw [h5]
        exact h4
    exact ⟨a + b, hs _ _ ⟨y, z, hb, hz, hyz⟩, by show asked S K s + _ ≤ _; simp; omega⟩
  | false =>
    have hb : Bound (limited t0 l0 m ci (Rate.dest hl false)) (w K ci c) := call_ret hc
    exact ⟨w K ci c + z + b, hs _ _ ⟨_, z, hb, hz, Nat.le_refl _⟩, by show asked S K s + _ ≤ _; simp; omega⟩

/-- **C116.** Whatever clients ask, at the same time or not, and whatever servers, lists, caches, chance and scheduling do: the clients in `K` have caused no more queries to the servers `S` than the
configuration allows besides the limiter, and what it allows behind the limiter for each query of theirs the limiter let through. -/
theorem asked_passed (roots : List (Root H)) (cost : Root H → Nat) (c : Nat) (hc : ∀ r ∈ roots, Few r.tree (cost r)) (ht : Few t0 c) (log : List Verdict) (s : St H)
    (h : Logged hl t0 l0 (init roots) log s) : asked S K s ≤ ((roots.filter fun r => K r.ci).map cost).sum + c * passed K log := by
  have h0 : Inv S K hl t0 l0 ((roots.filter fun r => K r.ci).map cost).sum (init roots) := by
    refine ⟨((roots.filter fun r => K r.ci).map cost).sum, ?_, by simp [asked, init]⟩
    simp only [init]
    generalize hf : (fun (j : Nat) (r : Root H) => (⟨.call r.tree (rootPtr j) r.ci .ret, []⟩ : Thread H)) = f
    have hfc : ∀ j r, r ∈ roots → Thr (f j r) (w K r.ci (cost r)) := by
      intro j r hr
      subst hf
      exact ⟨w K r.ci (cost r), 0, call_ret (hc r hr), .nil, Nat.le_refl _⟩
    clear hf hc h
    induction roots generalizing f with
    | nil => exact .nil
    | cons r rs ih =>
      rw [List.mapIdx_cons]
      have h1 := TsC.cons (hfc 0 r (by simp)) (ih _ fun j x hx => hfc (j + 1) x (by simp [hx]))
      have h2 : ((List.filter (fun r => K r.ci) (r :: rs)).map cost).sum = w K r.ci (cost r) + ((rs.filter fun r => K r.ci).map cost).sum := by
        unfold w
        by_cases hk : K r.ci = true <;> simp [hk]
      rw [h2]
      exact h1
  have key : ∀ {a b : St H} {log}, Logged hl t0 l0 a log b → ∀ N, Inv S K hl t0 l0 N a → Inv S K hl t0 l0 (N + c * passed K log) b := by
    intro a b log hab
    induction hab with
    | start => intro N h; simpa [passed] using h
    | @verdict b log i m ci st v _ hat hv ih =>
      intro N h
      have h1 := inv_verdict (ih N h) ht hat v.rejected
      have h2 : c * passed K (log ++ [v]) = c * passed K log + if v.rejected then 0 else w K ci c := by
        unfold passed w
        rw [List.filter_append, List.length_append, Nat.mul_add, hv.symm]
        by_cases hk : K v.client = true <;> by_cases hr : v.rejected = true <;> simp [hk, hr]
      rw [h2, ← Nat.add_assoc]
      exact h1
    | step _ hst hn ih => exact fun N h => inv_step (ih N h) hst hn
  obtain ⟨n, _, hn⟩ := key h _ h0
  omega

/-! ### The limiter -/

private def left (o : Rate.Options) (s : Rate.State) (k : Str) : Nat := match s.counters with
  | none => 0
  | some m => o.requests - Rate.count m k

private def changes (win : Nat) : Int → List Int → Nat
  | _, [] => 0
  | cur, n :: l => (if n / win = cur then 0 else 1) + changes win (n / win) l

private theorem stretches_eq (win : Nat) : ∀ (l : List Int) (a : Int), stretches win (a :: l) = 1 + changes win (a / win) l
  | [], _ => rfl
  | b :: l, a => by
    simp only [stretches, changes, stretches_eq win l b]
    by_cases h : a / win = b / win
    · rw [if_pos h, if_pos h.symm]; omega
    · rw [if_neg h, if_neg fun h' => h h'.symm]

private theorem changes_stretches (win : Nat) (l : List Int) (cur : Int) : changes win cur l ≤ stretches win l := by
  cases l with
  | nil => exact Nat.le_refl _
  | cons a l =>
    rw [stretches_eq]
    simp only [changes]
    split <;> omega

private theorem left_bump (n : Nat) (m : List (Str × Nat)) (k k' : Str) (x : Bool) (hx : decide (Rate.count m k' ≥ n) = x) :
    (if k' = k ∧ x = false then 1 else 0) + (n - Rate.count (Rate.bump m k') k) ≤ n - Rate.count m k := by
  rw [Rate.count_bump]
  by_cases h : k' = k
  · subst h
    cases x
    · simp only [decide_eq_false_iff_not] at hx
      simp
      omega
    · simp
      omega
  · rw [if_neg fun h' => h h'.1, if_neg fun h' => h h'.symm]
    omega

private theorem run_left (o : Rate.Options) (k : Str) : ∀ (log : List Verdict) (s : Rate.State), (∀ v ∈ log, 0 ≤ v.now) →
    Rate.run o s (log.map fun v => (v.now, v.client.sourceIP)) = some (log.map (·.rejected)) →
    (log.filter fun v => Rate.key o v.client.sourceIP = k ∧ v.rejected = false).length ≤ left o s k + o.requests * changes o.window s.currWinID (log.map (·.now))
  | [], _, _, _ => Nat.zero_le _
  | v :: log, s, h0, h => by
    simp only [List.map_cons, Rate.run] at h
    cases hs : Rate.step o s v.now v.client.sourceIP with
    | none => rw [hs] at h; cases h
    | some p =>
      obtain ⟨s', x⟩ := p
      rw [hs] at h
      simp only at h
      cases hr : Rate.run o s' (log.map fun v => (v.now, v.client.sourceIP)) with
      | none => rw [hr] at h; cases h
      | some bs =>
        rw [hr] at h
        simp only [Option.some.injEq, List.cons.injEq] at h
        obtain ⟨hx, hbs⟩ := h
        have ih := run_left o k log s' (fun v hv => h0 v (by simp [hv])) (by rw [hr, hbs])
        have hn : v.now.tdiv o.window = v.now / o.window := Int.tdiv_eq_ediv_of_nonneg (h0 v (by simp))
        have hlen : (List.filter (fun v => decide (Rate.key o v.client.sourceIP = k ∧ v.rejected = false)) (v :: log)).length =
            (if Rate.key o v.client.sourceIP = k ∧ x = false then 1 else 0) + (log.filter fun v => Rate.key o v.client.sourceIP = k ∧ v.rejected = false).length := by
          rw [List.filter_cons, hx]
          by_cases hk : Rate.key o v.client.sourceIP = k ∧ v.rejected = false
          · simp [hk]; omega
          · simp [hk]
        rw [hlen]
        simp only [List.map_cons, changes]
        unfold Rate.step at hs
        rw [hn] at hs
        simp only at hs
        by_cases hw : v.now / o.window = s.currWinID
        · rw [if_neg (by simpa using hw)] at hs
          cases hm : s.counters with
          | none => rw [hm] at hs; cases hs
          | some m =>
            rw [hm] at hs
            simp only [Option.some.injEq, Prod.mk.injEq] at hs
            obtain ⟨hs', hx'⟩ := hs
            have hb := left_bump o.requests m k _ x hx'
            rw [if_pos hw, hw, Nat.zero_add]
            subst hs'
            simp only [left] at ih ⊢
            rw [hm]
            simp only
            omega
        · rw [if_pos hw] at hs
          simp only [Option.some.injEq, Prod.mk.injEq] at hs
          obtain ⟨hs', hx'⟩ := hs
          have hb := left_bump o.requests [] k _ x hx'
          rw [if_neg hw, Nat.mul_add]
          subst hs'
          simp only [left] at ih ⊢
          omega

/-- The clients of a network. -/
def within (o : Rate.Options) (net : Option (Bool × List Bool)) (ci : ClientInfo) : Bool :=
  decide (Spec.Rate.network o.prefix4 o.prefix6 ci.sourceIP = net)

private theorem passed_bound (o : Rate.Options) (h4 : o.prefix4 ≤ 32) (h6 : o.prefix6 ≤ 128) (net : Option (Bool × List Bool)) (log : List Verdict) (h0 : ∀ v ∈ log, 0 ≤ v.now)
    (hd : Decided o log) : passed (within o net) log ≤ o.requests * stretches o.window (log.map (·.now)) := by
  by_cases he : ∃ v ∈ log, within o net v.client = true
  · obtain ⟨v, _, hv⟩ := he
    have h1 := run_left o (Rate.key o v.client.sourceIP) log {} h0 hd
    have h2 : passed (within o net) log = (log.filter fun u => Rate.key o u.client.sourceIP = Rate.key o v.client.sourceIP ∧ u.rejected = false).length := by
      unfold passed
      refine congrArg List.length (List.filter_congr fun u _ => ?_)
      have h3 := Rate.rate_same_network o h4 h6 u.client.sourceIP v.client.sourceIP
      have h5 : within o net u.client = true ↔ Rate.key o u.client.sourceIP = Rate.key o v.client.sourceIP := by
        rw [h3]
        simp only [within, decide_eq_true_eq] at hv ⊢
        rw [hv]
      simp only [h5]
    have h3 : left o {} (Rate.key o v.client.sourceIP) = 0 := rfl
    rw [h2]
    rw [h3, Nat.zero_add] at h1
    exact Nat.le_trans h1 (Nat.mul_le_mul_left _ (changes_stretches _ _ _))
  · have h1 : passed (within o net) log = 0 := by
      unfold passed
      rw [List.length_eq_zero_iff, List.filter_eq_nil_iff]
      intro v hv h
      simp only [decide_eq_true_eq] at h
      exact he ⟨v, hv, h.1⟩
    rw [h1]
    exact Nat.zero_le _

/-- **C116.** If servers are asked through the limiter only, then the clients of a network, however many queries they send, have caused no more queries to these servers than `c` (what the configuration allows
behind the limiter for one query) times the limit, for each stretch of time the limiter has been in one window. -/
theorem limit_holds (o : Rate.Options) (h4 : o.prefix4 ≤ 32) (h6 : o.prefix6 ≤ 128) (roots : List (Root H)) (c : Nat) (hc : ∀ r ∈ roots, Few r.tree 0) (ht : Few t0 c)
    (log : List Verdict) (s : St H) (h : Logged hl t0 l0 (init roots) log s) (hd : Decided o log) (h0 : ∀ v ∈ log, 0 ≤ v.now) (net : Option (Bool × List Bool)) :
    asked S (within o net) s ≤ c * (o.requests * stretches o.window (log.map (·.now))) := by
  have h1 := asked_passed (K := within o net) roots (fun _ => 0) c hc ht log s h
  have h2 : ((roots.filter fun r => within o net r.ci).map fun _ => 0).sum = 0 := by
    generalize roots.filter _ = l
    induction l with
    | nil => rfl
    | cons _ _ ih => simpa using ih
  rw [h2, Nat.zero_add] at h1
  exact Nat.le_trans h1 (Nat.mul_le_mul_left _ (passed_bound o h4 h6 net log h0 hd))

private theorem steady_stretches (win : Nat) (b : Int) : ∀ (l : List Int) (a : Int), (a :: l).Pairwise (· ≤ ·) → (∀ x ∈ a :: l, x / win ≤ b) →
    (stretches win (a :: l) : Int) ≤ b - a / win + 1
  | [], a, _, hb => by have := hb a (by simp); simp only [stretches]; omega
  | x :: l, a, hp, hb => by
    have ih := steady_stretches win b l x (List.pairwise_cons.mp hp).2 fun y hy => hb y (by simp [hy])
    have h1 : a ≤ x := (List.pairwise_cons.mp hp).1 x (by simp)
    have h2 : a / win ≤ x / win := by
      rcases Nat.eq_zero_or_pos win with h | h
      · subst h; simp
      · exact Int.ediv_le_ediv (by omega) h1
    simp only [stretches]
    by_cases he : a / win = x / win
    · rw [if_pos he]; omega
    · rw [if_neg he]; omega

/-- As long as queries get to the lock of the limiter in the order in which they read the clock, and the clock does not go back, the stretches are the windows: with verdicts from window `a` to window `b`,
clients of one network have caused at most `c` times the limit for each of these. -/
theorem limit_per_window (o : Rate.Options) (h4 : o.prefix4 ≤ 32) (h6 : o.prefix6 ≤ 128) (roots : List (Root H)) (c : Nat) (hc : ∀ r ∈ roots, Few r.tree 0) (ht : Few t0 c)
    (log : List Verdict) (s : St H) (h : Logged hl t0 l0 (init roots) log s) (hd : Decided o log) (h0 : ∀ v ∈ log, 0 ≤ v.now) (net : Option (Bool × List Bool))
    (hp : (log.map (·.now)).Pairwise (· ≤ ·)) (a : Int) (n : Nat) (hab : ∀ v ∈ log, a ≤ v.now / o.window ∧ v.now / o.window < a + n) :
    asked S (within o net) s ≤ c * (o.requests * n) := by
  refine Nat.le_trans (limit_holds o h4 h6 roots c hc ht log s h hd h0 net) (Nat.mul_le_mul_left _ (Nat.mul_le_mul_left _ ?_))
  cases log with
  | nil => exact Nat.zero_le _
  | cons v log =>
    have h1 := steady_stretches o.window (a + n - 1) (log.map (·.now)) v.now (by simpa using hp) (by
      intro x hx
      obtain ⟨u, hu, rfl⟩ := List.mem_map.mp (show x ∈ (v :: log).map (·.now) by simpa using hx)
      have := hab u hu
      omega)
    have := hab v (by simp)
    simp only [List.map_cons]
    omega

/-! ### At the end of a window -/

private def ip : Str := [10, 0, 0, 1]
private def one : Rate.Options := Rate.Options.withDefaults ⟨1, 0, 0, 0⟩

/-- one query that read the clock in the new window, one that did in the old, and so on -/
private def alternate (n : Nat) : Nat → List Ev
  | 0 => []
  | i + 1 => .locks (n + i) :: .locks i :: alternate n i

private theorem late_reads (o : Rate.Options) (s : Rate.State) (now : Int) (a : Str) (es : List Ev) : ∀ (n : Nat) (r : List (Int × Str)),
    lateRun o s r (List.replicate n (.reads now a) ++ es) = lateRun o s (r ++ List.replicate n (now, a)) es
  | 0, r => by simp
  | n + 1, r => by
    rw [List.replicate_succ, List.cons_append]
    show lateRun o s (r ++ [(now, a)]) _ = _
    rw [late_reads o s now a es n]
    simp [List.replicate_succ]

private theorem step_new (s : Rate.State) (h : s.currWinID ≠ 2) : Rate.step one s 120 ip = some (⟨2, some [([10, 0, 0, 0], 1)]⟩, false) := by
  unfold Rate.step
  have h1 : (120 : Int).tdiv one.window ≠ s.currWinID := fun h' => h (by rw [← h']; decide)
  simp only [if_pos h1]
  decide

private theorem step_old : Rate.step one ⟨2, some [([10, 0, 0, 0], 1)]⟩ 119 ip = some (⟨1, some [([10, 0, 0, 0], 1)]⟩, false) := by decide

private theorem late_alternate (n : Nat) : ∀ i, i ≤ n → ∀ s : Rate.State, s.currWinID ≠ 2 →
    lateRun one s (List.replicate n (119, ip) ++ List.replicate n (120, ip)) (alternate n i) = some (List.replicate (2 * i) false)
  | 0, _, _, _ => rfl
  | i + 1, hi, s, hs => by
    have h1 : (List.replicate n ((119 : Int), ip) ++ List.replicate n (120, ip))[n + i]? = some (120, ip) := by
      rw [List.getElem?_append_right (by simp), List.length_replicate, List.getElem?_replicate, if_pos (by omega)]
    have h2 : (List.replicate n ((119 : Int), ip) ++ List.replicate n (120, ip))[i]? = some (119, ip) := by
      rw [List.getElem?_append_left (by simp; omega), List.getElem?_replicate, if_pos (by omega)]
    simp only [alternate, lateRun, h1, h2, step_new s hs, step_old]
    rw [late_alternate n i (by omega) ⟨1, some [([10, 0, 0, 0], 1)]⟩ (by decide)]
    rfl

/-- The readings of the clock, in order. -/
def nows (es : List Ev) : List Int := es.filterMap fun
  | .reads now _ => some now
  | .locks _ => none

/-- Apart from the order the limiter does with late readings what it does with others, so that `limit_holds` speaks of these runs too. -/
theorem late_is_run (o : Rate.Options) : ∀ (es : List Ev) (s : Rate.State) (r : List (Int × Str)) (bs : List Bool), lateRun o s r es = some bs →
    ∃ qs, Rate.run o s qs = some bs ∧ ∀ q ∈ qs, q ∈ r ∨ Ev.reads q.1 q.2 ∈ es
  | [], s, r, bs, h => ⟨[], h, by simp⟩
  | .reads now a :: es, s, r, bs, h => by
    obtain ⟨qs, h1, h2⟩ := late_is_run o es s _ bs h
    refine ⟨qs, h1, fun q hq => ?_⟩
    rcases h2 q hq with h3 | h3
    · rcases List.mem_append.mp h3 with h4 | h4
      · exact .inl h4
      · have : q = (now, a) := by simpa using h4
        subst this
        exact .inr (by simp)
    · exact .inr (by simp [h3])
  | .locks i :: es, s, r, bs, h => by
    simp only [lateRun] at h
    cases hi : r[i]? with
    | none => rw [hi] at h; cases h
    | some q =>
      obtain ⟨now, a⟩ := q
      rw [hi] at h
      simp only at h
      cases hs : Rate.step o s now a with
      | none => rw [hs] at h; cases h
      | some p =>
        obtain ⟨s', x⟩ := p
        rw [hs] at h
        simp only [Option.map_eq_some_iff] at h
        obtain ⟨bs', h1, rfl⟩ := h
        obtain ⟨qs, h2, h3⟩ := late_is_run o es s' r bs' h1
        refine ⟨(now, a) :: qs, by simp only [Rate.run, hs, h2], fun q hq => ?_⟩
        rcases List.mem_cons.mp hq with h4 | h4
        · subst h4; exact .inl (List.mem_of_getElem? hi)
        · exact (h3 q h4).imp id fun h => by simp [h]

/-- **C116**, finding: the window is computed before the lock is taken. So at the end of a window queries that computed the old one and queries that computed the new one may take turns, and each starts the counters anew:
with a limit of one query in a minute, and a clock that does not go back, any number of queries of one client are let through in one window. -/
theorem boundary_restarts (n : Nat) : ∃ es, (nows es).Pairwise (· ≤ ·) ∧ (∀ now a, Ev.reads now a ∈ es → a = ip) ∧
    ((nows es).filter fun (t : Int) => t / one.window = 2).length = n ∧ one.requests = 1 ∧ lateRun one {} [] es = some (List.replicate (2 * n) false) := by
  have ha : ∀ i, nows (alternate n i) = [] := by
    intro i
    induction i with
    | zero => rfl
    | succ i ih => exact ih
  have hr : ∀ m (t : Int) es, nows (List.replicate m (.reads t ip) ++ es) = List.replicate m t ++ nows es := by
    intro m t es
    induction m with
    | zero => rfl
    | succ m ih => rw [List.replicate_succ, List.replicate_succ]; exact congrArg (t :: ·) ih
  refine ⟨List.replicate n (.reads 119 ip) ++ (List.replicate n (.reads 120 ip) ++ alternate n n), ?_, ?_, ?_, rfl, ?_⟩
  · rw [hr, hr, ha, List.append_nil, List.pairwise_append]
    refine ⟨List.pairwise_replicate.mpr (.inr (by omega)), List.pairwise_replicate.mpr (.inr (by omega)), fun a h1 b h2 => ?_⟩
    rw [(List.mem_replicate.mp h1).2, (List.mem_replicate.mp h2).2]
    decide
  · intro now a h
    rw [List.mem_append, List.mem_append] at h
    rcases h with h | h | h
    · have := (List.mem_replicate.mp h).2; cases this; rfl
    · have := (List.mem_replicate.mp h).2; cases this; rfl
    · exfalso
      have hi : ∀ i, Ev.reads now a ∉ alternate n i := by
        intro i
        induction i with
        | zero => simp [alternate]
        | succ i ih => simp [alternate, ih]
      exact hi n h
  · rw [hr, hr, ha, List.append_nil, List.filter_append, List.length_append]
    have h1 : (List.replicate n (119 : Int)).filter (fun (t : Int) => t / one.window = 2) = [] := by
      rw [List.filter_eq_nil_iff]
      intro a h
      rw [(List.mem_replicate.mp h).2]
      decide
    have h2 : (List.replicate n (120 : Int)).filter (fun (t : Int) => t / one.window = 2) = List.replicate n 120 := by
      rw [List.filter_eq_self]
      intro a h
      rw [(List.mem_replicate.mp h).2]
      decide
    rw [h1, h2]
    simp
  · rw [late_reads, late_reads, List.nil_append]
    exact late_alternate n n (Nat.le_refl _) {} (by decide)

section Examples

/-- a log in front of the limiter, behind it a server, and one that is asked once more if a reply is truncated, and one that is asked once the limit is reached -/
private def pair : Tree Nat := .truncateRetry (.client 0) (.client 1)
private def back : Tree Nat := .client 9
private def conf : Tree Nat := .queryLog (.rateLimit true pair back)

private theorem pair_costs : Causes (· < 2) (.rateLimit true pair back) pair 2 := by
  exact .truncateRetry (c := 1) (d := 1) (.server (by omega)) (.server (by omega))

private theorem conf_costs : Causes (· < 2) (.rateLimit true pair back) conf 0 := .queryLog (.limiter rfl (.other (by omega)))

/-- servers 0 and 1 are asked through the limiter only, and two of them for each query at most: three queries in one window with a limit of two cause at most four -/
example (a : ClientInfo) (s : St Nat) (log : List Verdict) (h : Logged true pair back (init [⟨conf, {}, a⟩, ⟨conf, {}, a⟩, ⟨conf, {}, a⟩]) log s)
    (hd : Decided ⟨2, 60, 24, 56⟩ log) (ht : ∀ v ∈ log, v.now = 600) : asked (· < 2) (within ⟨2, 60, 24, 56⟩ (Spec.Rate.network 24 56 a.sourceIP)) s ≤ 2 * (2 * 1) := by
  refine limit_per_window _ (by decide) (by decide) _ 2 (by simp [conf_costs]) pair_costs log s h hd (fun v hv => by rw [ht v hv]; decide) _ ?_ 10 1 fun v hv => by rw [ht v hv]; decide
  rw [List.pairwise_map]
  exact List.Pairwise.imp_of_mem (fun {x y} hx hy _ => by rw [ht x hx, ht y hy]; exact Int.le_refl _) (List.pairwise_of_forall (R := fun _ _ => True) fun _ _ => trivial)

private theorem quiet {a b c : St Nat} {log} {p st} (h : Logged true pair back a log b) (hb : b.threads = [⟨p, st⟩]) (hp : ∀ m ci, p ≠ code (.rateLimit true pair back) m ci) (hs : Step b c) :
    Logged true pair back a log c := by
  refine .step h hs fun i m ci st' x hat => ?_
  unfold St.At at hat
  rw [hb] at hat
  cases i with
  | zero =>
    simp only [List.getElem?_cons_zero, Option.some.injEq, Thread.mk.injEq] at hat
    exact absurd hat.1 (hp m ci)
  | succ i => simp at hat

/-- such a run: the limiter lets a query through, and a server is asked -/
example : ∃ s, Logged true pair back (init [⟨conf, {}, {}⟩]) [⟨600, {}, false⟩] s ∧ asked (· < 2) (fun _ => true) s = 1 ∧ Decided ⟨2, 60, 24, 56⟩ [⟨600, {}, false⟩] := by
  have h := Logged.start (hasLimit := true) (t := pair) (l := back) (s := init [⟨conf, {}, {}⟩])
  have h := quiet h rfl (by intro m ci h; cases h) (.call (i := 0) rfl)
  have h := quiet h rfl (by intro m ci h; cases h) (.call (i := 0) rfl)
  have h := Logged.verdict ⟨600, {}, false⟩ h (i := 0) rfl rfl
  have h := quiet h rfl (by intro m ci h; cases h) (.call (i := 0) rfl)
  have h := quiet h rfl (by intro m ci h; cases h) (.call (i := 0) rfl)
  have h := quiet h rfl (by intro m ci h; cases h) (.askFail (i := 0) rfl)
  exact ⟨_, h, rfl, by unfold Decided; decide⟩

end Examples

end Verif.Props.Limits
