import Verif.Model.Shared
import Verif.Spec.Effort
/-
C100: one query of a client causes a bounded number of queries to servers.
-/
set_option linter.unusedSectionVars false
namespace Verif.Props.Effort
open Verif Verif.Composition Verif.Shared Verif.Spec.Effort

variable {H : Type}

/-- what a program asks at most, with all goroutines it starts -/
private inductive PC : Prog H → Nat → Prop
  | ret {r n} : PC (.ret r) n
  | stop {n} : PC .stop n
  | call {t m ci k c n} : Costs t c → (∀ r, PC (k r) n) → PC (.call t m ci k) (c + n)
  | ask {i m ci k n} : (∀ r, PC (k r) n) → PC (.ask i m ci k) (n + 1)
  | read {m k n} : (∀ v, PC (k v) n) → PC (.read m k) n
  | copy {m f k n} : (∀ p, PC (k p) n) → PC (.copy m f k) n
  | new {v k n} : (∀ p, PC (k p) n) → PC (.new v k) n
  | answer {m v k n} : (∀ p, PC (k p) n) → PC (.answer m v k) n
  | upd {a f k n} : PC k n → PC (.upd a f k) n
  | setName {a s k n} : PC k n → PC (.setName a s k) n
  | pick {α k n} : (∀ x, PC (k x) n) → PC (.pick α k) n
  | goShare {m p k a b} : (∀ x, PC (p x) a) → PC k b → PC (.goShare m p k) (a + b)
  | goCopy {m f p k a b} : (∀ x, PC (p x) a) → PC k b → PC (.goCopy m f p k) (a + b)
  | chan {k n} : (∀ x, PC (k x) n) → PC (.chan k) n
  | send {c r k n} : PC k n → PC (.send c r k) n
  | recv {c k n} : (∀ x, PC (k x) n) → PC (.recv c k) n
  | enter {t old new n} : (∀ x, PC (old x) n) → (∀ x, PC (new x) n) → PC (.enter t old new) n
  | wait {f k n} : (∀ x, PC (k x) n) → PC (.wait f k) n
  | land {f r k n} : PC k n → PC (.land f r k) n
  | weaken {p n m} : PC p n → n ≤ m → PC p m

private theorem call_ret {t : Tree H} {m ci c} (h : Costs t c) : PC (.call t m ci .ret) c := .call (n := 0) h fun _ => .ret

private theorem onSome_pc {k : Ptr → Prog H} {n} (h : ∀ a, PC (k a) n) : ∀ r, PC (onSome k r) n
  | none => .ret
  | some a => h a

private theorem orStop_pc {α : Type} {k : α → Prog H} {n} (h : ∀ a, PC (k a) n) : ∀ r, PC (orStop k r) n
  | none => .stop
  | some a => h a

private theorem edit_pc {f : Msg → Msg} {a : Ptr} {n} : PC (edit f a : Prog H) n := .upd .ret

private theorem give_pc {n} : ∀ x, PC (give x : Prog H) n
  | none => .ret
  | some _ => .new fun _ => .ret

private theorem keepOrGive_pc {a : Ptr} {x n} : PC (keepOrGive a x : Prog H) n := .pick fun keep => by
  cases keep
  · exact give_pc _
  · exact edit_pc

private theorem tryMembers_pc {member : Nat → Tree H} {q ci c} (h : ∀ i, Costs (member i) c) : ∀ n last, PC (tryMembers member q ci n last) (n * c)
  | 0, _ => .ret
  | n + 1, _ => by
    refine .pick fun i => .weaken (.call (h i) (n := n * c) fun r => .pick fun good => ?_) (by rw [Nat.succ_mul]; omega)
    cases good
    · exact tryMembers_pc h n r
    · exact .ret

private theorem tryCopies_pc {member : Nat → Tree H} {q ci c} (h : ∀ i, Costs (member i) c) : ∀ n last, PC (tryCopies member q ci n last) (n * c)
  | 0, _ => .ret
  | n + 1, _ => by
    refine .pick fun i => .copy fun _ => .weaken (.call (h i) (n := n * c) fun r => .pick fun good => ?_) (by rw [Nat.succ_mul]; omega)
    cases good
    · exact tryCopies_pc h n r
    · exact .ret

private theorem racer_pc {t : Tree H} {ci ch c} (h : Costs t c) (q : Ptr) : PC (racer t ci ch q) c := .copy fun _ => .call (n := 0) h fun _ => .send .ret

private theorem collect_pc {ch : Nat} : ∀ n, PC (collect ch n : Prog H) 0
  | 0 => .recv fun _ => .ret
  | n + 1 => .recv fun r => .pick fun good => by
    cases good
    · simp only [Bool.false_eq_true, if_false]
      split
      · exact .ret
      · exact collect_pc n
    · exact .ret

private theorem startAll_pc {member : Nat → Tree H} {q ci ch} {k : Prog H} {c : Nat → Nat} (h : ∀ i, Costs (member i) (c i)) (hk : PC k 0) :
    ∀ n, PC (startAll member q ci ch k n) ((List.range n).map c).sum
  | 0 => hk
  | n + 1 => by
    refine .weaken (.goShare (fun x => racer_pc (h n) x) (startAll_pc h hk n)) ?_
    rw [List.range_succ, List.map_append, List.sum_append]
    simp only [List.map_cons, List.map_nil, List.sum_cons, List.sum_nil]
    omega

theorem block_target {κ : Type} {key : RR → Option κ} {db inv hb ede} {q a x : Msg} {t : Blocklist.Target} (h : Blocklist.blockIfMatch key db inv hb ede q a = .forward t x) : t = .block := by
  unfold Blocklist.blockIfMatch at h
  split at h
  · cases h
  · split at h <;> cases h
    rfl

/-- the response blocklists pass queries on to the block resolver only -/
theorem ip_target {o : Blocklist.IpOptions} {r : Res} {q x : Msg} {t : Blocklist.Target} (h : Blocklist.resolveIp o r q = .forward t x) : t = .block := by
  unfold Blocklist.resolveIp at h
  split at h
  · split at h
    · cases h
    · split at h
      · unfold Blocklist.filterMatch at h
        split at h
        · split at h <;> cases h
          rfl
        · cases h
      · exact block_target h
  · cases h

theorem name_target {o : Blocklist.NameOptions} {r : Res} {q x : Msg} {t : Blocklist.Target} (h : Blocklist.resolveName o r q = .forward t x) : t = .block := by
  unfold Blocklist.resolveName at h
  split at h
  · exact block_target h
  · cases h

private theorem code_pc {t : Tree H} {c : Nat} (h : Costs t c) : ∀ q ci, PC (code t q ci) c := by
  induction h with
  | weaken _ hle ih => intro q ci; exact .weaken (ih q ci) hle
  | client => intro q ci; exact .ask (n := 0) fun _ => .ret
  | drop => intro q ci; exact .ret
  | static => intro q ci; exact .read fun v => orStop_pc (fun _ => give_pc _) _
  | template => intro q ci; exact .read fun v => orStop_pc (fun _ => give_pc _) _
  | ttl h => intro q ci; exact .call (n := 0) h (onSome_pc fun _ => edit_pc)
  | collapse h => intro q ci; exact .call (n := 0) h (onSome_pc fun _ => .read fun _ => .read fun _ => orStop_pc (fun _ => keepOrGive_pc) _)
  | minimize h => intro q ci; exact .call (n := 0) h (onSome_pc fun _ => edit_pc)
  | modify h =>
    intro q ci
    simp only [code, Shared.modify]
    split
    · exact call_ret h
    · exact .copy fun _ => call_ret h
  | replace h =>
    intro q ci
    refine .read fun v => orStop_pc (fun qu => ?_) _
    unfold replaceWith
    split
    · exact call_ret h
    · exact .copy fun _ => .call (n := 0) h (onSome_pc fun _ => .setName edit_pc)
  | syslog h => intro q ci; exact call_ret h
  | queryLog h => intro q ci; exact call_ret h
  | fastestTcp h => intro q ci; exact .call (n := 0) h (onSome_pc fun _ => .pick fun _ => edit_pc)
  | dedup h =>
    intro q ci
    have ho : ∀ r, PC (handOut q r : Prog H) 0 := onSome_pc fun _ => .read fun _ => .read fun _ => .answer fun _ => .ret
    exact .enter (fun r => .weaken (ho r) (Nat.zero_le _)) fun f => .call (n := 0) h fun r => .land (ho r)
  | cache h =>
    intro q ci
    refine .read fun v => ?_
    split
    · exact call_ret h
    · refine .pick fun stored => .pick fun how => ?_
      cases stored with
      | none => exact .copy fun _ => call_ret h
      | some v =>
        cases how with
        | none => exact give_pc (some v)
        | some refresh =>
          refine .answer fun a => ?_
          split
          · exact .goCopy (b := 0) (fun _ => .call (n := 0) h fun _ => .ret) .ret
          · exact .ret
  | blocklist h1 h2 h3 =>
    intro q ci
    refine .pick fun o => .read fun v => orStop_pc (fun x => ?_) _
    cases x with
    | done r => exact give_pc _
    | forward target m =>
      cases target
      · exact .weaken (call_ret h1) (by omega)
      · exact .weaken (call_ret h2) (by omega)
      · exact .weaken (call_ret h3) (by omega)
  | clientBlocklist h1 h2 =>
    intro q ci
    refine .pick fun o => .read fun v => ?_
    generalize Blocklist.resolveClient _ _ _ _ _ = x
    cases x with
    | done r => exact give_pc _
    | forward target m =>
      cases target
      · exact .weaken (call_ret h1) (by omega)
      · exact .weaken (call_ret h1) (by omega)
      · exact .weaken (call_ret h2) (by omega)
  | rateLimit h1 h2 =>
    intro q ci
    refine .pick fun r => ?_
    generalize Rate.dest _ _ = x
    cases x
    · exact .weaken (call_ret h1) (by omega)
    · exact .weaken (call_ret h2) (by omega)
    · exact .ret
  | router h =>
    intro q ci
    refine .pick fun now => .read fun v => orStop_pc (fun qu => ?_) _
    generalize Route.routeIndex _ _ _ _ _ _ = x
    cases x with
    | none => exact .ret
    | some i => exact call_ret (h i)
  | roundRobin h => intro q ci; exact .pick fun i => call_ret (h i)
  | truncateRetry h1 h2 =>
    intro q ci
    refine .call h1 (onSome_pc fun a => .read fun v => ?_)
    split
    · exact call_ret h2
    · exact .ret
  | responseIp h1 h2 =>
    intro q ci
    refine .call h1 (onSome_pc fun a => .pick fun o => .read fun v => .read fun w => ?_)
    cases hx : Blocklist.resolveIp o.1 (.ok v) w with
    | done r => exact keepOrGive_pc
    | forward target m => cases ip_target hx; exact call_ret h2
  | responseName h1 h2 =>
    intro q ci
    refine .call h1 (onSome_pc fun a => .pick fun o => .read fun v => .read fun w => ?_)
    cases hx : Blocklist.resolveName o.1 (.ok v) w with
    | done r => exact keepOrGive_pc
    | forward target m => cases name_target hx; exact call_ret h2
  | dns64 h =>
    intro q ci
    refine .weaken (.call h (onSome_pc fun a => .pick fun again => ?_)) (show _ + _ ≤ _ by rw [Nat.two_mul]; exact Nat.le_refl _)
    split
    · refine .copy fun _ => .call (n := 0) h fun _ => .pick fun x => ?_
      split
      · exact give_pc _
      · exact .ret
    · exact .ret
  | failRotate h => intro q ci; exact tryMembers_pc h _ _
  | failBack h => intro q ci; exact tryMembers_pc h _ _
  | failBackEach h => intro q ci; exact tryMembers_pc h _ _
  | random h => intro q ci; exact tryMembers_pc h _ _
  | loadBalance h => intro q ci; exact tryCopies_pc h _ _
  | fastest h => intro q ci; exact .chan fun c => startAll_pc h (collect_pc _) _

/-! ### Goroutines -/

/-- what a goroutine asks at most -/
private inductive SC : List (Option Ptr → Prog H) → Nat → Prop
  | nil : SC [] 0
  | cons {k st a b} : (∀ r, PC (k r) a) → SC st b → SC (k :: st) (a + b)

private def TC (t : Thread H) (n : Nat) : Prop := ∃ a b, PC t.prog a ∧ SC t.stack b ∧ a + b ≤ n

private inductive TsC : List (Thread H) → Nat → Prop
  | nil : TsC [] 0
  | cons {t ts a b} : TC t a → TsC ts b → TsC (t :: ts) (a + b)

private theorem ts_set {ts : List (Thread H)} {n : Nat} (h : TsC ts n) : ∀ {i t}, ts[i]? = some t →
    ∃ a b, TC t a ∧ a + b ≤ n ∧ ∀ t' a', TC t' a' → TsC (ts.set i t') (a' + b) := by
  induction h with
  | nil => intro i t hi; simp at hi
  | @cons t0 ts x y h1 h2 ih =>
    intro i t hi
    cases i with
    | zero =>
      simp only [List.getElem?_cons_zero, Option.some.injEq] at hi
      subst hi
      exact ⟨x, y, h1, Nat.le_refl _, fun t' a' h' => .cons h' h2⟩
    | succ i =>
      simp only [List.getElem?_cons_succ] at hi
      obtain ⟨a, b, ha, hab, hs⟩ := ih hi
      refine ⟨a, x + b, ha, by omega, fun t' a' h' => ?_⟩
      have := TsC.cons h1 (hs t' a' h')
      rw [show a' + (x + b) = x + (a' + b) by omega]
      exact this

private theorem ts_append {ts : List (Thread H)} {n : Nat} (h : TsC ts n) {t : Thread H} {a : Nat} (ht : TC t a) : TsC (ts ++ [t]) (n + a) := by
  induction h with
  | nil => rw [Nat.add_comm]; exact .cons ht .nil
  | cons h1 _ ih => rw [Nat.add_assoc]; exact .cons h1 ih

/-- so many queries have gone out, and so many may -/
private def Inv (N : Nat) (s : St H) : Prop := ∃ n, TsC s.threads n ∧ s.asked.length + n ≤ N

private theorem inv_call {t : Tree H} {m ci k n} (h : PC (.call t m ci k) n) : ∃ c d, Costs t c ∧ (∀ r, PC (k r) d) ∧ c + d ≤ n := by
  generalize hp : Prog.call t m ci k = p at h
  induction h with
  | call h1 h2 => cases hp; exact ⟨_, _, h1, h2, Nat.le_refl _⟩
  | weaken _ hle ih => obtain ⟨c, d, h1, h2, h3⟩ := ih hp; exact ⟨c, d, h1, h2, by omega⟩
  | _ => cases hp

private theorem inv_ask {i m ci} {k : Option Ptr → Prog H} {n} (h : PC (.ask i m ci k) n) : ∃ d, (∀ r, PC (k r) d) ∧ d + 1 ≤ n := by
  generalize hp : Prog.ask i m ci k = p at h
  induction h with
  | ask h1 => cases hp; exact ⟨_, h1, Nat.le_refl _⟩
  | weaken _ hle ih => obtain ⟨d, h1, h3⟩ := ih hp; exact ⟨d, h1, by omega⟩
  | _ => cases hp

private theorem inv_read {m} {k : Msg → Prog H} {n} (h : PC (.read m k) n) : ∀ v, PC (k v) n := by
  generalize hp : Prog.read m k = p at h
  induction h with
  | read h1 => cases hp; exact h1
  | weaken _ hle ih => exact fun v => .weaken (ih hp v) hle
  | _ => cases hp

private theorem inv_copy {m f} {k : Ptr → Prog H} {n} (h : PC (.copy m f k) n) : ∀ v, PC (k v) n := by
  generalize hp : Prog.copy m f k = p at h
  induction h with
  | copy h1 => cases hp; exact h1
  | weaken _ hle ih => exact fun v => .weaken (ih hp v) hle
  | _ => cases hp

private theorem inv_new {v} {k : Ptr → Prog H} {n} (h : PC (.new v k) n) : ∀ v, PC (k v) n := by
  generalize hp : Prog.new v k = p at h
  induction h with
  | new h1 => cases hp; exact h1
  | weaken _ hle ih => exact fun v => .weaken (ih hp v) hle
  | _ => cases hp

private theorem inv_answer {m v} {k : Ptr → Prog H} {n} (h : PC (.answer m v k) n) : ∀ v, PC (k v) n := by
  generalize hp : Prog.answer m v k = p at h
  induction h with
  | answer h1 => cases hp; exact h1
  | weaken _ hle ih => exact fun v => .weaken (ih hp v) hle
  | _ => cases hp

private theorem inv_upd {a f} {k : Prog H} {n} (h : PC (.upd a f k) n) : PC k n := by
  generalize hp : Prog.upd a f k = p at h
  induction h with
  | upd h1 => cases hp; exact h1
  | weaken _ hle ih => exact .weaken (ih hp) hle
  | _ => cases hp

private theorem inv_setName {a f} {k : Prog H} {n} (h : PC (.setName a f k) n) : PC k n := by
  generalize hp : Prog.setName a f k = p at h
  induction h with
  | setName h1 => cases hp; exact h1
  | weaken _ hle ih => exact .weaken (ih hp) hle
  | _ => cases hp

private theorem inv_pick {α : Type} {k : α → Prog H} {n} (h : PC (.pick α k) n) : ∀ x, PC (k x) n := by
  generalize hp : Prog.pick α k = p at h
  induction h with
  | pick h1 => cases hp; exact h1
  | weaken _ hle ih => exact fun v => .weaken (ih hp v) hle
  | _ => cases hp

private theorem inv_goShare {m p} {k : Prog H} {n} (h : PC (.goShare m p k) n) : ∃ a b, (∀ x, PC (p x) a) ∧ PC k b ∧ a + b ≤ n := by
  generalize hp : Prog.goShare m p k = x at h
  induction h with
  | goShare h1 h2 => cases hp; exact ⟨_, _, h1, h2, Nat.le_refl _⟩
  | weaken _ hle ih => obtain ⟨a, b, h1, h2, h3⟩ := ih hp; exact ⟨a, b, h1, h2, by omega⟩
  | _ => cases hp

private theorem inv_goCopy {m f p} {k : Prog H} {n} (h : PC (.goCopy m f p k) n) : ∃ a b, (∀ x, PC (p x) a) ∧ PC k b ∧ a + b ≤ n := by
  generalize hp : Prog.goCopy m f p k = x at h
  induction h with
  | goCopy h1 h2 => cases hp; exact ⟨_, _, h1, h2, Nat.le_refl _⟩
  | weaken _ hle ih => obtain ⟨a, b, h1, h2, h3⟩ := ih hp; exact ⟨a, b, h1, h2, by omega⟩
  | _ => cases hp

private theorem inv_chan {k : Nat → Prog H} {n} (h : PC (.chan k) n) : ∀ x, PC (k x) n := by
  generalize hp : Prog.chan k = p at h
  induction h with
  | chan h1 => cases hp; exact h1
  | weaken _ hle ih => exact fun v => .weaken (ih hp v) hle
  | _ => cases hp

private theorem inv_send {c r} {k : Prog H} {n} (h : PC (.send c r k) n) : PC k n := by
  generalize hp : Prog.send c r k = p at h
  induction h with
  | send h1 => cases hp; exact h1
  | weaken _ hle ih => exact .weaken (ih hp) hle
  | _ => cases hp

private theorem inv_recv {c} {k : Option Ptr → Prog H} {n} (h : PC (.recv c k) n) : ∀ x, PC (k x) n := by
  generalize hp : Prog.recv c k = p at h
  induction h with
  | recv h1 => cases hp; exact h1
  | weaken _ hle ih => exact fun v => .weaken (ih hp v) hle
  | _ => cases hp

private theorem inv_enter {t old} {new : Nat → Prog H} {n} (h : PC (.enter t old new) n) : (∀ x, PC (old x) n) ∧ ∀ x, PC (new x) n := by
  generalize hp : Prog.enter t old new = p at h
  induction h with
  | enter h1 h2 => cases hp; exact ⟨h1, h2⟩
  | weaken _ hle ih => exact ⟨fun v => .weaken ((ih hp).1 v) hle, fun v => .weaken ((ih hp).2 v) hle⟩
  | _ => cases hp

private theorem inv_wait {f} {k : Option Ptr → Prog H} {n} (h : PC (.wait f k) n) : ∀ x, PC (k x) n := by
  generalize hp : Prog.wait f k = p at h
  induction h with
  | wait h1 => cases hp; exact h1
  | weaken _ hle ih => exact fun v => .weaken (ih hp v) hle
  | _ => cases hp

private theorem inv_land {f r} {k : Prog H} {n} (h : PC (.land f r k) n) : PC k n := by
  generalize hp : Prog.land f r k = p at h
  induction h with
  | land h1 => cases hp; exact h1
  | weaken _ hle ih => exact .weaken (ih hp) hle
  | _ => cases hp

/-- a step that asks nothing and starts no goroutine -/
private theorem go_inv {N : Nat} {s s1 : St H} {i p st p'} (h : Inv N s) (hat : s.At i p st) (ht : s1.threads = s.threads) (ha : s1.asked = s.asked)
    (hp : ∀ n, PC p n → PC p' n) : Inv N (s1.go i p' st) := by
  obtain ⟨n, h1, h2⟩ := h
  obtain ⟨a, b, ⟨x, y, hx, hy, hxy⟩, hab, hs⟩ := ts_set h1 hat
  exact ⟨a + b, by simp only [St.go, ht]; exact hs _ _ ⟨x, y, hp x hx, hy, hxy⟩, by simp only [St.go, ha]; omega⟩

private theorem inv_step {N : Nat} {s s' : St H} (h : Inv N s) (hs : Step s s') : Inv N s' := by
  cases hs with
  | ret hat =>
    obtain ⟨n, h1, h2⟩ := h
    obtain ⟨a, b, ⟨x, y, hx, hy, hxy⟩, hab, hs⟩ := ts_set h1 hat
    cases hy with
    | @cons _ _ c d hk hst => exact ⟨a + b, hs _ _ ⟨c, d, hk _, hst, by omega⟩, by simp only [St.go]; omega⟩
  | @call i t m ci k st hat =>
    obtain ⟨n, h1, h2⟩ := h
    obtain ⟨a, b, ⟨x, y, hx, hy, hxy⟩, hab, hs⟩ := ts_set h1 hat
    obtain ⟨c, d, hc, hk, hcd⟩ := inv_call hx
    exact ⟨a + b, hs _ _ ⟨c, d + y, code_pc hc _ _, .cons hk hy, by omega⟩, by simp only [St.go]; omega⟩
  | @askFail i n m ci k st hat =>
    obtain ⟨n, h1, h2⟩ := h
    obtain ⟨a, b, ⟨x, y, hx, hy, hxy⟩, hab, hs⟩ := ts_set h1 hat
    obtain ⟨d, hk, hd⟩ := inv_ask hx
    exact ⟨d + y + b, hs _ _ ⟨d, y, hk _, hy, Nat.le_refl _⟩, by simp only [St.go, List.length_append, List.length_cons, List.length_nil]; omega⟩
  | @ask i n m ci k st v hat =>
    obtain ⟨n, h1, h2⟩ := h
    obtain ⟨a, b, ⟨x, y, hx, hy, hxy⟩, hab, hs⟩ := ts_set h1 hat
    obtain ⟨d, hk, hd⟩ := inv_ask hx
    exact ⟨d + y + b, hs _ _ ⟨d, y, hk _, hy, Nat.le_refl _⟩, by simp only [St.go, List.length_append, List.length_cons, List.length_nil]; omega⟩
  | read hat => exact go_inv h hat rfl rfl fun _ hp => inv_read hp _
  | copy hat => exact go_inv h hat rfl rfl fun _ hp => inv_copy hp _
  | new hat => exact go_inv h hat rfl rfl fun _ hp => inv_new hp _
  | answer hat => exact go_inv h hat rfl rfl fun _ hp => inv_answer hp _
  | upd hat => exact go_inv h hat rfl rfl fun _ hp => inv_upd hp
  | setName hat => exact go_inv h hat rfl rfl fun _ hp => inv_setName hp
  | pick x hat => exact go_inv h hat rfl rfl fun _ hp => inv_pick hp _
  | @goShare i m p k st hat =>
    obtain ⟨n, h1, h2⟩ := h
    obtain ⟨a, b, ⟨x, y, hx, hy, hxy⟩, hab, hs⟩ := ts_set h1 hat
    obtain ⟨c, d, hc, hd, hcd⟩ := inv_goShare hx
    have h3 : TC ⟨k, st⟩ (d + y) := ⟨d, y, hd, hy, Nat.le_refl _⟩
    have h4 : ∀ x, TC ⟨p x, []⟩ c := fun x => ⟨c, 0, hc x, .nil, Nat.le_refl _⟩
    exact ⟨d + y + b + c, ts_append (hs _ _ h3) (h4 _), by show s.asked.length + _ ≤ N; omega⟩
  | @goCopy i m f p k st hat =>
    obtain ⟨n, h1, h2⟩ := h
    obtain ⟨a, b, ⟨x, y, hx, hy, hxy⟩, hab, hs⟩ := ts_set h1 hat
    obtain ⟨c, d, hc, hd, hcd⟩ := inv_goCopy hx
    have h3 : TC ⟨k, st⟩ (d + y) := ⟨d, y, hd, hy, Nat.le_refl _⟩
    have h4 : ∀ x, TC ⟨p x, []⟩ c := fun x => ⟨c, 0, hc x, .nil, Nat.le_refl _⟩
    exact ⟨d + y + b + c, ts_append (hs _ _ h3) (h4 _), by show s.asked.length + _ ≤ N; omega⟩
  | chan hat => exact go_inv h hat rfl rfl fun _ hp => inv_chan hp _
  | send hat _ => exact go_inv h hat rfl rfl fun _ hp => inv_send hp
  | recv hat _ => exact go_inv h hat rfl rfl fun _ hp => inv_recv hp _
  | lead hat => exact go_inv h hat rfl rfl fun _ hp => (inv_enter hp).2 _
  | join hat _ => exact go_inv h hat rfl rfl fun _ hp => .wait (inv_enter hp).1
  | wait hat _ => exact go_inv h hat rfl rfl fun _ hp => inv_wait hp _
  | land hat _ => exact go_inv h hat rfl rfl fun _ hp => inv_land hp

/-- **C100.** However many queries clients send, at the same time or not, and whatever servers, lists, caches, chance and scheduling do: at any time the servers have been asked no more
queries than the configuration allows for each of them, altogether. -/
theorem asked_bounded (roots : List (Root H)) (cost : Root H → Nat) (hc : ∀ r ∈ roots, Costs r.tree (cost r)) (s : St H) (h : Steps (init roots) s) :
    s.asked.length ≤ (roots.map cost).sum := by
  have h0 : Inv (roots.map cost).sum (init roots) := by
    refine ⟨(roots.map cost).sum, ?_, by simp [init]⟩
    simp only [init]
    generalize hf : (fun (j : Nat) (r : Root H) => (⟨.call r.tree (rootPtr j) r.ci .ret, []⟩ : Thread H)) = f
    have hfc : ∀ j r, r ∈ roots → TC (f j r) (cost r) := by
      intro j r hr
      subst hf
      exact ⟨cost r, 0, call_ret (hc r hr), .nil, Nat.le_refl _⟩
    clear hf hc h
    induction roots generalizing f with
    | nil => exact .nil
    | cons r rs ih =>
      rw [List.mapIdx_cons]
      exact .cons (hfc 0 r (by simp)) (ih _ fun j x hx => hfc (j + 1) x (by simp [hx]))
  have key : ∀ {a b : St H}, Steps a b → Inv (roots.map cost).sum a → Inv (roots.map cost).sum b := by
    intro a b hab
    induction hab with
    | refl => exact id
    | step _ hst ih => exact fun ha => inv_step (ih ha) hst
  obtain ⟨n, _, hn⟩ := key h h0
  omega

section Examples

/-- A cache in front of three servers in a fail-over group, behind DNS64. -/
private def three : Tree Nat := .dns64 [] (.failRotate 3 (fun _ => true) fun i => .client i)

example : Costs three 6 := .dns64 (c := 3 * 1) (.failRotate fun _ => .client)
example : Costs (Tree.fastest 2 fun i => if i = 0 then .client 0 else three) 7 := by
  refine .fastest (c := fun i => if i = 0 then 1 else 6) fun i => ?_
  by_cases h : i = 0
  · subst h; exact .client
  · simp only [h, if_false]; exact .dns64 (c := 3 * 1) (.failRotate fun _ => .client)

private theorem trans {a b c : St H} (h : Steps a b) (h2 : Steps b c) : Steps a c := by
  induction h2 with
  | refl => exact h
  | step _ hs ih => exact .step ih hs

private theorem first {a b : St H} {P : St H → Prop} (h : Step a b) (h2 : ∃ s, Steps b s ∧ P s) : ∃ s, Steps a s ∧ P s := by
  obtain ⟨s, h3, h4⟩ := h2
  exact ⟨s, trans (.step .refl h) h3, h4⟩

/-- The bound is reached: two servers of a fail-over group fail. -/
example : ∃ s, Steps (init [⟨.failRotate 2 (fun _ => true) (fun i => Tree.client (H := Nat) i), {}, {}⟩]) s ∧ s.asked.length = 2 := by
  refine first (.call (i := 0) rfl) ?_
  refine first (.pick (i := 0) (0 : Nat) rfl) ?_
  refine first (.call (i := 0) rfl) ?_
  refine first (.askFail (i := 0) rfl) ?_
  refine first (.ret (i := 0) rfl) ?_
  refine first (.pick (i := 0) false rfl) ?_
  refine first (.pick (i := 0) (1 : Nat) rfl) ?_
  refine first (.call (i := 0) rfl) ?_
  refine first (.askFail (i := 0) rfl) ?_
  exact ⟨_, .refl, rfl⟩

end Examples

end Verif.Props.Effort
