import Verif.Model.OdohTimed
import Verif.Props.Dialing
/-! C109: ODoH upstreams: time limits, fetching of keys, and where connections go. -/
namespace Verif.Props.OdohTimed
open Verif Verif.OdohTimed Verif.Dialing
open Verif.Validate (splitHostPort joinHostPort)

variable {K : Type}

/-- What a call satisfies when it is not at the lock. -/
def CallOk (F T now : Nat) (c : Call K) : Prop := match c.ph with
  | .waiting => True
  | .fetching t => t ≤ c.arrived + c.before * F ∧ t ≤ now
  | .asking _ t => t ≤ c.arrived + (c.before + 1) * F ∧ now ≤ t + T
  | .over t => t ≤ c.arrived + (c.before + 1) * F + T

structure Inv (F T : Nat) (s : St K) : Prop where
  ok : ∀ i c, s.calls i = some c → CallOk F T s.now c
  limit : ∀ i c t, s.calls i = some c → c.ph = .fetching t → s.now ≤ t + F
  holder : ∀ i c t, s.calls i = some c → c.ph = .fetching t → s.lock = some i
  held : ∀ j, s.lock = some j → ∃ c t, s.calls j = some c ∧ c.ph = .fetching t
  free : s.lock = none → ∀ i c, s.calls i = some c → c.ph = .waiting → s.now ≤ c.arrived + c.before * F
  behind : ∀ j c t, s.calls j = some c → c.ph = .fetching t → ∀ i c', s.calls i = some c' → c'.ph = .waiting →
    t + F ≤ c'.arrived + c'.before * F

theorem put_self (s : St K) (i : Nat) (c : Call K) : s.put i c i = some c := by simp [St.put]
theorem put_other (s : St K) {i j : Nat} (c : Call K) (h : j ≠ i) : s.put i c j = s.calls j := by simp [St.put, h]

theorem put_cases {s : St K} {i j : Nat} {c x : Call K} (h : s.put i c j = some x) : (j = i ∧ x = c) ∨ (j ≠ i ∧ s.calls j = some x) := by
  by_cases hj : j = i
  · subst hj
    rw [put_self] at h
    exact .inl ⟨rfl, (Option.some.inj h).symm⟩
  · rw [put_other s c hj] at h
    exact .inr ⟨hj, h⟩

/-- A call that was waiting at a free lock goes on without fetching. -/
theorem inv_go {F T : Nat} {s : St K} (h : Inv F T s) {i : Nat} {c : Call K} (hc : s.calls i = some c) (hw : c.ph = .waiting)
    (hl : s.lock = none) (ph : Phase K) (hph : (∃ k, ph = .asking k s.now) ∨ ph = .over s.now) {s' : St K} (h1 : s'.now = s.now) (h2 : s'.lock = s.lock)
    (h3 : s'.calls = s.put i { c with ph := ph }) : Inv F T s' := by
  have nf : ∀ t, ph ≠ .fetching t := by
    intro t e
    rcases hph with ⟨k, hk⟩ | hk <;> rw [hk] at e <;> cases e
  have nw : ph ≠ .waiting := by
    intro e
    rcases hph with ⟨k, hk⟩ | hk <;> rw [hk] at e <;> cases e
  have hfr := h.free hl i c hc hw
  refine ⟨?_, ?_, ?_, ?_, ?_, ?_⟩
  · intro j x hx
    rw [h3] at hx
    rw [h1]
    rcases put_cases hx with ⟨rfl, rfl⟩ | ⟨_, hx⟩
    · rcases hph with ⟨k, rfl⟩ | rfl
      · refine ⟨?_, Nat.le_add_right _ _⟩
        show s.now ≤ c.arrived + (c.before + 1) * F
        rw [Nat.add_mul]; omega
      · show s.now ≤ c.arrived + (c.before + 1) * F + T
        rw [Nat.add_mul]; omega
    · exact h.ok j x hx
  · intro j x t hx hp
    rw [h3] at hx
    rw [h1]
    rcases put_cases hx with ⟨rfl, rfl⟩ | ⟨_, hx⟩
    · exact absurd hp (nf t)
    · exact h.limit j x t hx hp
  · intro j x t hx hp
    rw [h3] at hx
    rw [h2]
    rcases put_cases hx with ⟨rfl, rfl⟩ | ⟨_, hx⟩
    · exact absurd hp (nf t)
    · exact h.holder j x t hx hp
  · intro j hj
    rw [h2, hl] at hj
    cases hj
  · intro _ j x hx hp
    rw [h3] at hx
    rw [h1]
    rcases put_cases hx with ⟨rfl, rfl⟩ | ⟨_, hx⟩
    · exact absurd hp nw
    · exact h.free hl j x hx hp
  · intro j x t hx hp
    rw [h3] at hx
    rcases put_cases hx with ⟨rfl, rfl⟩ | ⟨_, hx⟩
    · exact absurd hp (nf t)
    · have := h.holder j x t hx hp
      rw [hl] at this
      cases this

/-- The fetching call gives the lock back. -/
theorem inv_release {F T : Nat} {s : St K} (h : Inv F T s) {i t : Nat} {c : Call K} (hc : s.calls i = some c) (hw : c.ph = .fetching t)
    (ph : Phase K) (hph : (∃ k, ph = .asking k s.now) ∨ ph = .over s.now) {s' : St K} (h1 : s'.now = s.now) (h2 : s'.lock = none)
    (h3 : s'.calls = s.put i { c with ph := ph }) : Inv F T s' := by
  have nf : ∀ t, ph ≠ .fetching t := by
    intro t e
    rcases hph with ⟨k, hk⟩ | hk <;> rw [hk] at e <;> cases e
  have nw : ph ≠ .waiting := by
    intro e
    rcases hph with ⟨k, hk⟩ | hk <;> rw [hk] at e <;> cases e
  have hlim := h.limit i c t hc hw
  have hok := h.ok i c hc
  have hhold := h.holder i c t hc hw
  simp only [CallOk, hw] at hok
  have none_else : ∀ j x t', j ≠ i → s.calls j = some x → x.ph = .fetching t' → False := by
    intro j x t' hj hx hp
    have := h.holder j x t' hx hp
    rw [hhold] at this
    exact hj (Option.some.inj this).symm
  refine ⟨?_, ?_, ?_, ?_, ?_, ?_⟩
  · intro j x hx
    rw [h3] at hx
    rw [h1]
    rcases put_cases hx with ⟨rfl, rfl⟩ | ⟨_, hx⟩
    · rcases hph with ⟨k, rfl⟩ | rfl
      · refine ⟨?_, Nat.le_add_right _ _⟩
        show s.now ≤ c.arrived + (c.before + 1) * F
        rw [Nat.add_mul]; omega
      · show s.now ≤ c.arrived + (c.before + 1) * F + T
        rw [Nat.add_mul]; omega
    · exact h.ok j x hx
  · intro j x t' hx hp
    rw [h3] at hx
    rcases put_cases hx with ⟨rfl, rfl⟩ | ⟨hj, hx⟩
    · exact absurd hp (nf t')
    · exact (none_else j x t' hj hx hp).elim
  · intro j x t' hx hp
    rw [h3] at hx
    rcases put_cases hx with ⟨rfl, rfl⟩ | ⟨hj, hx⟩
    · exact absurd hp (nf t')
    · exact (none_else j x t' hj hx hp).elim
  · intro j hj
    rw [h2] at hj
    cases hj
  · intro _ j x hx hp
    rw [h3] at hx
    rw [h1]
    rcases put_cases hx with ⟨rfl, rfl⟩ | ⟨_, hx⟩
    · exact absurd hp nw
    · have := h.behind i c t hc hw j x hx hp
      omega
  · intro j x t' hx hp
    rw [h3] at hx
    rcases put_cases hx with ⟨rfl, rfl⟩ | ⟨hj, hx⟩
    · exact absurd hp (nf t')
    · exact (none_else j x t' hj hx hp).elim

theorem inv_step {F T : Nat} {p : Preset K} {s s' : St K} (h : Inv F T s) (hs : Step T p s s')
    (hlim : ∀ i c t, s'.calls i = some c → c.ph = .fetching t → s'.now ≤ t + F) : Inv F T s' := by
  cases hs with
  | call i hi =>
    refine ⟨?_, hlim, ?_, ?_, ?_, ?_⟩
    · intro j x hx
      rcases put_cases hx with ⟨rfl, rfl⟩ | ⟨_, hx⟩
      · trivial
      · exact h.ok j x hx
    · intro j x t hx hp
      rcases put_cases hx with ⟨rfl, rfl⟩ | ⟨_, hx⟩
      · cases hp
      · exact h.holder j x t hx hp
    · intro j hj
      obtain ⟨c, t, hc, hp⟩ := h.held j hj
      refine ⟨c, t, ?_, hp⟩
      have : j ≠ i := by rintro rfl; rw [hi] at hc; cases hc
      exact (put_other s _ this).trans hc
    · intro hl j x hx hp
      rcases put_cases hx with ⟨rfl, rfl⟩ | ⟨_, hx⟩
      · exact Nat.le_add_right _ _
      · exact h.free hl j x hx hp
    · intro j x t hx hp j' x' hx' hp'
      rcases put_cases hx with ⟨rfl, rfl⟩ | ⟨_, hy⟩
      · cases hp
      · rcases put_cases hx' with ⟨rfl, rfl⟩ | ⟨_, hx'⟩
        · have hh := h.holder j x t hy hp
          have hok := h.ok j x hy
          simp only [CallOk, hp] at hok
          simp only [hh, reduceCtorEq, if_false]
          omega
        · exact h.behind j x t hy hp j' x' hx' hp'
  | preset i c k hc hw hl _ => exact inv_go h hc hw hl _ (.inl ⟨k, rfl⟩) rfl rfl rfl
  | unreadable i c hc hw hl _ => exact inv_go h hc hw hl _ (.inr rfl) rfl rfl rfl
  | cached i c k hc hw hl _ _ _ => exact inv_go h hc hw hl _ (.inl ⟨k, rfl⟩) rfl rfl rfl
  | got i c t k hc hw => exact inv_release h hc hw _ (.inl ⟨k, rfl⟩) rfl rfl rfl
  | failed i c t hc hw => exact inv_release h hc hw _ (.inr rfl) rfl rfl rfl
  | fetch i c hc hw hl hp hx =>
    have hfr := h.free hl i c hc hw
    have nof : ∀ j x t, s.calls j = some x → x.ph = .fetching t → False := by
      intro j x t hx hp
      have := h.holder j x t hx hp
      rw [hl] at this
      cases this
    have cases' : ∀ {j : Nat} {x : Call K}, (if j = i then some { c with ph := Phase.fetching s.now } else (s.calls j).map passed) = some x →
        (j = i ∧ x = { c with ph := .fetching s.now }) ∨ (j ≠ i ∧ ∃ y, s.calls j = some y ∧ x = passed y) := by
      intro j x hx
      by_cases hj : j = i
      · rw [if_pos hj] at hx
        exact .inl ⟨hj, (Option.some.inj hx).symm⟩
      · rw [if_neg hj] at hx
        obtain ⟨y, hy, rfl⟩ := Option.map_eq_some_iff.1 hx
        exact .inr ⟨hj, y, hy, rfl⟩
    have phs : ∀ y : Call K, (passed y).ph = y.ph := by
      intro y
      unfold passed
      split <;> rfl
    refine ⟨?_, hlim, ?_, ?_, ?_, ?_⟩
    · intro j x hx
      rcases cases' hx with ⟨_, rfl⟩ | ⟨_, y, hy, rfl⟩
      · exact ⟨hfr, Nat.le_refl _⟩
      · have := h.ok j y hy
        unfold passed
        split
        · next e => simp only [CallOk, e]
        · exact this
    · intro j x t hx hp
      rcases cases' hx with ⟨rfl, rfl⟩ | ⟨_, y, hy, rfl⟩
      · rfl
      · rw [phs] at hp
        exact (nof j y t hy hp).elim
    · intro j hj
      cases hj
      exact ⟨_, _, if_pos rfl, rfl⟩
    · intro hl'
      cases hl'
    · intro j x t hx hp j' x' hx' hp'
      rcases cases' hx with ⟨rfl, rfl⟩ | ⟨_, y, hy, rfl⟩
      · cases hp
        rcases cases' hx' with ⟨_, rfl⟩ | ⟨_, y', hy', rfl⟩
        · cases hp'
        · rw [phs] at hp'
          have := h.free hl j' y' hy' hp'
          simp only [passed, hp', Nat.add_mul]
          omega
      · rw [phs] at hp
        exact (nof j y t hy hp).elim
  | done i c k t hc hw =>
    have hok := h.ok i c hc
    simp only [CallOk, hw] at hok
    refine ⟨?_, hlim, ?_, ?_, ?_, ?_⟩
    · intro j x hx
      rcases put_cases hx with ⟨rfl, rfl⟩ | ⟨_, hx⟩
      · show s.now ≤ c.arrived + (c.before + 1) * F + T
        omega
      · exact h.ok j x hx
    · intro j x t hx hp
      rcases put_cases hx with ⟨rfl, rfl⟩ | ⟨_, hx⟩
      · cases hp
      · exact h.holder j x t hx hp
    · intro j hj
      obtain ⟨x, t', hx, hp⟩ := h.held j hj
      refine ⟨x, t', ?_, hp⟩
      have : j ≠ i := by
        rintro rfl
        rw [hc] at hx
        cases hx
        rw [hw] at hp
        cases hp
      exact (put_other s _ this).trans hx
    · intro hl j x hx hp
      rcases put_cases hx with ⟨rfl, rfl⟩ | ⟨_, hx⟩
      · cases hp
      · exact h.free hl j x hx hp
    · intro j x t hx hp j' x' hx' hp'
      rcases put_cases hx with ⟨rfl, rfl⟩ | ⟨_, hx⟩
      · cases hp
      · rcases put_cases hx' with ⟨rfl, rfl⟩ | ⟨_, hx'⟩
        · cases hp'
        · exact h.behind j x t hx hp j' x' hx' hp'
  | pass h1 h2 =>
    refine ⟨?_, hlim, h.holder, h.held, ?_, h.behind⟩
    · intro j x hx
      have hok := h.ok j x hx
      simp only [CallOk] at hok ⊢
      split
      · trivial
      · next t e => rw [e] at hok; exact ⟨hok.1, Nat.le_succ_of_le hok.2⟩
      · next k t e => rw [e] at hok; exact ⟨hok.1, h2 j x k t hx e⟩
      · next t e => rw [e] at hok; exact hok
    · intro hl j x hx hp
      exact absurd hp (h1 hl j x hx)

/-- **Time limits.** If fetching a key takes at most `F`, a call is over after the time for fetching keys, once for itself and once for each other call that was
fetching one when it came or began to before it could, and the query timeout. -/
theorem odoh_call_in_time {T F : Nat} {p : Preset K} {s : St K} (h : Reach T p (some F) s) {i : Nat} {c : Call K} (hc : s.calls i = some c) :
    (∀ t, c.ph = .over t → t ≤ c.arrived + (c.before + 1) * F + T) ∧
    ((∀ t, c.ph ≠ .over t) → s.now ≤ c.arrived + (c.before + 1) * F + T) := by
  have inv : Inv F T s := by
    clear hc
    induction h with
    | new => exact ⟨by simp, by simp, by simp, by simp, by simp, by simp⟩
    | step s s' _ hs hl ih => exact inv_step ih hs (hl F rfl)
  have hok := inv.ok i c hc
  refine ⟨fun t ht => ?_, fun hn => ?_⟩
  · simp only [CallOk, ht] at hok
    exact hok
  · rcases hph : c.ph with _ | t | ⟨k, t⟩ | t
    · rcases hl : s.lock with _ | j
      · have := inv.free hl i c hc hph
        rw [Nat.add_mul]; omega
      · obtain ⟨x, t, hx, hp⟩ := inv.held j hl
        have h1 := inv.behind j x t hx hp i c hc hph
        have h2 := inv.limit j x t hx hp
        rw [Nat.add_mul]; omega
    · have h2 := inv.limit i c t hc hph
      simp only [CallOk, hph] at hok
      rw [Nat.add_mul]; omega
    · simp only [CallOk, hph] at hok
      omega
    · exact absurd hph (hn t)

/-! ### Keys -/

/-- The times of the past are not in the future, and the key is that of the latest fetch. -/
structure KeyInv (s : St K) : Prop where
  have_ : ∀ k, s.config = some k → ∃ t rest, s.fetched = (t, k) :: rest ∧ s.expiry = t + day ∧ t ≤ s.now ∧ ∀ x ∈ s.failures, x ≤ t
  lost : s.config = none → s.fetched = [] ∨ ∃ x ∈ s.failures, ∀ y ∈ s.fetched, y.1 ≤ x
  past : ∀ y ∈ s.fetched, y.1 ≤ s.now
  failPast : ∀ x ∈ s.failures, x ≤ s.now
  order : s.fetched.Pairwise fun a b => b.1 ≤ a.1
  asked : ∀ i c k t, s.calls i = some c → c.ph = .asking k t → t ≤ s.now ∧ ∃ t', (t', k) ∈ s.fetched ∧ t' ≤ t ∧ t ≤ t' + day ∧
    (∀ y ∈ s.fetched, y.1 ≤ t' ∨ t ≤ y.1) ∧ ∀ x ∈ s.failures, x ≤ t' ∨ t ≤ x
  begun : ∀ b ∈ s.begun, b ≤ s.now ∧ ∀ y ∈ s.fetched, y.1 < b → y.1 + day < b ∨ ∃ x ∈ s.failures, y.1 ≤ x ∧ x ≤ b

theorem key_step {T : Nat} {s s' : St K} (h : KeyInv s) (hs : Step T .none s s') : KeyInv s' := by
  cases hs with
  | call i hi =>
    refine ⟨h.have_, h.lost, h.past, h.failPast, h.order, ?_, h.begun⟩
    intro j x k t hx hp
    rcases put_cases hx with ⟨rfl, rfl⟩ | ⟨_, hx⟩
    · cases hp
    · exact h.asked j x k t hx hp
  | preset i c k _ _ _ hp => cases hp
  | unreadable i c _ _ _ hp => cases hp
  | cached i c k hc hw hl _ hk he =>
    refine ⟨h.have_, h.lost, h.past, h.failPast, h.order, ?_, h.begun⟩
    intro j x k' t hx hp
    rcases put_cases hx with ⟨rfl, rfl⟩ | ⟨_, hx⟩
    · cases hp
      obtain ⟨t, rest, hf, hex, ht, hfl⟩ := h.have_ k hk
      refine ⟨Nat.le_refl _, t, by simp [hf], ht, by rw [hex] at he; omega, ?_, fun x hx => .inl (hfl x hx)⟩
      intro y hy
      rw [hf] at hy
      have ho := h.order
      rw [hf] at ho
      rcases List.mem_cons.1 hy with rfl | hy
      · exact .inl (Nat.le_refl _)
      · exact .inl ((List.pairwise_cons.1 ho).1 y hy)
    · exact h.asked j x k' t hx hp
  | fetch i c hc hw hl _ hx =>
    refine ⟨h.have_, h.lost, h.past, h.failPast, h.order, ?_, ?_⟩
    · intro j x k t hx hp
      by_cases hj : j = i
      · simp only [hj, if_pos, Option.some.injEq] at hx
        subst hx
        cases hp
      · simp only [hj, if_false, Option.map_eq_some_iff] at hx
        obtain ⟨y, hy, rfl⟩ := hx
        have : y.ph = .asking k t := by
          unfold passed at hp
          split at hp
          · next e => rw [e] at hp; cases hp
          · exact hp
        exact h.asked j y k t hy this
    · intro b hb
      rcases List.mem_cons.1 hb with rfl | hb
      · refine ⟨Nat.le_refl _, ?_⟩
        intro y hy hyb
        rcases hc' : s.config with _ | k
        · rcases h.lost hc' with hn | ⟨x, hx, hall⟩
          · rw [hn] at hy; cases hy
          · exact .inr ⟨x, hx, hall y hy, h.failPast x hx⟩
        · obtain ⟨t, rest, hf, hex, ht, _⟩ := h.have_ k hc'
          have hexp : s.now > s.expiry := hx.resolve_left (by rw [hc']; simp)
          left
          have ho := h.order
          rw [hf] at ho hy
          rcases List.mem_cons.1 hy with rfl | hy
          · show t + day < s.now
            omega
          · have := (List.pairwise_cons.1 ho).1 y hy
            simp only at this
            omega
      · exact h.begun b hb
  | got i c t k hc hw =>
    refine ⟨?_, ?_, ?_, h.failPast, ?_, ?_, ?_⟩
    · intro k' hk'
      cases hk'
      exact ⟨s.now, s.fetched, rfl, rfl, Nat.le_refl _, h.failPast⟩
    · intro hn; cases hn
    · intro y hy
      rcases List.mem_cons.1 hy with rfl | hy
      · exact Nat.le_refl _
      · exact h.past y hy
    · exact List.pairwise_cons.2 ⟨fun y hy => h.past y hy, h.order⟩
    · intro j x k' t' hx hp
      rcases put_cases hx with ⟨rfl, rfl⟩ | ⟨_, hx⟩
      · cases hp
        refine ⟨Nat.le_refl _, s.now, by simp, Nat.le_refl _, Nat.le_add_right _ _, ?_, fun x hx => .inl (h.failPast x hx)⟩
        intro y hy
        rcases List.mem_cons.1 hy with rfl | hy
        · exact .inl (Nat.le_refl _)
        · exact .inl (h.past y hy)
      · obtain ⟨h1, t'', h2, h3, h4, h5, h6⟩ := h.asked j x k' t' hx hp
        refine ⟨h1, t'', List.mem_cons_of_mem _ h2, h3, h4, ?_, h6⟩
        intro y hy
        rcases List.mem_cons.1 hy with rfl | hy
        · exact .inr h1
        · exact h5 y hy
    · intro b hb
      obtain ⟨h1, h2⟩ := h.begun b hb
      refine ⟨h1, ?_⟩
      intro y hy hyb
      rcases List.mem_cons.1 hy with rfl | hy
      · exact absurd hyb (Nat.not_lt.2 h1)
      · exact h2 y hy hyb
  | failed i c t hc hw =>
    refine ⟨fun k hk => by simp at hk, fun _ => .inr ⟨s.now, by simp, h.past⟩, h.past, ?_, h.order, ?_, ?_⟩
    · intro x hx
      rcases List.mem_cons.1 hx with rfl | hx
      · exact Nat.le_refl _
      · exact h.failPast x hx
    · intro j x k' t' hx hp
      rcases put_cases hx with ⟨rfl, rfl⟩ | ⟨_, hx⟩
      · cases hp
      · obtain ⟨h1, t'', h2, h3, h4, h5, h6⟩ := h.asked j x k' t' hx hp
        refine ⟨h1, t'', h2, h3, h4, h5, ?_⟩
        intro y hy
        rcases List.mem_cons.1 hy with rfl | hy
        · exact .inr h1
        · exact h6 y hy
    · intro b hb
      obtain ⟨h1, h2⟩ := h.begun b hb
      refine ⟨h1, ?_⟩
      intro y hy hyb
      rcases h2 y hy hyb with h | ⟨x, hx, hxx⟩
      · exact .inl h
      · exact .inr ⟨x, List.mem_cons_of_mem _ hx, hxx⟩
  | done i c k t hc hw =>
    refine ⟨h.have_, h.lost, h.past, h.failPast, h.order, ?_, h.begun⟩
    intro j x k' t' hx hp
    rcases put_cases hx with ⟨rfl, rfl⟩ | ⟨_, hx⟩
    · cases hp
    · exact h.asked j x k' t' hx hp
  | pass h1 h2 =>
    refine ⟨?_, h.lost, fun y hy => Nat.le_succ_of_le (h.past y hy), fun x hx => Nat.le_succ_of_le (h.failPast x hx), h.order, ?_, ?_⟩
    · intro k hk
      obtain ⟨t, rest, a, b, c, d⟩ := h.have_ k hk
      exact ⟨t, rest, a, b, Nat.le_succ_of_le c, d⟩
    · intro j x k t hx hp
      obtain ⟨a, b⟩ := h.asked j x k t hx hp
      exact ⟨Nat.le_succ_of_le a, b⟩
    · intro b hb
      obtain ⟨a, c⟩ := h.begun b hb
      exact ⟨Nat.le_succ_of_le a, c⟩

theorem key_inv {T : Nat} {F : Option Nat} {s : St K} (h : Reach T .none F s) : KeyInv s := by
  induction h with
  | new => exact ⟨by simp, by simp, by simp, by simp, by simp, by simp, by simp⟩
  | step s s' _ hs _ ih => exact key_step ih hs

/-- A day in nanoseconds. -/
def aDay : Nat := 86400000000000

theorem a_day : day = aDay := by decide

/-- **Fresh keys.** A query is encrypted with the key fetched last, which was fetched no more than a day before, and fetching has not failed since. -/
theorem odoh_latest_key {T : Nat} {F : Option Nat} {s : St K} (h : Reach T .none F s) {i : Nat} {c : Call K} {k : K} {t : Nat} (hc : s.calls i = some c)
    (hp : c.ph = .asking k t) : ∃ t', (t', k) ∈ s.fetched ∧ t' ≤ t ∧ t ≤ t' + aDay ∧
      (∀ y ∈ s.fetched, y.1 ≤ t' ∨ t ≤ y.1) ∧ ∀ x ∈ s.failures, x ≤ t' ∨ t ≤ x :=
  a_day ▸ ((key_inv h).asked i c k t hc hp).2

/-- **Keys are kept for a day.** Fetching begins only if no key was fetched within the day before, or fetching one failed since. -/
theorem odoh_key_kept {T : Nat} {F : Option Nat} {s : St K} (h : Reach T .none F s) {b : Nat} (hb : b ∈ s.begun) {t : Nat} {k : K}
    (hy : (t, k) ∈ s.fetched) (ht : t < b) : t + aDay < b ∨ ∃ x ∈ s.failures, t ≤ x ∧ x ≤ b :=
  a_day ▸ ((key_inv h).begun b hb).2 _ hy ht

/-- **A preset key** is the only one used, and none is fetched. -/
theorem odoh_preset_key {T : Nat} {F : Option Nat} {p : Preset K} (hp : p ≠ .none) {s : St K} (h : Reach T p F s) :
    s.begun = [] ∧ ∀ i c k t, s.calls i = some c → c.ph = .asking k t → p = .key k := by
  suffices H : s.begun = [] ∧ ∀ i c, s.calls i = some c → (∀ t, c.ph ≠ .fetching t) ∧ ∀ k t, c.ph = .asking k t → p = .key k from
    ⟨H.1, fun i c k t hc => (H.2 i c hc).2 k t⟩
  induction h with
  | new => exact ⟨rfl, by simp⟩
  | step s s' _ hs _ ih =>
    cases hs with
    | call i hi =>
      refine ⟨ih.1, fun j x hx => ?_⟩
      rcases put_cases hx with ⟨rfl, rfl⟩ | ⟨_, hx⟩
      · exact ⟨by simp, by simp⟩
      · exact ih.2 j x hx
    | preset i c k hc hw hl hk =>
      refine ⟨ih.1, fun j x hx => ?_⟩
      rcases put_cases hx with ⟨rfl, rfl⟩ | ⟨_, hx⟩
      · exact ⟨by simp, fun k' t e => by cases e; exact hk⟩
      · exact ih.2 j x hx
    | unreadable i c hc hw hl hk =>
      refine ⟨ih.1, fun j x hx => ?_⟩
      rcases put_cases hx with ⟨rfl, rfl⟩ | ⟨_, hx⟩
      · exact ⟨by simp, by simp⟩
      · exact ih.2 j x hx
    | cached i c k hc hw hl hk => exact absurd hk hp
    | fetch i c hc hw hl hk => exact absurd hk hp
    | got i c t k hc hw => exact absurd hw ((ih.2 i c hc).1 t)
    | failed i c t hc hw => exact absurd hw ((ih.2 i c hc).1 t)
    | done i c k t hc hw =>
      refine ⟨ih.1, fun j x hx => ?_⟩
      rcases put_cases hx with ⟨rfl, rfl⟩ | ⟨_, hx⟩
      · exact ⟨by simp, by simp⟩
      · exact ih.2 j x hx
    | pass h1 h2 => exact ih

/-! ### Findings: waiting -/

/-- Time can pass while a key is being fetched. -/
theorem wait {T : Nat} {p : Preset K} {F : Option Nat} {s : St K} (h : Reach T p F s) {j : Nat} (hl : s.lock = some j)
    (ha : ∀ i c k t, s.calls i = some c → c.ph ≠ .asking k t) (n : Nat)
    (hf : ∀ f, F = some f → ∀ i c t, s.calls i = some c → c.ph = .fetching t → s.now + n ≤ t + f) : Reach T p F { s with now := s.now + n } := by
  induction n with
  | zero => exact h
  | succ n ih =>
    refine .step _ _ (ih fun f e i c t hc hp => by have := hf f e i c t hc hp; omega)
      (.pass _ (fun e => nomatch (hl.symm.trans e)) (fun i c k t hc hp => absurd hp (ha i c k t hc))) ?_
    intro f e i c t hc hp
    have := hf f e i c t hc hp
    show s.now + n + 1 ≤ t + f
    omega

/-- Some calls are made at the start. -/
def atOnce (K : Type) (n : Nat) : St K := { calls := fun j => if j < n then some ⟨0, 0, .waiting⟩ else none }

theorem at_once (T : Nat) (p : Preset K) (F : Option Nat) (n : Nat) : Reach T p F (atOnce K n) := by
  induction n with
  | zero =>
    have : atOnce K 0 = {} := by simp [atOnce]
    rw [this]
    exact .new
  | succ n ih =>
    refine .step _ _ ih ?_ ?_
    · have e : atOnce K (n + 1) = { atOnce K n with calls := (atOnce K n).put n ⟨(atOnce K n).now, if (atOnce K n).lock = none then 0 else 1, .waiting⟩ } := by
        unfold atOnce St.put
        congr 1
        funext j
        by_cases h1 : j = n
        · simp [h1]
        · by_cases h2 : j < n
          · simp [h1, h2, Nat.lt_succ_of_lt h2]
          · simp [h1, h2, show ¬ j < n + 1 by omega]
      rw [e]
      exact .call _ n (by simp [atOnce])
    · intro f _ i c t hc hp
      simp only [atOnce] at hc
      split at hc
      · cases hc; cases hp
      · cases hc

/-- The state after a call has begun to fetch. -/
def fetching (s : St K) (i : Nat) (c : Call K) : St K :=
  { s with lock := some i, begun := s.now :: s.begun, calls := fun j => if j = i then some { c with ph := .fetching s.now } else (s.calls j).map passed }

/-- **Finding: waiting without end.** Fetching a key has no time limit of its own, and calls wait for one another: a query can be without an answer for any length
of time, whatever the query timeout, and whether it is the one that fetches the key (0) or not (1). -/
theorem odoh_no_limit (T n : Nat) : ∃ s : St K, Reach T .none none s ∧ s.now = n ∧ s.calls 0 = some ⟨0, 0, .fetching 0⟩ ∧ s.calls 1 = some ⟨0, 1, .waiting⟩ := by
  have h0 := at_once (K := K) T .none none 2
  have h1 : Reach T .none none (fetching (atOnce K 2) 0 ⟨0, 0, .waiting⟩) :=
    .step _ _ h0 (.fetch _ 0 _ rfl rfl rfl rfl (.inl rfl)) (by simp)
  refine ⟨_, wait h1 (j := 0) rfl ?_ n (by simp), ?_, rfl, rfl⟩
  · intro i c k t hc hp
    simp only [fetching, atOnce] at hc
    split at hc
    · cases hc; cases hp
    · split at hc
      · simp only [Option.map_some, Option.some.injEq] at hc
        subst hc
        simp [passed] at hp
      · cases hc
  · simp [fetching, atOnce]

/-- **Finding: failures add up.** Of `n` calls made at the same time to a target that cannot be reached, the last one gets its error after the time for `n` attempts:
the limit of `odoh_call_in_time` is the best there is (but for the query timeout, since nothing is sent). -/
theorem odoh_failures_add_up (T F n : Nat) : ∃ s : St K, Reach T .none (some F) s ∧ s.now = n * F ∧
    ∀ i, i < n → s.calls i = some ⟨0, i, .over ((i + 1) * F)⟩ := by
  suffices H : ∀ k, k ≤ n → ∃ s : St K, Reach T .none (some F) s ∧ s.now = k * F ∧ s.lock = none ∧ s.config = none ∧
      (∀ i, i < k → s.calls i = some ⟨0, i, .over ((i + 1) * F)⟩) ∧ (∀ i, k ≤ i → i < n → s.calls i = some ⟨0, k, .waiting⟩) ∧ ∀ i, n ≤ i → s.calls i = none by
    obtain ⟨s, h1, h2, _, _, h3, _⟩ := H n (Nat.le_refl _)
    exact ⟨s, h1, h2, h3⟩
  intro k
  induction k with
  | zero =>
    intro _
    refine ⟨_, at_once T .none (some F) n, by simp [atOnce], rfl, rfl, by simp, ?_, ?_⟩
    · intro i _ hi; simp [atOnce, hi]
    · intro i hi; simp [atOnce, Nat.not_lt.2 hi]
  | succ k ih =>
    intro hk
    obtain ⟨s, h1, h2, h3, h4, h5, h6, h7⟩ := ih (by omega)
    have hc := h6 k (Nat.le_refl _) (by omega)
    have all : ∀ i c, s.calls i = some c → (i < k ∧ c = ⟨0, i, .over ((i + 1) * F)⟩) ∨ (k ≤ i ∧ i < n ∧ c = ⟨0, k, .waiting⟩) := by
      intro i c hic
      by_cases a : i < k
      · rw [h5 i a] at hic
        exact .inl ⟨a, (Option.some.inj hic).symm⟩
      · by_cases b : i < n
        · rw [h6 i (by omega) b] at hic
          exact .inr ⟨by omega, b, (Option.some.inj hic).symm⟩
        · rw [h7 i (by omega)] at hic
          cases hic
    have shape : ∀ i c, (fetching s k ⟨0, k, .waiting⟩).calls i = some c → (i = k ∧ c = ⟨0, k, .fetching s.now⟩) ∨
        (i ≠ k ∧ ∃ y, s.calls i = some y ∧ c = passed y) := by
      intro i c hic
      simp only [fetching] at hic
      split at hic
      · next e => exact .inl ⟨e, (Option.some.inj hic).symm⟩
      · next e =>
        obtain ⟨y, hy, rfl⟩ := Option.map_eq_some_iff.1 hic
        exact .inr ⟨e, y, hy, rfl⟩
    have fetch_at : ∀ i c t, (fetching s k ⟨0, k, .waiting⟩).calls i = some c → c.ph = .fetching t → t = s.now := by
      intro i c t hic hp
      rcases shape i c hic with ⟨_, rfl⟩ | ⟨_, y, hy, rfl⟩
      · cases hp; rfl
      · rcases all i y hy with ⟨_, rfl⟩ | ⟨_, _, rfl⟩ <;> simp [passed] at hp
    have r1 : Reach T .none (some F) (fetching s k ⟨0, k, .waiting⟩) := by
      refine .step _ _ h1 (.fetch _ k _ hc rfl h3 rfl (.inl h4)) ?_
      intro f e i c t hic hp
      rw [fetch_at i c t hic hp]
      exact Nat.le_add_right _ _
    have r2 := wait r1 (j := k) rfl (by
      intro i c k' t hic hp
      rcases shape i c hic with ⟨_, rfl⟩ | ⟨_, y, hy, rfl⟩
      · cases hp
      · rcases all i y hy with ⟨_, rfl⟩ | ⟨_, _, rfl⟩ <;> simp [passed] at hp) F (by
      intro f e i c t hic hp
      cases e
      rw [fetch_at i c t hic hp]
      exact Nat.le_refl _)
    have hself : (fetching s k (⟨0, k, .waiting⟩ : Call K)).calls k = some ⟨0, k, .fetching s.now⟩ := by simp [fetching]
    refine ⟨_, .step _ _ r2 (.failed _ k ⟨0, k, .fetching s.now⟩ s.now hself rfl) ?_, ?_, rfl, rfl, ?_, ?_, ?_⟩
    · intro f e i c t hic hp
      rcases put_cases hic with ⟨_, rfl⟩ | ⟨hne, hic⟩
      · cases hp
      · cases e
        rw [fetch_at i c t hic hp]
        exact Nat.le_refl _
    · show s.now + F = (k + 1) * F
      rw [h2, Nat.add_mul, Nat.one_mul]
    · intro i hi
      by_cases e : i = k
      · subst e
        refine (put_self _ _ _).trans ?_
        simp only [fetching, h2, Nat.add_mul, Nat.one_mul]
      · refine (put_other _ _ e).trans ?_
        simp [fetching, e, h5 i (by omega), passed]
    · intro i hi hn
      have e : i ≠ k := by omega
      refine (put_other _ _ e).trans ?_
      simp [fetching, e, h6 i (by omega) hn, passed]
    · intro i hi
      have e : i ≠ k := by omega
      refine (put_other _ _ e).trans ?_
      simp [fetching, e, h7 i hi]

/-- Time can pass while there is nothing to do. -/
theorem idle {T : Nat} {p : Preset K} {F : Option Nat} {s : St K} (h : Reach T p F s) (ha : ∀ i c, s.calls i = some c → ∃ t, c.ph = .over t) (n : Nat) :
    Reach T p F { s with now := s.now + n } := by
  induction n with
  | zero => exact h
  | succ n ih =>
    refine .step _ _ ih (.pass _ (fun _ i c hc hp => ?_) (fun i c k t hc hp => ?_)) ?_
    · obtain ⟨t, e⟩ := ha i c hc
      rw [e] at hp; cases hp
    · obtain ⟨t, e⟩ := ha i c hc
      rw [e] at hp; cases hp
    · intro f _ i c t hc hp
      obtain ⟨t, e⟩ := ha i c hc
      rw [e] at hp; cases hp

/-- Two calls at once, the first fetches the key, which takes 3; both use it, and are over at once. -/
def afterTwo : St Nat where
  now := 3
  config := some 7
  expiry := 3 + day
  calls := fun j => if j = 1 then some ⟨0, 1, .over 3⟩ else if j = 0 then some ⟨0, 0, .over 3⟩ else none
  fetched := [(3, 7)]
  begun := [0]

private theorem no_asking {s : St Nat} (h : ∀ i c, s.calls i = some c → (∃ t, c.ph = .fetching t) ∨ c.ph = .waiting) :
    ∀ i c k t, s.calls i = some c → c.ph ≠ .asking k t := by
  intro i c k t hc hp
  rcases h i c hc with ⟨t, e⟩ | e <;> rw [e] at hp <;> cases hp

theorem after_two : Reach 2 .none (some 4) afterTwo := by
  have h1 : Reach 2 .none (some 4) (fetching (atOnce Nat 2) 0 ⟨0, 0, .waiting⟩) := by
    refine .step _ _ (at_once (K := Nat) 2 .none (some 4) 2) (.fetch _ 0 _ rfl rfl rfl rfl (.inl rfl)) ?_
    intro f _ i c t hc hp
    exact Nat.le_trans (Nat.zero_le _) (Nat.le_refl _)
  have h2 := wait h1 (j := 0) rfl (no_asking (by
    intro i c hc
    match i, hc with
    | 0, hc => cases hc; exact .inl ⟨_, rfl⟩
    | 1, hc => cases hc; exact .inr rfl
    | i + 2, hc => simp [fetching, atOnce] at hc; omega)) 3 (by
    intro f e i c t hc hp
    cases e
    show 0 + 3 ≤ t + 4
    omega)
  have h3 := Reach.step _ _ h2 (.got _ 0 ⟨0, 0, .fetching 0⟩ 0 7 rfl rfl) (by intro f e; cases e; intro i c t _ _; show 0 + 3 ≤ t + 4; omega)
  have h4 := Reach.step _ _ h3 (.done _ 0 ⟨0, 0, .asking 7 3⟩ 7 3 rfl rfl) (by intro f e; cases e; intro i c t _ _; show 0 + 3 ≤ t + 4; omega)
  have h5 := Reach.step _ _ h4 (.cached _ 1 ⟨0, 1, .waiting⟩ 7 rfl rfl rfl rfl rfl (by decide)) (by intro f e; cases e; intro i c t _ _; show 0 + 3 ≤ t + 4; omega)
  have h6 := Reach.step _ _ h5 (.done _ 1 ⟨0, 1, .asking 7 3⟩ 7 3 rfl rfl) (by intro f e; cases e; intro i c t _ _; show 0 + 3 ≤ t + 4; omega)
  refine cast (congrArg (Reach 2 .none (some 4)) ?_) h6
  refine congrArg (fun f => ({ afterTwo with calls := f } : St Nat)) (a₂ := afterTwo.calls) ?_
  funext j
  match j with
  | 0 => rfl
  | 1 => rfl
  | j + 2 => simp [afterTwo, St.put, fetching, atOnce]

/-- A third call, a day and a bit later, fetches a new key. -/
example : ∃ s : St Nat, Reach 2 .none (some 4) s ∧ s.begun = [3 + (day + 1), 0] ∧ s.fetched = [(3 + (day + 1), 8), (3, 7)] ∧
    s.calls 0 = some ⟨0, 0, .over 3⟩ ∧ s.calls 1 = some ⟨0, 1, .over 3⟩ ∧ s.calls 2 = some ⟨3 + (day + 1), 0, .asking 8 (3 + (day + 1))⟩ := by
  have h1 := idle after_two (by
    intro i c hc
    match i, hc with
    | 0, hc => cases hc; exact ⟨_, rfl⟩
    | 1, hc => cases hc; exact ⟨_, rfl⟩
    | i + 2, hc => simp [afterTwo] at hc) (day + 1)
  have over : ∀ i c, afterTwo.calls i = some c → ∀ t, c.ph ≠ .fetching t := by
    intro i c hc t hp
    match i, hc with
    | 0, hc => cases hc; cases hp
    | 1, hc => cases hc; cases hp
    | i + 2, hc => simp [afterTwo] at hc
  have h2 := Reach.step _ _ h1 (.call _ 2 rfl) (by
    intro f e i c t hc hp
    rcases put_cases hc with ⟨_, rfl⟩ | ⟨_, hc⟩
    · cases hp
    · exact (over i c hc t hp).elim)
  have h3 := Reach.step _ _ h2 (.fetch _ 2 ⟨3 + (day + 1), 0, .waiting⟩ rfl rfl rfl rfl (.inr (by show 3 + (day + 1) > 3 + day; omega))) (by
    intro f e i c t hc hp
    match i, hc with
    | 0, hc => cases hc; cases hp
    | 1, hc => cases hc; cases hp
    | 2, hc => cases hc; cases hp; exact Nat.le_add_right _ _
    | i + 3, hc => simp [afterTwo, St.put] at hc)
  have h4 := Reach.step _ _ h3 (.got _ 2 ⟨3 + (day + 1), 0, .fetching (3 + (day + 1))⟩ (3 + (day + 1)) 8 rfl rfl) (by
    intro f e i c t hc hp
    match i, hc with
    | 0, hc => cases hc; cases hp
    | 1, hc => cases hc; cases hp
    | 2, hc => cases hc; cases hp
    | i + 3, hc => simp [afterTwo, St.put] at hc)
  exact ⟨_, h4, rfl, rfl, rfl, rfl, rfl⟩

/-- With a preset key nothing is fetched. -/
example : ∃ s : St Nat, Reach 2 (.key 5) (some 4) s ∧ s.calls 0 = some ⟨0, 0, .asking 5 0⟩ :=
  ⟨_, Reach.step _ _ (at_once (K := Nat) 2 (.key 5) (some 4) 1) (.preset _ 0 ⟨0, 0, .waiting⟩ 5 rfl rfl rfl rfl) (fun _ _ _ _ _ _ _ => Nat.zero_le _), rfl⟩

/-! ### Connections -/

section
variable {lib : NetLib}
open Verif.Props.Dialing Verif.Spec.Dialing

/-- **Connections for queries** go to the proxy (or the bootstrap address in its place), whose certificate is checked for the expected name. -/
theorem odoh_query_conn (hc : Contract lib) (pick : List lib.IP → Option lib.IP) (u : Upstream lib) (host port : Str) (hcolon : (58 : UInt8) ∉ port)
    (hbr : ∀ c, c = 91 ∨ c = 93 → c ∉ host ∧ c ∉ port) (hb : (91 : UInt8) ∉ u.bootstrap ∧ (93 : UInt8) ∉ u.bootstrap) :
    ∃ c, queryConn lib pick false (odohUpstream lib u) host port = some c ∧ c.name = some (Expected u.serverName host) ∧
      Direct lib (contact u.bootstrap host) port u.locals c := by
  obtain ⟨c, h1, h2, h3, _⟩ := doh_dials hc (odohUpstream lib u) host port hcolon hbr hb
  exact ⟨c, h1, h2, h3 rfl⟩

/-- The port of the target: 443 unless its URL has one. -/
def TargetPort (port p : Str) : Prop := (port = [] ∧ p = str "443") ∨ (port ≠ [] ∧ p = port)

/-- **Connections for keys** go to the target itself, not through the proxy, and its certificate is checked for its own name. **Finding:** only if no bootstrap
address and no server name is configured. A bootstrap address is that of the proxy, but is dialed for the target, too; a server name is that of the proxy, but is what
the target's certificate is checked for. -/
theorem odoh_key_conn (hc : Contract lib) (pick : List lib.IP → Option lib.IP) (u : Upstream lib) (proxyHost host port : Str) (hcolon : (58 : UInt8) ∉ port)
    (hbr : ∀ c, c = 91 ∨ c = 93 → c ∉ host ∧ c ∉ port) (hb : (91 : UInt8) ∉ u.bootstrap ∧ (93 : UInt8) ∉ u.bootstrap) :
    ∃ c p, keyConn lib pick false (odohUpstream lib u) proxyHost host port = some c ∧ TargetPort port p ∧
      c.name = some (if u.serverName = [] then host else u.serverName) ∧
      Direct lib (if u.bootstrap = [] then host else u.bootstrap) p u.locals c := by
  by_cases hp : port = []
  · subst hp
    obtain ⟨c, h1, h2, h3, _⟩ := doh_dials hc (odohUpstream lib u) host (str "443") (by decide)
      (fun x hx => ⟨(hbr x hx).1, by rcases hx with rfl | rfl <;> decide⟩) hb
    exact ⟨c, _, h1, .inl ⟨rfl, rfl⟩, h2, h3 rfl⟩
  · obtain ⟨c, h1, h2, h3, _⟩ := doh_dials hc (odohUpstream lib u) host port hcolon hbr hb
    refine ⟨c, port, ?_, .inr ⟨hp, rfl⟩, h2, h3 rfl⟩
    simpa [keyConn, hp] using h1

/-- **Finding: over QUIC** the target's certificate is checked for the proxy's host name whatever is configured, so a key can be fetched only from a target that can
present a certificate for the proxy's name. -/
theorem odoh_quic_key_name (pick : List lib.IP → Option lib.IP) (u : Upstream lib) (proxyHost host port : Str) (c : Conn lib)
    (h : keyConn lib pick true (odohUpstream lib u) proxyHost host port = some c) : c.name = some proxyHost := by
  simp only [keyConn, if_true, dohQuicDial] at h
  split at h
  · cases h
  · split at h
    · cases h
    · cases h; rfl

/-- **Finding: a SOCKS5 proxy is not used** for ODoH, neither for queries nor for keys, even if one is configured. -/
theorem odoh_no_socks (pick : List lib.IP → Option lib.IP) (quic : Bool) (u : Upstream lib) (proxyHost proxyPort host port : Str) (c : Conn lib)
    (h : queryConn lib pick quic (odohUpstream lib u) proxyHost proxyPort = some c ∨ keyConn lib pick quic (odohUpstream lib u) proxyHost host port = some c) :
    c.viaProxy = false := by
  have tcp : ∀ a b, dohTcpDial lib (odohUpstream lib u) a b = some c → c.viaProxy = false := by
    intro a b h
    simp only [dohTcpDial, odohUpstream] at h
    split at h
    · cases h
    · cases h; rfl
  have udp : ∀ a b d, dohQuicDial lib pick (odohUpstream lib u) a b d = some c → c.viaProxy = false := by
    intro a b d h
    simp only [dohQuicDial] at h
    split at h
    · cases h
    · split at h
      · cases h
      · cases h; rfl
  cases quic <;> rcases h with h | h
  · exact tcp _ _ h
  · exact tcp _ _ h
  · exact udp _ _ _ h
  · exact udp _ _ _ h

/-! Proxy `a`, target `evil`. Fetching the key without options; with the bootstrap address of the proxy; with a server name; over QUIC. A SOCKS5 proxy is ignored. -/
def up (boot name : Str) : Upstream toy := ⟨[], boot, name, true, ⟨none, none, none⟩⟩
example : ((keyConn toy List.head? false (odohUpstream toy (up [] [])) (str "a") (str "evil") []).map fun c => (c.to, c.name, c.viaProxy)) =
    some (str "10.0.0.1:443", some (str "evil"), false) := by decide
example : ((keyConn toy List.head? false (odohUpstream toy (up (str "::1") [])) (str "a") (str "evil") (str "8443")).map fun c => (c.to, c.name)) =
    some (str "[::1]:8443", some (str "evil")) := by decide
example : ((keyConn toy List.head? false (odohUpstream toy (up [] (str "b"))) (str "a") (str "evil") []).map fun c => (c.to, c.name)) =
    some (str "10.0.0.1:443", some (str "b")) := by decide
example : ((keyConn toy List.head? true (odohUpstream toy (up [] [])) (str "a") (str "evil") []).map fun c => (c.to, c.name)) =
    some (str "10.0.0.1:443", some (str "a")) := by decide
example : ((queryConn toy List.head? false (odohUpstream toy (up [] [])) (str "a") (str "443")).map fun c => (c.to, c.name)) =
    some (str "[::1]:443", some (str "a")) := by decide
end

end Verif.Props.OdohTimed
