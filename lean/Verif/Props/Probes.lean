import Verif.Model.Probes
import Verif.Spec.Probes
import Verif.Props.Balance
/-
C101. Probing for the fastest address: it connects to nothing but the addresses of the answer, once each; the call takes at most two
seconds; and no goroutine and no connection is left behind.
-/
namespace Verif.Props.Probes
open Verif Verif.Balance.Tcp Verif.Balance.Probes Verif.Spec.Probes
open Verif.Props.Balance.Tcp (connected probed)
open Verif.Spec.Balance (Reordered)

variable {text : Str → Str} {port : Str} {waitAll : Bool} {rrs : List RR}

private theorem sum_set (f : Phase → Nat) : ∀ (l : List Phase) (i : Nat) (p p' : Phase), l[i]? = some p →
    ((l.set i p').map f).sum + f p = (l.map f).sum + f p'
  | [], _, _, _, h => by simp at h
  | x :: l, 0, p, p', h => by
    simp only [List.getElem?_cons_zero, Option.some.injEq] at h
    subst h
    simp only [List.set_cons_zero, List.map_cons, List.sum_cons]
    omega
  | x :: l, i + 1, p, p', h => by
    simp only [List.getElem?_cons_succ] at h
    have := sum_set f l i p p' h
    simp only [List.set_cons_succ, List.map_cons, List.sum_cons]
    omega

private def snt : Phase → Nat
  | .closing => 1
  | .ended => 1
  | _ => 0

private def weight : Phase → Nat
  | .fresh => 5
  | .dialing => 4
  | .sending _ => 3
  | .closing => 1
  | .ended => 0

private def sent (s : St) : Nat := (s.procs.map snt).sum

private theorem sent_le (s : St) : sent s ≤ s.procs.length := by
  unfold sent
  induction s.procs with
  | nil => simp
  | cons x l ih =>
    simp only [List.map_cons, List.sum_cons, List.length_cons]
    have : snt x ≤ 1 := by cases x <;> simp [snt]
    omega

private theorem sent_lt (s : St) (i : Nat) (p : Phase) (h : s.procs[i]? = some p) (hp : snt p = 0) : sent s < s.procs.length := by
  have h1 := sum_set snt s.procs i p .ended h
  have h2 := sent_le { s with procs := s.procs.set i .ended }
  unfold sent at h2 ⊢
  simp only [List.length_set] at h2
  rw [hp] at h1
  simp only [snt] at h1
  omega

private structure Inv (text : Str → Str) (port : Str) (waitAll : Bool) (rrs : List RR) (s : St) : Prop where
  len : s.procs.length = rrs.length
  dn : (s.dials.map (·.1)).Nodup
  dt : ∀ d, d ∈ s.dials → ∃ r, rrs[d.1]? = some r ∧ target text port r = some d.2
  fresh : ∀ i : Nat, s.procs[i]? = some .fresh → i ∉ s.dials.map (·.1)
  dialed : ∀ (i : Nat) (p : Phase), s.procs[i]? = some p → p = .dialing ∨ p.holds = true → i ∈ s.dials.map (·.1)
  own : ∀ i j : Nat, s.procs[i]? = some (.sending (.ok j)) → j = i
  notime : ∀ i : Nat, s.procs[i]? ≠ some (.sending .timeout)
  once : (connected (s.got ++ s.queue)).Nodup
  unsent : ∀ i : Nat, i ∈ connected (s.got ++ s.queue) → ∃ p, s.procs[i]? = some p ∧ snt p = 1
  condial : ∀ i : Nat, i ∈ connected (s.got ++ s.queue) → i ∈ s.dials.map (·.1)
  count1 : s.queue.length ≤ sent s
  count2 : s.returned = false → s.got.length + s.queue.length = sent s
  short : s.returned = false → s.got = [] ∨ finished waitAll rrs.length s.got = false
  ret : s.returned = true → (∃ g, s.got = g ++ [.timeout] ∧ (g = [] ∨ finished waitAll rrs.length g = false) ∧ g.length ≤ rrs.length) ∨
    (finished waitAll rrs.length s.got = true ∧ s.got.length ≤ rrs.length)
  one : waitAll = false → s.returned = true → ∃ p, s.got = [p]
  time : s.returned = false → s.now ≤ limit

private theorem connected_append (a b : List Probe) : connected (a ++ b) = connected a ++ connected b := by
  unfold connected; rw [List.filterMap_append]

private theorem set_get (l : List Phase) (i j : Nat) (p q p' : Phase) (hp : l[i]? = some q) (h : (l.set i p)[j]? = some p') :
    (j = i ∧ p' = p) ∨ (j ≠ i ∧ l[j]? = some p') := by
  by_cases e : j = i
  · subst e
    rw [List.getElem?_set_self (by rcases Nat.lt_or_ge j l.length with h' | h'; exact h'; rw [List.getElem?_eq_none h'] at hp; cases hp)] at h
    exact .inl ⟨rfl, (Option.some.inj h).symm⟩
  · rw [List.getElem?_set_ne (Ne.symm e)] at h
    exact .inr ⟨e, h⟩

private theorem get_set (l : List Phase) (i j : Nat) (p q : Phase) (hp : l[i]? = some q) :
    (l.set i p)[j]? = if j = i then some p else l[j]? := by
  by_cases e : j = i
  · subst e
    rw [List.getElem?_set_self (by rcases Nat.lt_or_ge j l.length with h' | h'; exact h'; rw [List.getElem?_eq_none h'] at hp; cases hp), if_pos rfl]
  · rw [List.getElem?_set_ne (Ne.symm e), if_neg e]

private theorem inv_init : Inv text port waitAll rrs (init rrs) := by
  have hp : ∀ (i : Nat) (p : Phase), (init rrs).procs[i]? = some p → p = .fresh := by
    intro i p h
    simp only [init, List.getElem?_map, Option.map_eq_some_iff] at h
    obtain ⟨_, _, h⟩ := h
    exact h.symm
  refine ⟨by simp [init], by simp [init], by simp [init], by simp [init], ?_, ?_, ?_, by simp [init, connected], by simp [init, connected],
    by simp [init, connected], by simp [init], ?_, fun _ => .inl rfl, by simp [init], by simp [init], fun _ => by simp [init]⟩
  · intro i p h h'
    rw [hp i p h] at h'
    simp [Phase.holds] at h'
  · intro i j h; cases hp i _ h
  · intro i h; cases hp i _ h
  · intro _
    simp only [init, sent, List.length_nil, List.map_map]
    have : ∀ l : List RR, (l.map (snt ∘ fun _ => Phase.fresh)).sum = 0 := by
      intro l
      induction l with
      | nil => rfl
      | cons x l ih => rw [List.map_cons, List.sum_cons, ih]; rfl
    rw [this]

/-- the channel, what was received and the call itself are as before; so are the goroutines but one -/
private theorem inv_proc {s : St} (h : Inv text port waitAll rrs s) {i : Nat} {q p : Phase} (hq : s.procs[i]? = some q)
    (hs : snt q = 0 ∧ snt p = 0 ∨ snt q = 1 ∧ snt p = 1)
    (dials : List (Nat × Str × Str)) (hd : dials = s.dials ∨ ∃ t r, q = .fresh ∧ rrs[i]? = some r ∧ target text port r = some t ∧ dials = s.dials ++ [(i, t)])
    (hf : p ≠ .fresh) (hi : p = .dialing ∨ p.holds = true → i ∈ dials.map (·.1)) (ho : ∀ j, p = .sending (.ok j) → j = i) (ht : p ≠ .sending .timeout) :
    Inv text port waitAll rrs { s with procs := s.procs.set i p, dials := dials } := by
  have hsub : ∀ j, j ∈ s.dials.map (·.1) → j ∈ dials.map (·.1) := by
    intro j hj
    rcases hd with rfl | ⟨t, r, _, _, _, rfl⟩
    · exact hj
    · rw [List.map_append]; exact List.mem_append_left _ hj
  have hsum := sum_set snt s.procs i q p hq
  have hsent : sent { s with procs := s.procs.set i p, dials := dials } = sent s := by
    unfold sent; simp only; rcases hs with ⟨a, b⟩ | ⟨a, b⟩ <;> rw [a, b] at hsum <;> omega
  refine ⟨by simp [h.len], ?_, ?_, ?_, ?_, ?_, ?_, h.once, ?_, fun j hj => hsub j (h.condial j hj), ?_, ?_, h.short, h.ret, h.one, h.time⟩
  · rcases hd with rfl | ⟨t, r, rfl, _, _, rfl⟩
    · exact h.dn
    · simp only [List.map_append, List.map_cons, List.map_nil]
      rw [List.nodup_append]
      refine ⟨h.dn, by simp, ?_⟩
      intro a ha b hb
      simp only [List.mem_singleton] at hb
      subst hb
      intro e
      exact h.fresh _ hq (e ▸ ha)
  · rcases hd with rfl | ⟨t, r, rfl, hr, ht, rfl⟩
    · exact h.dt
    · intro d hd
      rcases List.mem_append.mp hd with hd | hd
      · exact h.dt d hd
      · simp only [List.mem_singleton] at hd
        subst hd
        exact ⟨r, hr, ht⟩
  · intro j hj
    rcases set_get _ _ _ _ _ _ hq hj with ⟨_, e⟩ | ⟨hne, hj⟩
    · exact absurd e.symm hf
    · have := h.fresh j hj
      rcases hd with rfl | ⟨t, r, _, _, _, rfl⟩
      · exact this
      · simp only [List.map_append, List.mem_append, List.map_cons, List.map_nil, List.mem_singleton]
        rintro (e | e)
        · exact this e
        · exact hne e
  · intro j p' hj hp'
    rcases set_get _ _ _ _ _ _ hq hj with ⟨rfl, rfl⟩ | ⟨hne, hj⟩
    · exact hi hp'
    · exact hsub _ (h.dialed j p' hj hp')
  · intro j k hj
    rcases set_get _ _ _ _ _ _ hq hj with ⟨rfl, e⟩ | ⟨hne, hj⟩
    · exact ho k e.symm
    · exact h.own j k hj
  · intro j hj
    rcases set_get _ _ _ _ _ _ hq hj with ⟨rfl, e⟩ | ⟨hne, hj⟩
    · exact ht e.symm
    · exact h.notime j hj
  · intro j hj
    obtain ⟨p', h1, h2⟩ := h.unsent j hj
    simp only [get_set _ _ _ _ _ hq]
    by_cases e : j = i
    · subst e
      rw [hq] at h1; cases h1
      rw [if_pos rfl]
      exact ⟨p, rfl, by omega⟩
    · rw [if_neg e]; exact ⟨p', h1, h2⟩
  · rw [hsent]; exact h.count1
  · rw [hsent]; exact h.count2

/-- one goroutine puts its result into the channel -/
private theorem inv_send {s : St} (h : Inv text port waitAll rrs s) {i : Nat} {r : Probe} {p : Phase} (hq : s.procs[i]? = some (.sending r))
    (hr : r = .ok i ∧ p = .closing ∨ r = .failed ∧ p = .ended) :
    Inv text port waitAll rrs { s with procs := s.procs.set i p, queue := s.queue ++ [r] } := by
  have hsp : snt p = 1 := by rcases hr with ⟨_, rfl⟩ | ⟨_, rfl⟩ <;> rfl
  have hsum := sum_set snt s.procs i _ p hq
  have hsent : sent { s with procs := s.procs.set i p, queue := s.queue ++ [r] } = sent s + 1 := by
    show ((s.procs.set i p).map snt).sum = (s.procs.map snt).sum + 1
    rw [hsp] at hsum
    have : snt (.sending r) = 0 := rfl
    omega
  have hni : i ∉ connected (s.got ++ s.queue) := by
    intro hc
    obtain ⟨p', h1, h2⟩ := h.unsent i hc
    rw [hq] at h1; cases h1; cases h2
  have hcon : ∀ j, j ∈ connected (s.got ++ (s.queue ++ [r])) → j ∈ connected (s.got ++ s.queue) ∨ (j = i ∧ r = .ok i) := by
    intro j hj
    rw [← List.append_assoc, connected_append, List.mem_append] at hj
    rcases hj with hj | hj
    · exact .inl hj
    · rcases hr with ⟨rfl, _⟩ | ⟨rfl, _⟩
      · simp only [connected, List.filterMap_cons, List.filterMap_nil, List.mem_singleton] at hj
        exact .inr ⟨hj, rfl⟩
      · simp [connected] at hj
  refine ⟨by simp [h.len], h.dn, h.dt, ?_, ?_, ?_, ?_, ?_, ?_, ?_, ?_, ?_, h.short, h.ret, h.one, h.time⟩
  · intro j hj
    rcases set_get _ _ _ _ _ _ hq hj with ⟨_, e⟩ | ⟨hne, hj⟩
    · rw [← e] at hsp; cases hsp
    · exact h.fresh j hj
  · intro j p' hj hp'
    rcases set_get _ _ _ _ _ _ hq hj with ⟨rfl, rfl⟩ | ⟨hne, hj⟩
    · rcases hr with ⟨rfl, rfl⟩ | ⟨rfl, rfl⟩
      · exact h.dialed _ _ hq (.inr rfl)
      · simp [Phase.holds] at hp'
    · exact h.dialed j p' hj hp'
  · intro j k hj
    rcases set_get _ _ _ _ _ _ hq hj with ⟨rfl, e⟩ | ⟨hne, hj⟩
    · rw [← e] at hsp; cases hsp
    · exact h.own j k hj
  · intro j hj
    rcases set_get _ _ _ _ _ _ hq hj with ⟨rfl, e⟩ | ⟨hne, hj⟩
    · rw [← e] at hsp; cases hsp
    · exact h.notime j hj
  · show (connected (s.got ++ (s.queue ++ [r]))).Nodup
    rw [← List.append_assoc, connected_append, List.nodup_append]
    refine ⟨h.once, ?_, ?_⟩
    · rcases hr with ⟨rfl, _⟩ | ⟨rfl, _⟩ <;> simp [connected]
    · intro a ha b hb e
      subst e
      rcases hr with ⟨rfl, _⟩ | ⟨rfl, _⟩
      · simp only [connected, List.filterMap_cons, List.filterMap_nil, List.mem_singleton] at hb
        exact hni (hb ▸ ha)
      · simp [connected] at hb
  · intro j hj
    simp only [get_set _ _ _ _ _ hq]
    by_cases e : j = i
    · rw [if_pos e]; exact ⟨p, rfl, hsp⟩
    · rw [if_neg e]
      rcases hcon j hj with h1 | ⟨h1, _⟩
      · exact h.unsent j h1
      · exact absurd h1 e
  · intro j hj
    rcases hcon j hj with h1 | ⟨rfl, rfl⟩
    · exact h.condial j h1
    · exact h.dialed _ _ hq (.inr rfl)
  · rw [hsent]
    have := h.count1
    simp only [List.length_append, List.length_singleton]; omega
  · intro hret
    rw [hsent]
    have := h.count2 hret
    simp only [List.length_append, List.length_singleton]; omega

private theorem inv_act {s s' : St} (h : Inv text port waitAll rrs s) (ha : Act text port waitAll rrs s s') : Inv text port waitAll rrs s' := by
  cases ha with
  | start i r t h1 h2 h3 =>
    exact inv_proc h h1 (.inl ⟨rfl, rfl⟩) _ (.inr ⟨t, r, rfl, h2, h3, rfl⟩) (by simp) (fun _ => by simp) (by simp) (by simp)
  | startOther i r h1 h2 h3 =>
    exact inv_proc h h1 (.inl ⟨rfl, rfl⟩) _ (.inl rfl) (by simp) (by simp [Phase.holds]) (by simp) (by simp)
  | connect i h1 =>
    exact inv_proc h h1 (.inl ⟨rfl, rfl⟩) _ (.inl rfl) (by simp) (fun _ => h.dialed i _ h1 (.inl rfl)) (by simp) (by simp)
  | refuse i h1 =>
    exact inv_proc h h1 (.inl ⟨rfl, rfl⟩) _ (.inl rfl) (by simp) (by simp [Phase.holds]) (by simp) (by simp)
  | sendOk i j h1 h2 =>
    have e := h.own i j h1
    subst e
    exact inv_send h h1 (.inl ⟨rfl, rfl⟩)
  | sendFailed i h1 h2 => exact inv_send h h1 (.inr ⟨rfl, rfl⟩)
  | close i h1 =>
    exact inv_proc h h1 (.inr ⟨rfl, rfl⟩) _ (.inl rfl) (by simp) (by simp [Phase.holds]) (by simp) (by simp)
  | take p ps h1 h2 =>
    have he : s.got ++ [p] ++ ps = s.got ++ s.queue := by rw [h2]; simp
    have hc1 := h.count1
    have hc2 := h.count2 h1
    rw [h2, List.length_cons] at hc1 hc2
    have hl : s.got.length + 1 ≤ rrs.length := by
      have := sent_le s
      rw [h.len] at this
      omega
    refine ⟨h.len, h.dn, h.dt, h.fresh, h.dialed, h.own, h.notime, ?_, ?_, ?_, ?_, ?_, ?_, ?_, ?_, fun _ => h.time h1⟩
    · show (connected (s.got ++ [p] ++ ps)).Nodup
      rw [he]; exact h.once
    · show ∀ i, i ∈ connected (s.got ++ [p] ++ ps) → _
      rw [he]; exact h.unsent
    · show ∀ i, i ∈ connected (s.got ++ [p] ++ ps) → _
      rw [he]; exact h.condial
    · show ps.length ≤ sent s; omega
    · intro _
      show (s.got ++ [p]).length + ps.length = sent s
      simp only [List.length_append, List.length_singleton]; omega
    · intro hr; exact .inr hr
    · intro hr
      refine .inr ⟨hr, ?_⟩
      simp only [List.length_append, List.length_singleton]; omega
    · intro hw _
      rcases h.short h1 with e | e
      · exact ⟨p, by simp [e]⟩
      · simp [finished, hw] at e
  | giveUp h1 h2 =>
    have hc2 := h.count2 h1
    have hl : s.got.length ≤ rrs.length := by
      have := sent_le s
      rw [h.len] at this
      omega
    have he : connected (s.got ++ [.timeout] ++ s.queue) = connected (s.got ++ s.queue) := by
      simp only [connected_append]
      simp [connected]
    refine ⟨h.len, h.dn, h.dt, h.fresh, h.dialed, h.own, h.notime, ?_, ?_, ?_, h.count1, by simp, by simp, fun _ => .inl ⟨s.got, rfl, h.short h1, hl⟩, ?_, by simp⟩
    · simp only [he]; exact h.once
    · simp only [he]; exact h.unsent
    · simp only [he]; exact h.condial
    · intro hw _
      rcases h.short h1 with e | e
      · exact ⟨.timeout, by simp [e]⟩
      · simp [finished, hw] at e
  | expire h1 h2 => exact ⟨h.len, h.dn, h.dt, h.fresh, h.dialed, h.own, h.notime, h.once, h.unsent, h.condial, h.count1, h.count2, h.short, h.ret, h.one, h.time⟩

private theorem inv_runs {k : Nat} {s : St} (hr : Runs text port waitAll rrs k (init rrs) s) : Inv text port waitAll rrs s := by
  generalize h0 : init rrs = s0 at hr
  induction hr with
  | refl s => rw [← h0]; exact inv_init
  | act k a b c _ hact ih => exact inv_act (ih h0) hact
  | tick k d a b _ hok ih =>
    have h := ih h0
    refine ⟨h.len, h.dn, h.dt, h.fresh, h.dialed, h.own, h.notime, h.once, h.unsent, h.condial, h.count1, h.count2, h.short, h.ret, h.one, ?_⟩
    intro hf
    rcases hok with e | ⟨_, _, e⟩
    · exact absurd hf (by simp only; rw [e]; simp)
    · exact e

/-! ### The theorems -/

private theorem joined (h p : Str) : Endpoint h p (Verif.Validate.joinHostPort h p) := by
  unfold Verif.Validate.joinHostPort
  constructor
  · intro h1 h2
    rw [if_neg (by rintro (e | e); exact h1 e; exact h2 e)]
    show h ++ 58 :: p = h ++ [58] ++ p
    rw [List.append_assoc]; rfl
  · intro h1
    rw [if_pos (.inl h1)]
    show (91 :: h ++ 93 :: 58 :: p : Str) = [91] ++ h ++ [93, 58] ++ p
    simp only [List.cons_append, List.nil_append, List.append_assoc]

/-- C101: connections are made to the addresses in the records to be probed, at the configured port, over IPv4 for an A and IPv6 for an AAAA record, and to each of
the records once at most, whatever happens; the results that count as connected are of such connections. -/
theorem probes_where {k : Nat} {s : St} (hr : Runs text port waitAll rrs k (init rrs) s) :
    (s.dials.map (·.1)).Nodup ∧ (∀ d, d ∈ s.dials → ∃ r, rrs[d.1]? = some r ∧ GoesTo text port r d.2.1 d.2.2) ∧
      (connected s.got).Nodup ∧ ∀ i, i ∈ connected s.got → i ∈ s.dials.map (·.1) := by
  have h := inv_runs hr
  refine ⟨h.dn, ?_, ?_, ?_⟩
  · intro d hd
    obtain ⟨r, h1, h2⟩ := h.dt d hd
    refine ⟨r, h1, ?_⟩
    unfold target at h2
    split at h2
    · next ip e => rw [← Option.some.inj h2]; exact ⟨ip, .inl ⟨e, rfl⟩, joined _ _⟩
    · next ip e => rw [← Option.some.inj h2]; exact ⟨ip, .inr ⟨e, rfl⟩, joined _ _⟩
    · cases h2
  · have := h.once
    rw [connected_append, List.nodup_append] at this
    exact this.1
  · intro i hi
    apply h.condial
    rw [connected_append]
    exact List.mem_append_left _ hi

/-- C101: at most 32 connections are made for one query. -/
theorem probes_few {t : Nat} {answer : List RR} {k : Nat} {s : St} (hr : Runs text port waitAll (probed t answer) k (init (probed t answer)) s) :
    s.dials.length ≤ 32 := by
  have h := inv_runs hr
  have h1 : ∀ i, i ∈ s.dials.map (·.1) → i ∈ List.range (probed t answer).length := by
    intro i hi
    obtain ⟨d, hd, rfl⟩ := List.mem_map.mp hi
    obtain ⟨r, h1, _⟩ := h.dt d hd
    rw [List.mem_range]
    rcases Nat.lt_or_ge d.1 (probed t answer).length with h' | h'
    · exact h'
    · rw [List.getElem?_eq_none h'] at h1; cases h1
  have h2 := List.Nodup.length_le_of_subset h.dn h1
  rw [List.length_map, List.length_range] at h2
  have : (probed t answer).length ≤ 32 := by unfold probed; rw [List.length_take]; omega
  omega

/-- C101: no goroutine ever waits for the caller. Wherever it stands, it can go on as soon as its connection attempt has ended, whether or not the caller still
reads results. -/
theorem probe_never_waits {k : Nat} {s : St} (hr : Runs text port waitAll rrs k (init rrs) s) (i : Nat) (p : Phase)
    (hp : s.procs[i]? = some p) (hne : p ≠ .ended) : ∃ s', Act text port waitAll rrs s s' ∧ s'.procs[i]? ≠ some p ∧ s'.returned = s.returned := by
  have h := inv_runs hr
  have hi : i < rrs.length := by
    rw [← h.len]
    rcases Nat.lt_or_ge i s.procs.length with h' | h'
    · exact h'
    · rw [List.getElem?_eq_none h'] at hp; cases hp
  cases p with
  | fresh =>
    cases ht : target text port rrs[i] with
    | none => exact ⟨_, .startOther s i _ hp (List.getElem?_eq_getElem hi) ht, by simp [get_set _ _ _ _ _ hp], rfl⟩
    | some t => exact ⟨_, .start s i _ t hp (List.getElem?_eq_getElem hi) ht, by simp [get_set _ _ _ _ _ hp], rfl⟩
  | dialing => exact ⟨_, .refuse s i hp, by simp [get_set _ _ _ _ _ hp], rfl⟩
  | sending r =>
    have hroom : s.queue.length < rrs.length := by
      have h1 := sent_lt s i _ hp rfl
      have h2 := h.count1
      rw [h.len] at h1
      omega
    cases r with
    | ok j => exact ⟨_, .sendOk s i j hp hroom, by simp [get_set _ _ _ _ _ hp], rfl⟩
    | failed => exact ⟨_, .sendFailed s i hp hroom, by simp [get_set _ _ _ _ _ hp], rfl⟩
    | timeout => exact absurd hp (h.notime i)
  | closing => exact ⟨_, .close s i hp, by simp [get_set _ _ _ _ _ hp], rfl⟩
  | ended => exact absurd rfl hne

private def measure (s : St) : Nat :=
  (s.procs.map weight).sum + s.queue.length + (if s.over then 0 else 1) + (if s.returned then 0 else 1)

private theorem measure_act {s s' : St} (ha : Act text port waitAll rrs s s') : measure s' < measure s := by
  cases ha with
  | start i r t h1 => have := sum_set weight s.procs i _ .dialing h1; simp only [weight] at this; simp only [measure]; omega
  | startOther i r h1 => have := sum_set weight s.procs i _ (.sending .failed) h1; simp only [weight] at this; simp only [measure]; omega
  | connect i h1 => have := sum_set weight s.procs i _ (.sending (.ok i)) h1; simp only [weight] at this; simp only [measure]; omega
  | refuse i h1 => have := sum_set weight s.procs i _ (.sending .failed) h1; simp only [weight] at this; simp only [measure]; omega
  | sendOk i j h1 =>
    have := sum_set weight s.procs i _ .closing h1
    simp only [weight] at this; simp only [measure, List.length_append, List.length_singleton]; omega
  | sendFailed i h1 =>
    have := sum_set weight s.procs i _ .ended h1
    simp only [weight] at this; simp only [measure, List.length_append, List.length_singleton]; omega
  | close i h1 => have := sum_set weight s.procs i _ .ended h1; simp only [weight] at this; simp only [measure]; omega
  | take p ps h1 h2 =>
    simp only [measure, h2, List.length_cons, h1]
    cases finished waitAll rrs.length (s.got ++ [p]) <;> cases s.over <;> simp <;> omega
  | giveUp h1 h2 => simp only [measure, h1, h2]; simp
  | expire h1 => simp only [measure, h1]; simp

/-- C101: it is over after at most `5n + 2` steps for `n` records. -/
theorem probes_bounded {k : Nat} {s : St} (hr : Runs text port waitAll rrs k (init rrs) s) : k ≤ 5 * rrs.length + 2 := by
  have h : k + measure s ≤ measure (init rrs) := by
    generalize h0 : init rrs = s0 at hr
    induction hr with
    | refl s => omega
    | act k a b c _ hact ih => have := measure_act hact; have := ih h0; omega
    | tick k d a b _ _ ih => exact ih h0
  have : measure (init rrs) = 5 * rrs.length + 2 := by
    simp only [measure, init, List.map_map, List.length_nil, Bool.false_eq_true, if_false]
    have : ∀ l : List RR, (l.map (weight ∘ fun _ => Phase.fresh)).sum = 5 * l.length := by
      intro l
      induction l with
      | nil => rfl
      | cons x l ih => simp only [List.map_cons, List.sum_cons, Function.comp_def, weight, List.length_cons] at ih ⊢; omega
    rw [this]
  omega

private theorem sent_all (s : St) (h : ∀ (i : Nat) (p : Phase), s.procs[i]? = some p → p = .ended) : sent s = s.procs.length := by
  have h' : ∀ p, p ∈ s.procs → p = .ended := by
    intro p hp
    obtain ⟨i, hi⟩ := List.getElem?_of_mem hp
    exact h i p hi
  clear h
  unfold sent
  generalize s.procs = l at h'
  induction l with
  | nil => rfl
  | cons x l ih =>
    simp only [List.map_cons, List.sum_cons, List.length_cons]
    rw [ih (fun p hp => h' p (List.mem_cons_of_mem _ hp)), h' x (List.mem_cons_self ..)]
    simp only [snt]; omega

/-- C101: and then nothing is left: the call has returned, every goroutine has ended, and no connection is open. -/
theorem probes_end {k : Nat} {s : St} (hr : Runs text port waitAll rrs k (init rrs) s) (hne : rrs ≠ [])
    (hstop : ∀ s', ¬ Act text port waitAll rrs s s') :
    s.returned = true ∧ ∀ p, p ∈ s.procs → p = .ended ∧ p.holds = false := by
  have h := inv_runs hr
  have hend : ∀ (i : Nat) (p : Phase), s.procs[i]? = some p → p = .ended := by
    intro i p hp
    by_cases e : p = .ended
    · exact e
    · obtain ⟨s', hs', _⟩ := probe_never_waits hr i p hp e
      exact absurd hs' (hstop s')
  refine ⟨?_, ?_⟩
  · cases hret : s.returned with
    | true => rfl
    | false =>
      exfalso
      have hc := h.count2 hret
      rw [sent_all s hend, h.len] at hc
      cases hq : s.queue with
      | cons p ps => exact hstop _ (.take s p ps hret hq)
      | nil =>
        rw [hq] at hc
        simp only [List.length_nil, Nat.add_zero] at hc
        rcases h.short hret with e | e
        · rw [e] at hc
          exact hne (List.eq_nil_of_length_eq_zero hc.symm)
        · unfold finished at e
          split at e
          · rw [hc] at e; simp at e
          · cases e
  · intro p hp
    obtain ⟨i, hi⟩ := List.getElem?_of_mem hp
    rw [hend i p hi]
    exact ⟨rfl, rfl⟩

/-- C101: an open connection is one of those in `dials`, and it can be closed without anything happening to the caller. -/
theorem probe_holds {k : Nat} {s : St} (hr : Runs text port waitAll rrs k (init rrs) s) (i : Nat) (p : Phase) (hp : s.procs[i]? = some p)
    (hh : p.holds = true) : i ∈ s.dials.map (·.1) := (inv_runs hr).dialed i p hp (.inr hh)

/-- C101: the call has returned after two seconds. -/
theorem probes_in_time {k : Nat} {s : St} (hr : Runs text port waitAll rrs k (init rrs) s) (hlate : 2000 < s.now) : s.returned = true := by
  cases hret : s.returned with
  | true => rfl
  | false => have := (inv_runs hr).time hret; simp only [limit] at this; omega

/-- C20 without its assumption about the results, for any course of the probes: waiting for all of them, the reply is the upstream's with the records of
the asked type reordered among their positions and TTLs raised to the minimum; and if any record was moved or changed, every probe connected, once, and the probed records stand in the order
in which they did. -/
theorem waitall_reply {minTTL : Nat} {q a : Msg} {qu : Question} (hq : q.question.head? = some qu) {k : Nat} {s : St}
    (hr : Runs text port true (probed qu.qtype a.answer) k (init (probed qu.qtype a.answer)) s) (hret : s.returned = true) :
    ∃ b, Verif.Balance.Tcp.resolve true minTTL q (.ok a) s.got = some (.ok b) ∧ b = { a with answer := b.answer } ∧
      Reordered qu.qtype minTTL a.answer b.answer ∧
      (b.answer ≠ a.answer → ∃ order : List Nat, s.got = order.map Probe.ok ∧ order.Perm (List.range (probed qu.qtype a.answer).length) ∧
        (b.answer.filter fun r => r.rtype = qu.qtype).take order.length
          = order.filterMap fun i => ((probed qu.qtype a.answer)[i]?).map (setTTL minTTL)) := by
  have h := inv_runs hr
  obtain ⟨hdn, hdt, hone, hcd⟩ := probes_where hr
  obtain ⟨b, h1, h2, h3, h4⟩ := Verif.Props.Balance.Tcp.tcp_waitall minTTL q a qu s.got hq hone
  refine ⟨b, h1, h2, h3, fun hne => ?_⟩
  obtain ⟨order, rest, e1, e2, e3⟩ := h4 hne
  have hrest : rest = [] := by
    rcases h.ret hret with ⟨g, hg, hf, hgl⟩ | ⟨_, hf⟩
    · have hgn : g.length < (probed qu.qtype a.answer).length := by
        rcases hf with rfl | hf
        · rcases Nat.eq_zero_or_pos (probed qu.qtype a.answer).length with hz | hz
          · exfalso
            apply hne
            have hno := Verif.Props.Balance.Tcp.tcp_no_choice true minTTL q a qu s.got hq (.inr (by
              unfold probed at hz; rw [List.length_take] at hz; omega))
            rw [hno] at h1
            injection h1 with h1
            injection h1 with h1
            injection h1 with h1
            rw [h1]
          · exact hz
        · have hgl2 : g.length ≠ (probed qu.qtype a.answer).length := by
            intro e
            unfold finished at hf
            simp [e] at hf
          omega
      exfalso
      have hge : (s.got)[g.length]? = some .timeout := by rw [hg]; simp
      rw [e1, List.getElem?_append_left (by rw [List.length_map, e2]; exact hgn), List.getElem?_map] at hge
      cases ho : order[g.length]? <;> rw [ho] at hge <;> cases hge
    · have := congrArg List.length e1
      rw [List.length_append, List.length_map, e2] at this
      exact List.eq_nil_of_length_eq_zero (by omega)
  subst hrest
  rw [List.append_nil] at e1
  refine ⟨order, e1, ?_, e3⟩
  have hon : order.Nodup := by
    have : connected s.got = order := by
      rw [e1]; unfold connected; rw [List.filterMap_map]
      clear e1 e2 e3 hone hcd
      induction order with
      | nil => rfl
      | cons x l ih => rw [List.filterMap_cons]; simp only [Function.comp]; congr 1
    rw [← this]; exact hone
  refine Verif.Props.Balance.Tcp.order_perm order _ hon (fun i hi => ?_) e2
  have hc : i ∈ connected s.got := by
    rw [e1]; unfold connected
    exact List.mem_filterMap.mpr ⟨.ok i, List.mem_map.mpr ⟨i, hi, rfl⟩, rfl⟩
  obtain ⟨d, hd, rfl⟩ := List.mem_map.mp (hcd i hc)
  obtain ⟨r, hr', _⟩ := hdt d hd
  rcases Nat.lt_or_ge d.1 (probed qu.qtype a.answer).length with h' | h'
  · exact h'
  · rw [List.getElem?_eq_none h'] at hr'; cases hr'

/-- C101, first-result mode: the call returns with the first result, or without any when the two seconds are over first. -/
theorem fastest_one {k : Nat} {s : St} (hr : Runs text port false rrs k (init rrs) s) (hret : s.returned = true) :
    s.got = [.timeout] ∨ s.got = [.failed] ∨ ∃ i t, s.got = [.ok i] ∧ (i, t) ∈ s.dials := by
  obtain ⟨p, hp⟩ := (inv_runs hr).one rfl hret
  rw [hp]
  cases p with
  | timeout => exact .inl rfl
  | failed => exact .inr (.inl rfl)
  | ok i =>
    have := (probes_where hr).2.2.2 i (by rw [hp]; simp [connected])
    obtain ⟨d, hd, rfl⟩ := List.mem_map.mp this
    exact .inr (.inr ⟨d.1, d.2, rfl, hd⟩)

section Examples

private def four (b : UInt8) : RR := { name := str "a.", rtype := 1, ttl := 60, cls := 1, data := .a [10, 0, 0, b] }
private def dots (_ : Str) : Str := str "10.0.0.1"

private theorem more {k : Nat} {a b c : St} (h : Runs dots (str "443") true [four 1, four 2] k a b)
    (ha : Act dots (str "443") true [four 1, four 2] b c) : Runs dots (str "443") true [four 1, four 2] (k + 1) a c := .act k a b c h ha

/-- Two addresses, the second is faster: both connect, the call returns after both, and everything is closed. -/
example : ∃ k s, Runs dots (str "443") true [four 1, four 2] k (init [four 1, four 2]) s ∧ s.returned = true ∧ s.got = [.ok 1, .ok 0] ∧
    s.dials = [(0, str "tcp4", str "10.0.0.1:443"), (1, str "tcp4", str "10.0.0.1:443")] ∧ s.procs = [.ended, .ended] := by
  have r0 := Runs.refl (text := dots) (port := str "443") (waitAll := true) (rrs := [four 1, four 2]) (init [four 1, four 2])
  have r1 := more r0 (.start _ 0 (four 1) (str "tcp4", str "10.0.0.1:443") rfl rfl (by decide))
  have r2 := more r1 (.start _ 1 (four 2) (str "tcp4", str "10.0.0.1:443") rfl rfl (by decide))
  have r3 := more r2 (.connect _ 1 rfl)
  have r4 := more r3 (.connect _ 0 rfl)
  have r5 := more r4 (.sendOk _ 1 1 rfl (by decide))
  have r6 := more r5 (.sendOk _ 0 0 rfl (by decide))
  have r7 := more r6 (.take _ (.ok 1) [.ok 0] rfl rfl)
  have r8 := more r7 (.take _ (.ok 0) [] rfl rfl)
  have r9 := more r8 (.close _ 1 rfl)
  have r10 := more r9 (.close _ 0 rfl)
  exact ⟨_, _, r10, rfl, rfl, rfl, rfl⟩

/-- Nothing answers: the call gives up when its two seconds are over, while both connections are still being tried. -/
example : ∃ k s, Runs dots (str "443") true [four 1, four 2] k (init [four 1, four 2]) s ∧ s.returned = true ∧ s.now = 2000 ∧ s.procs = [.dialing, .dialing] := by
  have r0 := Runs.refl (text := dots) (port := str "443") (waitAll := true) (rrs := [four 1, four 2]) (init [four 1, four 2])
  have r1 := more r0 (.start _ 0 (four 1) (str "tcp4", str "10.0.0.1:443") rfl rfl (by decide))
  have r2 := more r1 (.start _ 1 (four 2) (str "tcp4", str "10.0.0.1:443") rfl rfl (by decide))
  have r3 := Runs.tick _ 2000 _ _ r2 (.inr ⟨rfl, rfl, by decide⟩)
  have r4 := more r3 (.expire _ rfl rfl)
  have r5 := more r4 (.giveUp _ rfl rfl)
  exact ⟨_, _, r5, rfl, rfl, rfl⟩

/-- colons make brackets -/
example : GoesTo (fun _ => str "2001:db8::1") (str "443") { four 1 with data := .aaaa [] } (str "tcp6") (str "[2001:db8::1]:443") :=
  ⟨[], .inr ⟨rfl, rfl⟩, fun h => absurd (by decide) h, fun _ => by decide⟩

end Examples
end Verif.Props.Probes
