import Verif.Model.DoqConn
import Verif.Spec.Listeners
/-
C55: the shared connection of a DNS-over-QUIC client.
-/
set_option linter.unusedVariables false
set_option linter.unusedSimpArgs false
set_option maxRecDepth 100000
namespace Verif.Props.DoqConn
open Verif Verif.Listeners Verif.DoqConn

/-- the query holds the lock -/
private def Held : PC → Prop
  | .start => False
  | .stream _ => False
  | .written _ => False
  | .failed => False
  | _ => True

private def Opening (p : PC) : Prop := p = .open1 ∨ p = .open2

private def Safe (q : Query) : Prop := isReplayableOpcode q.opcode = true

private structure Inv (s : Sys) : Prop where
  held : ∀ (i : Nat) (q : Query), s.queries[i]? = some q → Held q.pc → s.lock = some i
  conn : ∀ c, s.cur = some c → c < s.conns.length
  opening : ∀ (i : Nat) (q : Query), s.queries[i]? = some q → Opening q.pc → ¬ Safe q → s.curState ≠ some .early
  stream : ∀ (i : Nat) (q : Query) (c : Nat), s.queries[i]? = some q → q.pc = .stream c → c < s.conns.length ∧ (¬ Safe q → s.conns[c]? ≠ some .early)
  late : s.use0RTT = false → ∀ (c : Nat), s.conns[c]? ≠ some .early
  log : ∀ (i c : Nat) (st : Conn), (i, c, st) ∈ s.log → ∃ q, s.queries[i]? = some q ∧ (st = .early → Safe q ∧ s.use0RTT = true)

private theorem get_set {l : List Query} {i j : Nat} {x y : Query} (h : (l.set i x)[j]? = some y) : (i = j ∧ y = x) ∨ (i ≠ j ∧ l[j]? = some y) := by
  rw [List.getElem?_set] at h
  by_cases e : i = j
  · rw [if_pos e] at h
    split at h
    · exact Or.inl ⟨e, by simpa using h.symm⟩
    · simp at h
  · rw [if_neg e] at h; exact Or.inr ⟨e, h⟩

private theorem log_goto {s : Sys} (hi : Inv s) {i : Nat} {q : Query} (hq : s.queries[i]? = some q) (pc : PC) :
    ∀ (j c : Nat) (st : Conn), (j, c, st) ∈ s.log → ∃ q', (s.queries.set i { q with pc := pc })[j]? = some q' ∧ (st = .early → Safe q' ∧ s.use0RTT = true) := by
  intro j c st h
  obtain ⟨q', h1, h2⟩ := hi.log j c st h
  by_cases e : i = j
  · subst e
    rw [hq] at h1
    simp only [Option.some.injEq] at h1
    subst h1
    have hlt : i < s.queries.length := (List.getElem?_eq_some_iff.mp hq).1
    refine ⟨{ q with pc := pc }, by simp [hlt], h2⟩
  · exact ⟨q', by rw [List.getElem?_set_ne e]; exact h1, h2⟩

/-- only the program counter of a query moves, and the lock -/
private theorem inv_goto {s : Sys} (hi : Inv s) {i : Nat} {q : Query} (hq : s.queries[i]? = some q) (pc : PC) (lk : Option Nat)
    (h1 : Held pc → lk = some i) (h2 : Held q.pc ∨ s.lock = none) (h3 : Opening pc → ¬ Safe q → s.curState ≠ some .early)
    (h4 : ∀ c, pc = .stream c → c < s.conns.length ∧ (¬ Safe q → s.conns[c]? ≠ some .early)) :
    Inv { s.goto i q pc with lock := lk } := by
  refine ⟨?_, hi.conn, ?_, ?_, hi.late, log_goto hi hq pc⟩
  · intro j q' hq' hp
    rcases get_set hq' with ⟨rfl, rfl⟩ | ⟨hne, hq'⟩
    · exact h1 hp
    · exfalso
      have := hi.held j q' hq' hp
      rcases h2 with h2 | h2
      · have := hi.held i q hq h2
        simp_all
      · simp_all
  · intro j q' hq' hp hs
    rcases get_set hq' with ⟨rfl, rfl⟩ | ⟨hne, hq'⟩
    · exact h3 hp hs
    · exact hi.opening j q' hq' hp hs
  · intro j q' c hq' hp
    rcases get_set hq' with ⟨rfl, rfl⟩ | ⟨hne, hq'⟩
    · exact h4 c hp
    · exact hi.stream j q' c hq' hp

/-- a connection leaves the early state or dies -/
private theorem inv_set {s : Sys} (hi : Inv s) (c : Nat) (st : Conn) (hst : st ≠ .early) : Inv { s with conns := s.conns.set c st } := by
  have hne : ∀ (d : Nat), s.conns[d]? ≠ some .early → (s.conns.set c st)[d]? ≠ some .early := by
    intro d hd
    rw [List.getElem?_set]
    split
    · split
      · simpa using hst
      · simp
    · exact hd
  refine ⟨hi.held, ?_, ?_, ?_, ?_, hi.log⟩
  · intro d hd; simpa using hi.conn d hd
  · intro i q hq hp hs
    have := hi.opening i q hq hp hs
    unfold Sys.curState at this ⊢
    cases hc : s.cur with
    | none => simp [hc]
    | some d =>
      rw [hc] at this
      exact hne d this
  · intro i q d hq hp
    obtain ⟨h1, h2⟩ := hi.stream i q d hq hp
    exact ⟨by simpa using h1, fun hs => hne d (h2 hs)⟩
  · intro hu d; exact hne d (hi.late hu d)

/-- a new connection, by the query that holds the lock -/
private theorem inv_dial {s : Sys} (hi : Inv s) {i : Nat} {q : Query} (hq : s.queries[i]? = some q) (hh : Held q.pc) (pc : PC) (hp : Held pc) (hno : ¬ Opening pc)
    (st : Conn) (hd : dialAllowed s.use0RTT st = true) : Inv { s.goto i q pc with conns := s.conns ++ [st], cur := some s.conns.length } := by
  have hl := hi.held i q hq hh
  have hne : ∀ (d : Nat), d < s.conns.length → (s.conns ++ [st])[d]? = s.conns[d]? := fun d h => List.getElem?_append_left h
  refine ⟨?_, ?_, ?_, ?_, ?_, log_goto hi hq pc⟩
  · intro j q' hq' hp'
    rcases get_set hq' with ⟨rfl, rfl⟩ | ⟨hne, hq'⟩
    · exact hl
    · exact hi.held j q' hq' hp'
  · intro c hc
    simp only [Option.some.injEq] at hc
    subst hc
    simp
  · intro j q' hq' hp' hs
    rcases get_set hq' with ⟨rfl, rfl⟩ | ⟨hne, hq'⟩
    · exact absurd hp' hno
    · exfalso
      have := hi.held j q' hq' (by rcases hp' with h | h <;> rw [h] <;> trivial)
      simp_all
  · intro j q' c hq' hp'
    rcases get_set hq' with ⟨rfl, rfl⟩ | ⟨hne', hq'⟩
    · simp only [] at hp'; subst hp'; exact absurd hp id
    · obtain ⟨h1, h2⟩ := hi.stream j q' c hq' hp'
      refine ⟨by simp; omega, fun hs => ?_⟩
      simp only []
      rw [hne c h1]; exact h2 hs
  · intro hu d
    simp only []
    by_cases hlt : d < s.conns.length
    · rw [hne d hlt]; exact hi.late hu d
    · rw [List.getElem?_append_right (by omega)]
      intro h
      have hst : st = .early := by
        cases hd' : d - s.conns.length with
        | zero => rw [hd'] at h; simpa using h
        | succ n => rw [hd'] at h; simp at h
      have hu' : s.use0RTT = false := hu
      rw [hu', hst] at hd
      simp [dialAllowed] at hd

private theorem inv_step {s s' : Sys} {e : Ev} (hi : Inv s) (h : step s e = some s') : Inv s' ∧ s'.use0RTT = s.use0RTT := by
  cases e with
  | call op =>
    simp only [step, Option.some.injEq] at h
    subst h
    have get_app : ∀ (j : Nat) (q : Query), (s.queries ++ [{ opcode := op }])[j]? = some q → s.queries[j]? = some q ∨ q.pc = .start := by
      intro j q h
      by_cases hlt : j < s.queries.length
      · rw [List.getElem?_append_left hlt] at h; exact Or.inl h
      · rw [List.getElem?_append_right (by omega)] at h
        cases hd' : j - s.queries.length with
        | zero => rw [hd'] at h; simp at h; subst h; exact Or.inr rfl
        | succ n => rw [hd'] at h; simp at h
    refine ⟨⟨?_, hi.conn, ?_, ?_, hi.late, ?_⟩, rfl⟩
    · intro j q hq hp
      rcases get_app j q hq with hq | hq
      · exact hi.held j q hq hp
      · rw [hq] at hp; exact absurd hp id
    · intro j q hq hp hs
      rcases get_app j q hq with hq | hq
      · exact hi.opening j q hq hp hs
      · rcases hp with h | h <;> rw [hq] at h <;> simp at h
    · intro j q c hq hp
      rcases get_app j q hq with hq | hq
      · exact hi.stream j q c hq hp
      · rw [hq] at hp; simp at hp
    · intro j c st hl
      obtain ⟨q, h1, h2⟩ := hi.log j c st hl
      have hlt : j < s.queries.length := (List.getElem?_eq_some_iff.mp h1).1
      exact ⟨q, by simp only []; rw [List.getElem?_append_left hlt]; exact h1, h2⟩
  | lock i =>
    simp only [step] at h
    cases hq : s.queries[i]? with
    | none => rw [hq] at h; simp at h
    | some q =>
      rw [hq] at h
      simp only [] at h
      split at h
      · rename_i hc
        simp only [Option.some.injEq] at h
        subst h
        exact ⟨inv_goto hi hq .locked (some i) (fun _ => rfl) (Or.inr hc.2) (by rintro (h | h) <;> simp at h) (by intro c h; simp at h), rfl⟩
      · simp at h
  | haveConn i =>
    simp only [step] at h
    cases hq : s.queries[i]? with
    | none => rw [hq] at h; simp at h
    | some q =>
      rw [hq] at h
      simp only [] at h
      split at h
      · rename_i hc
        simp only [Option.some.injEq] at h
        subst h
        have hh : Held q.pc := by rw [hc.1]; trivial
        have := inv_goto hi hq .await1 s.lock (fun _ => hi.held i q hq hh) (Or.inl hh) (by rintro (h | h) <;> simp at h) (by intro c h; simp at h)
        exact ⟨this, rfl⟩
      · simp at h
  | dialOk i st =>
    simp only [step] at h
    cases hq : s.queries[i]? with
    | none => rw [hq] at h; simp at h
    | some q =>
      rw [hq] at h
      simp only [] at h
      split at h
      · simp at h
      · rename_i hd
        have hd : dialAllowed s.use0RTT st = true := by simpa using hd
        split at h
        · rename_i hc
          simp only [Option.some.injEq] at h
          subst h
          exact ⟨inv_dial hi hq (by rw [hc.1]; trivial) .await1 trivial (by rintro (h | h) <;> simp at h) st hd, rfl⟩
        · split at h
          · rename_i hc
            simp only [Option.some.injEq] at h
            subst h
            exact ⟨inv_dial hi hq (by rw [hc]; trivial) .await2 trivial (by rintro (h | h) <;> simp at h) st hd, rfl⟩
          · simp at h
  | dialFail i =>
    simp only [step] at h
    cases hq : s.queries[i]? with
    | none => rw [hq] at h; simp at h
    | some q =>
      rw [hq] at h
      simp only [] at h
      split at h
      · rename_i hc
        simp only [Option.some.injEq] at h
        subst h
        exact ⟨inv_goto hi hq .failed none (fun h => absurd h id) (Or.inl (by rcases hc with h | h; rw [h.1]; trivial; rw [h]; trivial)) (by rintro (h | h) <;> simp at h) (by intro c h; simp at h), rfl⟩
      · simp at h
  | awaited i =>
    simp only [step] at h
    cases hq : s.queries[i]? with
    | none => rw [hq] at h; simp at h
    | some q =>
      rw [hq] at h
      simp only [] at h
      split at h
      · simp at h
      · rename_i ha
        have ha : awaitReplaySafe (isReplayableOpcode q.opcode) s.curState = true := by simpa using ha
        have hsafe : ¬ Safe q → s.curState ≠ some .early := by
          intro hs h
          unfold awaitReplaySafe at ha
          unfold Safe at hs
          rw [h] at ha
          simp [hs] at ha
        split at h
        · rename_i hc
          simp only [Option.some.injEq] at h
          subst h
          have hh : Held q.pc := by rw [hc]; trivial
          exact ⟨inv_goto hi hq .open1 s.lock (fun _ => hi.held i q hq hh) (Or.inl hh) (fun _ => hsafe) (by intro c h; simp at h), rfl⟩
        · split at h
          · rename_i hc
            simp only [Option.some.injEq] at h
            subst h
            have hh : Held q.pc := by rw [hc]; trivial
            exact ⟨inv_goto hi hq .open2 s.lock (fun _ => hi.held i q hq hh) (Or.inl hh) (fun _ => hsafe) (by intro c h; simp at h), rfl⟩
          · simp at h
  | openOk i =>
    simp only [step] at h
    cases hq : s.queries[i]? with
    | none => rw [hq] at h; simp at h
    | some q =>
      cases hcur : s.cur with
      | none => rw [hq, hcur] at h; simp at h
      | some c =>
        rw [hq, hcur] at h
        simp only [] at h
        split at h
        · rename_i hc
          simp only [Option.some.injEq] at h
          subst h
          refine ⟨inv_goto hi hq (.stream c) none (fun h => absurd h id) (Or.inl (by rcases hc.1 with h | h <;> rw [h] <;> trivial)) (by rintro (h | h) <;> simp at h) ?_, rfl⟩
          intro c' hc'
          simp only [PC.stream.injEq] at hc'
          subst hc'
          refine ⟨hi.conn c hcur, fun hs => ?_⟩
          have := hi.opening i q hq hc.1 hs
          unfold Sys.curState at this
          rw [hcur] at this
          exact this
        · simp at h
  | openFail i =>
    simp only [step] at h
    cases hq : s.queries[i]? with
    | none => rw [hq] at h; simp at h
    | some q =>
      rw [hq] at h
      simp only [] at h
      split at h
      · rename_i hc
        simp only [Option.some.injEq] at h
        subst h
        have hh : Held q.pc := by rw [hc]; trivial
        exact ⟨inv_goto hi hq .restart s.lock (fun _ => hi.held i q hq hh) (Or.inl hh) (by rintro (h | h) <;> simp at h) (by intro c h; simp at h), rfl⟩
      · split at h
        · rename_i hc
          simp only [Option.some.injEq] at h
          subst h
          exact ⟨inv_goto hi hq .failed none (fun h => absurd h id) (Or.inl (by rw [hc]; trivial)) (by rintro (h | h) <;> simp at h) (by intro c h; simp at h), rfl⟩
        · simp at h
  | close i =>
    simp only [step] at h
    cases hq : s.queries[i]? with
    | none => rw [hq] at h; simp at h
    | some q =>
      cases hcur : s.cur with
      | none => rw [hq, hcur] at h; simp at h
      | some c =>
        rw [hq, hcur] at h
        simp only [] at h
        split at h
        · rename_i hc
          simp only [Option.some.injEq] at h
          subst h
          have hh : Held q.pc := by rw [hc]; trivial
          have h1 := inv_goto hi hq .redial s.lock (fun _ => hi.held i q hq hh) (Or.inl hh) (by rintro (h | h) <;> simp at h) (by intro c h; simp at h)
          exact ⟨inv_set h1 c .dead (by simp), rfl⟩
        · simp at h
  | write i =>
    simp only [step] at h
    cases hq : s.queries[i]? with
    | none => rw [hq] at h; simp at h
    | some q =>
      rw [hq] at h
      simp only [] at h
      cases hpc : q.pc with
      | stream c =>
        rw [hpc] at h
        simp only [] at h
        cases hc : s.conns[c]? with
        | none => rw [hc] at h; simp at h
        | some st =>
          rw [hc] at h
          simp only [] at h
          split at h
          · simp only [Option.some.injEq] at h
            subst h
            obtain ⟨h1, h2⟩ := hi.stream i q c hq hpc
            refine ⟨⟨?_, hi.conn, ?_, ?_, hi.late, ?_⟩, rfl⟩
            · intro j q' hq' hp
              rcases get_set hq' with ⟨rfl, rfl⟩ | ⟨hne, hq'⟩
              · exact absurd hp id
              · exact hi.held j q' hq' hp
            · intro j q' hq' hp hs
              rcases get_set hq' with ⟨rfl, rfl⟩ | ⟨hne, hq'⟩
              · rcases hp with h | h <;> simp at h
              · exact hi.opening j q' hq' hp hs
            · intro j q' d hq' hp
              rcases get_set hq' with ⟨rfl, rfl⟩ | ⟨hne, hq'⟩
              · simp at hp
              · exact hi.stream j q' d hq' hp
            · intro j d st' hl
              simp only [List.mem_cons, Prod.mk.injEq] at hl
              rcases hl with ⟨rfl, rfl, rfl⟩ | hl
              · have hlt : j < s.queries.length := (List.getElem?_eq_some_iff.mp hq).1
                refine ⟨{ q with pc := .written d }, by simp [Sys.goto, hlt], ?_⟩
                rintro rfl
                refine ⟨Classical.byContradiction fun hs => h2 hs hc, ?_⟩
                show s.use0RTT = true
                cases hu : s.use0RTT with
                | true => rfl
                | false => exact absurd hc (hi.late hu d)
              · exact log_goto hi hq (.written c) j d st' hl
          · simp at h
      | _ => rw [hpc] at h; simp at h
  | writeFail i =>
    simp only [step] at h
    cases hq : s.queries[i]? with
    | none => rw [hq] at h; simp at h
    | some q =>
      rw [hq] at h
      simp only [] at h
      cases hpc : q.pc with
      | stream c =>
        rw [hpc] at h
        simp only [Option.some.injEq] at h
        subst h
        refine ⟨⟨?_, hi.conn, ?_, ?_, hi.late, log_goto hi hq .failed⟩, rfl⟩
        · intro j q' hq' hp
          rcases get_set hq' with ⟨rfl, rfl⟩ | ⟨hne, hq'⟩
          · exact absurd hp id
          · exact hi.held j q' hq' hp
        · intro j q' hq' hp hs
          rcases get_set hq' with ⟨rfl, rfl⟩ | ⟨hne, hq'⟩
          · rcases hp with h | h <;> simp at h
          · exact hi.opening j q' hq' hp hs
        · intro j q' d hq' hp
          rcases get_set hq' with ⟨rfl, rfl⟩ | ⟨hne, hq'⟩
          · simp at hp
          · exact hi.stream j q' d hq' hp
      | _ => rw [hpc] at h; simp at h
  | complete c =>
    simp only [step] at h
    split at h
    · simp only [Option.some.injEq] at h
      subst h
      exact ⟨inv_set hi c .complete (by simp), rfl⟩
    · simp at h
  | die c =>
    simp only [step] at h
    split at h
    · simp only [Option.some.injEq] at h
      subst h
      exact ⟨inv_set hi c .dead (by simp), rfl⟩
    · simp at h

private theorem inv_run (u : Bool) : ∀ (evs : List Ev) (s : Sys), run u evs = some s → Inv s ∧ s.use0RTT = u
  | [], s, h => by
    simp only [run, Option.some.injEq] at h
    subst h
    exact ⟨⟨by simp, by simp, by simp, by simp, by simp, by simp⟩, rfl⟩
  | e :: evs, s, h => by
    simp only [run] at h
    cases hr : run u evs with
    | none => rw [hr] at h; simp at h
    | some s0 =>
      rw [hr] at h
      obtain ⟨h1, h2⟩ := inv_run u evs s0 hr
      obtain ⟨h3, h4⟩ := inv_step h1 h
      exact ⟨h3, h4.trans h2⟩

/-- C55, QUIC client: however queries, handshakes, connection losses and restarts interleave, what is written as early data is a query or notify, and only if 0-RTT
was configured. -/
theorem doq_client_early (u : Bool) (evs : List Ev) (s : Sys) (h : run u evs = some s) (i c : Nat) (hw : (i, c, Conn.early) ∈ s.log) :
    u = true ∧ ∃ q, s.queries[i]? = some q ∧ (q.opcode = 0 ∨ q.opcode = 4) := by
  obtain ⟨hi, hu⟩ := inv_run u evs s h
  obtain ⟨q, h1, h2⟩ := hi.log i c .early hw
  obtain ⟨h3, h4⟩ := h2 rfl
  refine ⟨hu ▸ h4, q, h1, ?_⟩
  unfold Safe isReplayableOpcode opcodeQuery opcodeNotify at h3
  simpa using h3

/-- C55: at any time at most one query is between taking the lock and getting its stream. -/
theorem doq_client_exclusive (u : Bool) (evs : List Ev) (s : Sys) (h : run u evs = some s) (i j : Nat) (q q' : Query) (hi : s.queries[i]? = some q) (hj : s.queries[j]? = some q')
    (hp : q.pc ≠ .start ∧ q.pc ≠ .failed ∧ ∀ c, q.pc ≠ .stream c ∧ q.pc ≠ .written c) (hp' : q'.pc ≠ .start ∧ q'.pc ≠ .failed ∧ ∀ c, q'.pc ≠ .stream c ∧ q'.pc ≠ .written c) : i = j := by
  obtain ⟨inv, _⟩ := inv_run u evs s h
  have held : ∀ (p : PC), (p ≠ .start ∧ p ≠ .failed ∧ ∀ c, p ≠ .stream c ∧ p ≠ .written c) → Held p := by
    intro p hp
    cases p with
    | start => exact absurd rfl hp.1
    | failed => exact absurd rfl hp.2.1
    | stream c => exact absurd rfl (hp.2.2 c).1
    | written c => exact absurd rfl (hp.2.2 c).2
    | _ => trivial
  have h1 := inv.held i q hi (held _ hp)
  have h2 := inv.held j q' hj (held _ hp')
  rw [h1] at h2
  simpa using h2

/-- C55: a query that may be replayed never waits for a handshake; any other stops waiting when the handshake is complete or the connection is gone. -/
theorem doq_client_waits (s : Sys) (i : Nat) (q : Query) (hq : s.queries[i]? = some q) (hp : q.pc = .await1 ∨ q.pc = .await2)
    (hc : q.opcode = 0 ∨ q.opcode = 4 ∨ s.curState = some .complete ∨ s.curState = some .dead) : ∃ s', step s (.awaited i) = some s' := by
  have ha : awaitReplaySafe (isReplayableOpcode q.opcode) s.curState = true := by
    unfold awaitReplaySafe isReplayableOpcode opcodeQuery opcodeNotify
    rcases hc with h | h | h | h <;> simp [h]
  simp only [step, hq, ha]
  rcases hp with h | h <;> simp [h]

/-- An update and a query on a connection with 0-RTT: the query goes out early, the update only after the handshake, although it got hold of the connection first. -/
example : ∃ s, run true [.write 0, .openOk 0, .awaited 0, .complete 0, .write 1, .openOk 1, .awaited 1, .haveConn 1, .lock 1, .writeFail 2, .openOk 2, .awaited 2,
    .dialOk 2 .early, .lock 2, .call 4, .call 0, .call 5] = none ∧
  run true [.write 0, .openOk 0, .awaited 0, .complete 0, .haveConn 0, .lock 0, .write 1, .openOk 1, .awaited 1, .dialOk 1 .early, .lock 1, .call 0, .call 5] = some s ∧
  s.log = [(0, 0, .complete), (1, 0, .early)] := by
  refine ⟨_, by decide +kernel, rfl, by decide +kernel⟩

end Verif.Props.DoqConn
