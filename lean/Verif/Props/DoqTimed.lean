import Verif.Model.DoqTimed
/-
C104: how long a call of a DNS-over-QUIC client takes.
-/
set_option linter.unusedVariables false
set_option linter.unusedSimpArgs false
namespace Verif.Props.DoqTimed
open Verif Verif.Listeners Verif.DoqConn Verif.DoqTimed

private def Held : PC → Prop
  | .start => False
  | .stream _ => False
  | .written _ => False
  | .failed => False
  | _ => True

/-- how many handshakes can be over at this point -/
private def rank : PC → Nat
  | .await1 => 1
  | .open1 | .restart | .redial => 2
  | .await2 => 3
  | .open2 => 4
  | _ => 0

/-- whether it can wait for one here -/
private def slack : PC → Nat
  | .locked | .await1 | .redial | .await2 => 1
  | _ => 0

private theorem rank_slack (p : PC) : rank p + slack p ≤ 4 := by cases p <;> simp [rank, slack]

/-- What a step other than a call or taking the lock does. -/
private inductive Kind (s s' : Sys) (e : Ev) : Prop where
  | net (hq : s'.queries = s.queries) (hl : s'.lock = s.lock) (he : inSection e = false)
  | move (i : Nat) (q : Query) (pc : PC) (hi : s.queries[i]? = some q) (hq : s'.queries = s.queries.set i { q with pc := pc }) (hl : s'.lock = s.lock)
    (h1 : Held q.pc) (h2 : Held pc) (h3 : rank q.pc + slack q.pc ≤ rank pc) (he : inSection e = true)
  | leave (i : Nat) (q : Query) (pc : PC) (hi : s.queries[i]? = some q) (hq : s'.queries = s.queries.set i { q with pc := pc }) (hl : s'.lock = none)
    (h1 : Held q.pc) (h2 : pc = .failed ∨ ∃ c, pc = .stream c) (he : inSection e = true)
  | use (i : Nat) (q : Query) (c : Nat) (pc : PC) (hi : s.queries[i]? = some q) (hq : s'.queries = s.queries.set i { q with pc := pc }) (hl : s'.lock = s.lock)
    (h1 : q.pc = .stream c) (h2 : pc = .failed ∨ ∃ c, pc = .written c) (he : inSection e = false)

private theorem step_kind (s s' : Sys) (e : Ev) (h : step s e = some s') (hc : ∀ op, e ≠ .call op) (hl : ∀ i, e ≠ .lock i) : Kind s s' e := by
  cases e with
  | call op => exact absurd rfl (hc op)
  | lock i => exact absurd rfl (hl i)
  | haveConn i =>
    simp only [step] at h
    split at h <;> try cases h
    rename_i q hq
    split at h <;> cases h
    rename_i hp
    exact .move i q .await1 hq rfl rfl (by rw [hp.1]; trivial) trivial (by rw [hp.1]; simp [rank, slack]) rfl
  | dialOk i st =>
    simp only [step] at h
    split at h <;> try cases h
    rename_i q hq
    split at h <;> try cases h
    split at h
    · rename_i hp
      cases h
      exact .move i q .await1 hq rfl rfl (by rw [hp.1]; trivial) trivial (by rw [hp.1]; simp [rank, slack]) rfl
    · split at h <;> cases h
      rename_i hp
      exact .move i q .await2 hq rfl rfl (by rw [hp]; trivial) trivial (by rw [hp]; simp [rank, slack]) rfl
  | dialFail i =>
    simp only [step] at h
    split at h <;> try cases h
    rename_i q hq
    split at h <;> cases h
    rename_i hp
    refine .leave i q .failed hq rfl rfl ?_ (.inl rfl) rfl
    rcases hp with hp | hp
    · rw [hp.1]; trivial
    · rw [hp]; trivial
  | awaited i =>
    simp only [step] at h
    split at h <;> try cases h
    rename_i q hq
    split at h <;> try cases h
    split at h
    · rename_i hp
      cases h
      exact .move i q .open1 hq rfl rfl (by rw [hp]; trivial) trivial (by rw [hp]; simp [rank, slack]) rfl
    · split at h <;> cases h
      rename_i hp
      exact .move i q .open2 hq rfl rfl (by rw [hp]; trivial) trivial (by rw [hp]; simp [rank, slack]) rfl
  | openOk i =>
    simp only [step] at h
    split at h <;> try cases h
    rename_i q c hq hcur
    split at h <;> cases h
    rename_i hp
    refine .leave i q (.stream c) hq rfl rfl ?_ (.inr ⟨c, rfl⟩) rfl
    rcases hp.1 with hp | hp <;> rw [hp] <;> trivial
  | openFail i =>
    simp only [step] at h
    split at h <;> try cases h
    rename_i q hq
    split at h
    · rename_i hp
      cases h
      exact .move i q .restart hq rfl rfl (by rw [hp]; trivial) trivial (by rw [hp]; simp [rank, slack]) rfl
    · split at h <;> cases h
      rename_i hp
      exact .leave i q .failed hq rfl rfl (by rw [hp]; trivial) (.inl rfl) rfl
  | close i =>
    simp only [step] at h
    split at h <;> try cases h
    rename_i q c hq hcur
    split at h <;> cases h
    rename_i hp
    exact .move i q .redial hq rfl rfl (by rw [hp]; trivial) trivial (by rw [hp]; simp [rank, slack]) rfl
  | write i =>
    simp only [step] at h
    split at h <;> try cases h
    rename_i q hq
    split at h <;> try cases h
    rename_i c hp
    split at h <;> try cases h
    split at h <;> cases h
    exact .use i q c (.written c) hq rfl rfl hp (.inr ⟨c, rfl⟩) rfl
  | writeFail i =>
    simp only [step] at h
    split at h <;> try cases h
    rename_i q hq
    split at h <;> cases h
    rename_i c hp
    exact .use i q c .failed hq rfl rfl hp (.inl rfl) rfl
  | complete c => simp only [step] at h; split at h <;> cases h; exact .net rfl rfl rfl
  | die c => simp only [step] at h; split at h <;> cases h; exact .net rfl rfl rfl

private theorem get_set {l : List Query} {i j : Nat} {x y : Query} (h : (l.set i x)[j]? = some y) : (i = j ∧ y = x) ∨ (i ≠ j ∧ l[j]? = some y) := by
  rw [List.getElem?_set] at h
  by_cases e : i = j
  · rw [if_pos e] at h
    split at h
    · exact Or.inl ⟨e, by simpa using h.symm⟩
    · simp at h
  · rw [if_neg e] at h; exact Or.inr ⟨e, h⟩

/-- The call number `i` with its beginning and the number of times the lock was taken before. -/
private structure At (t : TSys) (i : Nat) (q : Query) (a w : Nat) : Prop where
  q : t.sys.queries[i]? = some q
  a : t.arrival[i]? = some a
  w : t.wonBefore[i]? = some w

private structure Inv (D T : Nat) (t : TSys) : Prop where
  la : t.arrival.length = t.sys.queries.length
  lw : t.wonBefore.length = t.sys.queries.length
  past : ∀ (i a : Nat), t.arrival[i]? = some a → a ≤ t.now
  wins : ∀ (i w : Nat), t.wonBefore[i]? = some w → w ≤ t.won
  uniq : ∀ (i : Nat) (q : Query), t.sys.queries[i]? = some q → Held q.pc → t.sys.lock = some i
  free : t.sys.lock = none → ∀ i q a w, At t i q a w → q.pc = .start → t.now ≤ a + (t.won - w) * (4 * D) + 4 * D
  held : ∀ i, t.sys.lock = some i → ∃ (q : Query) (σ : Nat), t.sys.queries[i]? = some q ∧ Held q.pc ∧ σ ≤ t.now ∧ t.since ≤ σ + rank q.pc * D ∧ t.now ≤ t.since + slack q.pc * D ∧
    ∀ j q' a w, At t j q' a w → q'.pc = .start ∨ j = i → σ ≤ a + (t.won - w) * (4 * D)
  stream : ∀ i q a w, At t i q a w → hasStream q = true → i ∉ t.over → t.now ≤ a + T ∨ t.now ≤ a + (t.won - w) * (4 * D) + 4 * D

private theorem inv_new (D T : Nat) (u : Bool) : Inv D T { sys := { use0RTT := u } } := by
  refine ⟨rfl, rfl, ?_, ?_, ?_, ?_, ?_, ?_⟩
  · intro i a h; simp at h
  · intro i w h; simp at h
  · intro i q h; simp at h
  · rintro - i q a w ⟨h, -, -⟩; simp at h
  · intro i h; cases h
  · rintro i q a w ⟨h, -, -⟩; simp at h

private theorem inv_step (D T : Nat) (t t' : TSys) (hi : Inv D T t) (h : TStep D T t t') : Inv D T t' := by
  obtain ⟨la, lw, past, wins, uniq, free, held, stream⟩ := hi
  cases h with
  | call op s' hs =>
    simp only [step, Option.some.injEq] at hs
    subst hs
    have old : ∀ {i q a w}, At { t with sys := { t.sys with queries := t.sys.queries ++ [{ opcode := op }] }, arrival := t.arrival ++ [t.now], wonBefore := t.wonBefore ++ [t.won] } i q a w →
        At t i q a w ∨ (i = t.sys.queries.length ∧ q.pc = .start ∧ a = t.now ∧ w = t.won) := by
      rintro i q a w ⟨h1, h2, h3⟩
      simp only at h1 h2 h3
      rcases Nat.lt_trichotomy i t.sys.queries.length with h | h | h
      · rw [List.getElem?_append_left (by omega)] at h1 h2 h3
        exact .inl ⟨h1, h2, h3⟩
      · right
        subst h
        rw [List.getElem?_append_right (by omega)] at h1 h2 h3
        simp at h1
        simp [la] at h2
        simp [lw] at h3
        exact ⟨rfl, by rw [← h1], h2.symm, h3.symm⟩
      · rw [List.getElem?_eq_none (by simp; omega)] at h1; cases h1
    refine ⟨by simp [la], by simp [lw], ?_, ?_, ?_, ?_, ?_, ?_⟩
    · intro i a h
      show a ≤ t.now
      simp only at h
      rcases Nat.lt_trichotomy i t.arrival.length with h' | h' | h'
      · rw [List.getElem?_append_left h'] at h; exact past i a h
      · subst h'; simp at h; omega
      · rw [List.getElem?_eq_none (by simp; omega)] at h; cases h
    · intro i w h
      show w ≤ t.won
      simp only at h
      rcases Nat.lt_trichotomy i t.wonBefore.length with h' | h' | h'
      · rw [List.getElem?_append_left h'] at h; exact wins i w h
      · subst h'; simp at h; omega
      · rw [List.getElem?_eq_none (by simp; omega)] at h; cases h
    · intro i q h hh
      simp only at h
      rcases Nat.lt_trichotomy i t.sys.queries.length with h' | h' | h'
      · rw [List.getElem?_append_left h'] at h; exact uniq i q h hh
      · subst h'; simp at h; subst h; exact absurd hh id
      · rw [List.getElem?_eq_none (by simp; omega)] at h; cases h
    · intro hl i q a w hat hp
      show t.now ≤ a + (t.won - w) * (4 * D) + 4 * D
      rcases old hat with h | ⟨_, _, rfl, rfl⟩
      · exact free hl i q a w h hp
      · omega
    · intro i hl
      obtain ⟨q, σ, h1, h2, h3, h4, h5, h6⟩ := held i hl
      have hlt := (List.getElem?_eq_some_iff.mp h1).1
      refine ⟨q, σ, by simp only; rw [List.getElem?_append_left hlt]; exact h1, h2, h3, h4, h5, ?_⟩
      intro j q' a w hat hp
      show σ ≤ a + (t.won - w) * (4 * D)
      rcases old hat with h | ⟨_, _, rfl, rfl⟩
      · exact h6 j q' a w h hp
      · omega
    · intro i q a w hat hp ho
      show t.now ≤ a + T ∨ t.now ≤ a + (t.won - w) * (4 * D) + 4 * D
      rcases old hat with h | ⟨_, hst, _, _⟩
      · exact stream i q a w h hp ho
      · simp [hasStream, hst] at hp
  | lock i s' hs =>
    simp only [step] at hs
    split at hs <;> try cases hs
    rename_i q hq
    split at hs <;> cases hs
    rename_i hp
    have hlt := (List.getElem?_eq_some_iff.mp hq).1
    have bound : ∀ j q' a w, At t j q' a w → q'.pc = .start → t.now ≤ a + (t.won + 1 - w) * (4 * D) := by
      intro j q' a w hat hst
      have := free hp.2 j q' a w hat hst
      have hw := wins j w hat.w
      rw [show t.won + 1 - w = (t.won - w) + 1 by omega, Nat.add_mul]
      omega
    refine ⟨by simp [Sys.goto, la], by simp [Sys.goto, lw], past, ?_, ?_, ?_, ?_, ?_⟩
    · intro k w hw; have := wins k w hw; show w ≤ t.won + 1; omega
    · intro j q' hq' hh
      show some i = some j
      rcases get_set hq' with ⟨rfl, _⟩ | ⟨_, hq'⟩
      · rfl
      · have := uniq j q' hq' hh; rw [hp.2] at this; cases this
    · intro hl; cases hl
    · intro k hk
      have : i = k := by simpa using hk
      subst this
      refine ⟨{ q with pc := .locked }, t.now, by simp [Sys.goto, hlt], trivial, Nat.le_refl _, by show t.now ≤ _; omega, by show t.now ≤ t.now + _; omega, ?_⟩
      intro j q' a w hat hst
      rcases get_set hat.q with ⟨rfl, rfl⟩ | ⟨hne, hq'⟩
      · exact bound i q a w ⟨hq, hat.a, hat.w⟩ hp.1
      · rcases hst with hst | hst
        · exact bound j q' a w ⟨hq', hat.a, hat.w⟩ hst
        · exact absurd hst.symm hne
    · intro j q' a w hat hst ho
      show t.now ≤ a + T ∨ t.now ≤ a + (t.won + 1 - w) * (4 * D) + 4 * D
      rcases get_set hat.q with ⟨rfl, rfl⟩ | ⟨hne, hq'⟩
      · simp [hasStream] at hst
      · rcases stream j q' a w ⟨hq', hat.a, hat.w⟩ hst ho with h | h
        · exact .inl h
        · have := Nat.mul_le_mul_right (4 * D) (show t.won - w ≤ t.won + 1 - w by omega)
          exact .inr (by omega)
  | act e s' hc hl hs =>
    cases step_kind _ _ e hs hc hl with
    | net hq' hl' he =>
      have hat : ∀ {i q a w}, At { t with sys := s', since := if inSection e then t.now else t.since } i q a w → At t i q a w := fun h => ⟨hq' ▸ h.q, h.a, h.w⟩
      refine ⟨by simp [la, hq'], by simp [lw, hq'], past, wins, ?_, ?_, ?_, ?_⟩
      · intro i q h hh; show s'.lock = _; rw [hl']; exact uniq i q (hq' ▸ h) hh
      · intro hn i q a w h hp; exact free (hl' ▸ hn) i q a w (hat h) hp
      · intro i hn
        obtain ⟨q, σ, h1, h2, h3, h4, h5, h6⟩ := held i (hl' ▸ hn)
        refine ⟨q, σ, by show s'.queries[i]? = _; rw [hq']; exact h1, h2, h3, ?_, ?_, fun j q' a w h => h6 j q' a w (hat h)⟩
        · simp only [he]; exact h4
        · simp only [he]; exact h5
      · intro i q a w h hp ho; exact stream i q a w (hat h) hp ho
    | move i q pc hqi hq' hl' h1 h2 h3 he =>
      have hlk := uniq i q hqi h1
      have hlt := (List.getElem?_eq_some_iff.mp hqi).1
      obtain ⟨q0, σ, k1, k2, k3, k4, k5, k6⟩ := held i hlk
      rw [hqi] at k1; cases k1
      refine ⟨by simp [la, hq'], by simp [lw, hq'], past, wins, ?_, ?_, ?_, ?_⟩
      · intro j q' h hh
        show s'.lock = _
        rw [hl']
        have h : s'.queries[j]? = some q' := h
        rw [hq'] at h
        rcases get_set h with ⟨rfl, _⟩ | ⟨_, h⟩
        · exact hlk
        · exact uniq j q' h hh
      · intro hn; have hn : s'.lock = none := hn; rw [hl', hlk] at hn; cases hn
      · intro k hk
        have hk : s'.lock = some k := hk
        rw [hl', hlk] at hk; cases hk
        refine ⟨{ q with pc := pc }, σ, by show s'.queries[i]? = _; rw [hq']; simp [hlt], h2, k3, ?_, ?_, ?_⟩
        · simp only [he, if_true]
          have e1 := Nat.mul_le_mul_right D h3
          rw [Nat.add_mul] at e1
          omega
        · simp only [he, if_true]; omega
        · intro j q' a w hat hst
          have h : s'.queries[j]? = some q' := hat.q
          rw [hq'] at h
          rcases get_set h with ⟨rfl, rfl⟩ | ⟨hne, h⟩
          · exact k6 i q a w ⟨hqi, hat.a, hat.w⟩ (.inr rfl)
          · exact k6 j q' a w ⟨h, hat.a, hat.w⟩ hst
      · intro j q' a w hat hst ho
        have h : s'.queries[j]? = some q' := hat.q
        rw [hq'] at h
        rcases get_set h with ⟨rfl, rfl⟩ | ⟨hne, h⟩
        · exfalso; cases pc <;> simp [hasStream] at hst <;> exact h2
        · exact stream j q' a w ⟨h, hat.a, hat.w⟩ hst ho
    | leave i q pc hqi hq' hl' h1 h2 he =>
      have hlk := uniq i q hqi h1
      obtain ⟨q0, σ, k1, k2, k3, k4, k5, k6⟩ := held i hlk
      rw [hqi] at k1; cases k1
      have hnow : t.now ≤ σ + 4 * D := by
        have e1 := Nat.mul_le_mul_right D (rank_slack q.pc)
        rw [Nat.add_mul] at e1
        omega
      refine ⟨by simp [la, hq'], by simp [lw, hq'], past, wins, ?_, ?_, ?_, ?_⟩
      · intro j q' h hh
        exfalso
        have h : s'.queries[j]? = some q' := h
        rw [hq'] at h
        rcases get_set h with ⟨rfl, rfl⟩ | ⟨hne, h⟩
        · rcases h2 with h2 | ⟨c, h2⟩ <;> simp only [h2] at hh <;> exact hh
        · have := uniq j q' h hh; rw [hlk] at this; cases this; exact hne rfl
      · intro _ j q' a w hat hst
        show t.now ≤ a + (t.won - w) * (4 * D) + 4 * D
        have h : s'.queries[j]? = some q' := hat.q
        rw [hq'] at h
        rcases get_set h with ⟨rfl, rfl⟩ | ⟨hne, h⟩
        · rcases h2 with h2 | ⟨c, h2⟩ <;> simp [h2] at hst
        · have := k6 j q' a w ⟨h, hat.a, hat.w⟩ (.inl hst)
          omega
      · intro k hk; have hk : s'.lock = some k := hk; rw [hl'] at hk; cases hk
      · intro j q' a w hat hst ho
        show t.now ≤ a + T ∨ t.now ≤ a + (t.won - w) * (4 * D) + 4 * D
        have h : s'.queries[j]? = some q' := hat.q
        rw [hq'] at h
        rcases get_set h with ⟨rfl, rfl⟩ | ⟨hne, h⟩
        · have := k6 i q a w ⟨hqi, hat.a, hat.w⟩ (.inr rfl)
          exact .inr (by omega)
        · exact stream j q' a w ⟨h, hat.a, hat.w⟩ hst ho
    | use i q c pc hqi hq' hl' h1 h2 he =>
      have hlt := (List.getElem?_eq_some_iff.mp hqi).1
      have hpc : ¬ Held pc ∧ pc ≠ .start := by rcases h2 with rfl | ⟨c, rfl⟩ <;> exact ⟨id, by simp⟩
      have hat : ∀ {j q' a w}, At { t with sys := s', since := if inSection e then t.now else t.since } j q' a w →
          (i = j ∧ q' = { q with pc := pc } ∧ At t j q a w) ∨ (i ≠ j ∧ At t j q' a w) := by
        intro j q' a w h
        have hh : s'.queries[j]? = some q' := h.q
        rw [hq'] at hh
        rcases get_set hh with ⟨rfl, rfl⟩ | ⟨hne, hh⟩
        · exact .inl ⟨rfl, rfl, hqi, h.a, h.w⟩
        · exact .inr ⟨hne, hh, h.a, h.w⟩
      refine ⟨by simp [la, hq'], by simp [lw, hq'], past, wins, ?_, ?_, ?_, ?_⟩
      · intro j q' h hh
        show s'.lock = _
        rw [hl']
        have h : s'.queries[j]? = some q' := h
        rw [hq'] at h
        rcases get_set h with ⟨rfl, rfl⟩ | ⟨_, h⟩
        · exact absurd hh hpc.1
        · exact uniq j q' h hh
      · intro hn j q' a w h hp
        rcases hat h with ⟨rfl, rfl, _⟩ | ⟨_, h⟩
        · exact absurd hp hpc.2
        · exact free (hl' ▸ hn) j q' a w h hp
      · intro k hk
        obtain ⟨q0, σ, k1, k2, k3, k4, k5, k6⟩ := held k (hl' ▸ hk)
        have hne : i ≠ k := by
          rintro rfl
          rw [hqi] at k1; cases k1
          rw [h1] at k2; exact k2
        refine ⟨q0, σ, by show s'.queries[k]? = _; rw [hq', List.getElem?_set_ne hne]; exact k1, k2, k3, ?_, ?_, ?_⟩
        · simp only [he]; exact k4
        · simp only [he]; exact k5
        · intro j q' a w h hst
          rcases hat h with ⟨rfl, rfl, _⟩ | ⟨_, h⟩
          · rcases hst with hst | hst
            · exact absurd hst hpc.2
            · exact absurd hst hne
          · exact k6 j q' a w h hst
      · intro j q' a w h hst ho
        rcases hat h with ⟨rfl, rfl, h'⟩ | ⟨_, h⟩
        · exact stream i q a w h' (by simp [hasStream, h1]) ho
        · exact stream j q' a w h hst ho
  | finish i q hq hst =>
    exact ⟨la, lw, past, wins, uniq, fun hn j q' a w h => free hn j q' a w ⟨h.q, h.a, h.w⟩, fun k hk => by
        obtain ⟨q0, σ, k1, k2, k3, k4, k5, k6⟩ := held k hk
        exact ⟨q0, σ, k1, k2, k3, k4, k5, fun j q' a w h => k6 j q' a w ⟨h.q, h.a, h.w⟩⟩,
      fun j q' a w h hs ho => stream j q' a w ⟨h.q, h.a, h.w⟩ hs (fun hm => ho (List.mem_cons_of_mem _ hm))⟩
  | pass hp =>
    obtain ⟨p1, p2, p3⟩ := hp
    refine ⟨la, lw, fun i a h => Nat.le_succ_of_le (past i a h), wins, uniq, ?_, ?_, ?_⟩
    · intro hn i q a w h hs
      exact absurd hs (p1 hn q (List.mem_of_getElem? h.q))
    · intro k hk
      obtain ⟨q0, σ, k1, k2, k3, k4, k5, k6⟩ := held k hk
      obtain ⟨w1, w2⟩ := p2 k q0 hk k1
      have : slack q0.pc = 1 := by
        unfold waitsForNetwork at w1
        cases hpc : q0.pc <;> rw [hpc] at w1 <;> simp [slack] at w1 ⊢
      refine ⟨q0, σ, k1, k2, Nat.le_succ_of_le k3, k4, ?_, fun j q' a w h => k6 j q' a w ⟨h.q, h.a, h.w⟩⟩
      show t.now + 1 ≤ t.since + slack q0.pc * D
      rw [this]; omega
    · intro i q a w h hs ho
      have := p3 i a q h.q hs ho h.a
      exact .inl (by show t.now + 1 ≤ a + T; omega)

/-- C104: a call is over `query-timeout` after its beginning, or, when that is later, after the time of four handshakes for itself, for the call that had the connection when it came, and for each other call that got
the connection before it. -/
theorem doq_call_in_time (D T : Nat) (u : Bool) (t : TSys) (h : Reach D T u t) (i a w : Nat) (q : Query) (hq : t.sys.queries[i]? = some q) (ha : t.arrival[i]? = some a)
    (hw : t.wonBefore[i]? = some w) (h1 : a + T < t.now) (h2 : a + (t.won - w + 1) * (4 * D) < t.now) : q.pc = .failed ∨ (hasStream q = true ∧ i ∈ t.over) := by
  have inv : Inv D T t := by
    clear hq ha hw h1 h2
    induction h with
    | new => exact inv_new D T u
    | step t t' _ hs ih => exact inv_step D T t t' ih hs
  obtain ⟨la, lw, past, wins, uniq, free, held, stream⟩ := inv
  rw [Nat.add_mul] at h2
  have section_ : Held q.pc → False := by
    intro hh
    obtain ⟨q0, σ, k1, k2, k3, k4, k5, k6⟩ := held i (uniq i q hq hh)
    rw [hq] at k1; cases k1
    have e0 := k6 i q a w ⟨hq, ha, hw⟩ (.inr rfl)
    have e1 := Nat.mul_le_mul_right D (rank_slack q.pc)
    rw [Nat.add_mul] at e1
    omega
  have st : hasStream q = true → i ∈ t.over := by
    intro hs
    rcases Classical.em (i ∈ t.over) with ho | ho
    · exact ho
    · rcases stream i q a w ⟨hq, ha, hw⟩ hs ho with h | h <;> omega
  cases hp : q.pc with
  | failed => exact .inl rfl
  | stream c => exact .inr ⟨by simp [hasStream, hp], st (by simp [hasStream, hp])⟩
  | written c => exact .inr ⟨by simp [hasStream, hp], st (by simp [hasStream, hp])⟩
  | start =>
    exfalso
    cases hl : t.sys.lock with
    | none =>
      have := free hl i q a w ⟨hq, ha, hw⟩ hp
      omega
    | some k =>
      obtain ⟨q0, σ, k1, k2, k3, k4, k5, k6⟩ := held k hl
      have e0 := k6 i q a w ⟨hq, ha, hw⟩ (.inl hp)
      have e1 := Nat.mul_le_mul_right D (rank_slack q0.pc)
      rw [Nat.add_mul] at e1
      omega
  | _ => exact (section_ (by rw [hp]; trivial)).elim

/-- `m` calls made at once to a server that does not answer, when the first `i` have failed. -/
private def dead (u : Bool) (D m i : Nat) : TSys :=
  { sys := { use0RTT := u, queries := List.replicate i { opcode := 0, pc := .failed } ++ List.replicate (m - i) { opcode := 0 } },
    now := i * D, since := i * D, arrival := List.replicate m 0, won := i, wonBefore := List.replicate m 0 }

private theorem dead_calls (D T : Nat) (u : Bool) : ∀ m, Reach D T u (dead u D m 0)
  | 0 => by
    have := Reach.new (D := D) (T := T) (use0RTT := u)
    simpa [dead] using this
  | m + 1 => by
    refine .step _ _ (dead_calls D T u m) ?_
    have := TStep.call (D := D) (T := T) (dead u D m 0) 0 _ rfl
    simpa [dead, List.replicate_succ'] using this

private theorem dead_get (u : Bool) (D m i : Nat) (h : i < m) : (dead u D m i).sys.queries[i]? = some { opcode := 0 } := by
  simp only [dead]
  rw [List.getElem?_append_right (by simp), List.length_replicate, Nat.sub_self, List.getElem?_replicate_of_lt (by omega)]

/-- The call whose turn it is, when it has the lock and dials. -/
private def dialing (u : Bool) (D m i d : Nat) : TSys :=
  { sys := { use0RTT := u, lock := some i, queries := List.replicate i { opcode := 0, pc := .failed } ++ { opcode := 0, pc := .locked } :: List.replicate (m - (i + 1)) { opcode := 0 } },
    now := i * D + d, since := i * D, arrival := List.replicate m 0, won := i + 1, wonBefore := List.replicate m 0 }

private theorem set_replicate (i k : Nat) (x y z : Query) : (List.replicate i x ++ y :: List.replicate k y).set i z = List.replicate i x ++ z :: List.replicate k y := by
  rw [List.set_append_right _ _ (by simp)]
  simp

private theorem dialing_get (u : Bool) (D m i d : Nat) : (dialing u D m i d).sys.queries[i]? = some { opcode := 0, pc := .locked } := by
  simp [dialing]

private theorem dead_lock (D T : Nat) (u : Bool) (m i : Nat) (h : i < m) : TStep D T (dead u D m i) (dialing u D m i 0) := by
  have e : List.replicate (m - i) ({ opcode := 0 } : Query) = { opcode := 0 } :: List.replicate (m - (i + 1)) { opcode := 0 } := by
    rw [show m - i = m - (i + 1) + 1 by omega, List.replicate_succ]
  have hs : step (dead u D m i).sys (.lock i) = some (dialing u D m i 0).sys := by
    simp only [step, dead_get u D m i h]
    rw [if_pos ⟨trivial, rfl⟩]
    simp only [Sys.goto, dead, dialing, e]
    rw [set_replicate]
  exact TStep.lock (D := D) (T := T) (dead u D m i) i _ hs

private theorem dialing_pass (D T : Nat) (u : Bool) (m i d : Nat) (h : d < D) : TStep D T (dialing u D m i d) (dialing u D m i (d + 1)) := by
  refine TStep.pass (D := D) (T := T) (dialing u D m i d) ⟨?_, ?_, ?_⟩
  · intro h; cases h
  · intro k q hk hq
    have : i = k := by simpa [dialing] using hk
    subst this
    rw [dialing_get] at hq
    cases hq
    exact ⟨rfl, by show i * D + d < i * D + D; omega⟩
  · intro k a q hq hs
    exfalso
    have hm := List.mem_of_getElem? hq
    simp only [dialing, List.mem_append, List.mem_replicate, List.mem_cons] at hm
    rcases hm with ⟨_, rfl⟩ | rfl | ⟨_, rfl⟩ <;> simp [hasStream] at hs

private theorem dead_rounds (D T : Nat) (u : Bool) (m : Nat) : ∀ i, i ≤ m → Reach D T u (dead u D m i)
  | 0, _ => dead_calls D T u m
  | i + 1, h => by
    have h0 := dead_rounds D T u m i (by omega)
    have h1 : ∀ d, d ≤ D → Reach D T u (dialing u D m i d) := by
      intro d
      induction d with
      | zero => exact fun _ => .step _ _ h0 (dead_lock D T u m i (by omega))
      | succ d ih => exact fun hd => .step _ _ (ih (by omega)) (dialing_pass D T u m i d (by omega))
    refine .step _ _ (h1 D (Nat.le_refl _)) ?_
    have hs : step (dialing u D m i D).sys (.dialFail i) = some (dead u D m (i + 1)).sys := by
      simp only [step, dialing_get]
      rw [if_pos (.inl ⟨trivial, rfl⟩)]
      simp only [Sys.goto, dead, dialing]
      rw [List.set_append_right _ _ (by simp)]
      simp [List.replicate_succ']
    have := TStep.act (D := D) (T := T) (dialing u D m i D) (.dialFail i) _ (by simp) (by simp) hs
    simpa [dead, dialing, inSection, Nat.add_mul] using this

/-- C104, finding: the time limit of a query does not hold while a connection is made, since that is done by one call after the other. Of `k + 1` calls made at once when the server does not answer, the last still waits
for its turn when `k` times the time limit of a handshake has passed, however small `query-timeout` is. -/
theorem doq_timeouts_add_up (D T : Nat) (u : Bool) (k : Nat) : ∃ t, Reach D T u t ∧ t.now = k * D ∧ t.arrival[k]? = some 0 ∧ ∃ q, t.sys.queries[k]? = some q ∧ q.pc = .start :=
  ⟨dead u D (k + 1) k, dead_rounds D T u (k + 1) k (by omega), rfl, by simp [dead], _, dead_get u D (k + 1) k (by omega), rfl⟩

section Examples

/-! A single call to a server that does not answer, long after: it has failed. -/
private theorem quiet (T : Nat) : ∀ d, Reach 2 T true { dead true 2 1 1 with now := 2 + d }
  | 0 => dead_rounds 2 T true 1 1 (by omega)
  | d + 1 => by
    refine .step _ _ (quiet T d) (TStep.pass (D := 2) (T := T) { dead true 2 1 1 with now := 2 + d } ⟨?_, ?_, ?_⟩)
    · intro _ q hq; simp [dead] at hq; subst hq; simp
    · intro i q h; simp [dead] at h
    · intro i a q hq hs
      have hm := List.mem_of_getElem? hq
      simp [dead] at hm; subst hm; simp [hasStream] at hs
example : ∃ q, ({ dead true 2 1 1 with now := 2 + 20 } : TSys).sys.queries[0]? = some q ∧ (q.pc = .failed ∨ (hasStream q = true ∧ 0 ∈ ({ dead true 2 1 1 with now := 2 + 20 } : TSys).over)) :=
  ⟨_, rfl, doq_call_in_time 2 3 true _ (quiet 3 20) 0 0 0 _ rfl rfl rfl (by show 0 + 3 < 2 + 20; omega) (by show 0 + (1 - 0 + 1) * (4 * 2) < 2 + 20; omega)⟩

end Examples

end Verif.Props.DoqTimed
