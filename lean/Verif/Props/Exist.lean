import Verif.Spec.Exist
import Verif.Props.Composition
import Verif.Props.Assemble
/-
C119: every query can be answered, in every configuration.
-/
namespace Verif.Props.Exist
open Verif Verif.Composition Verif.Exist

/-! ### Queries passed on -/

private theorem wellFormed {ipStr : Str → Str} {q : Msg} (h : Askable q) : Cache.WellFormed ipStr q := by
  refine ⟨h.question, h.types, fun x hx => ?_⟩
  unfold Spec.Cache.subnet at hx
  obtain ⟨e, he, hx⟩ := Option.bind_eq_some_iff.1 hx
  obtain ⟨o, ho, hx⟩ := List.exists_of_findSome?_eq_some hx
  cases o with
  | ecs f mask s a =>
    cases hx
    exact h.masks e he f mask s a (List.mem_reverse.1 ho)
  | _ => cases hx

private theorem mapEdns_ask {q : Msg} (h : Askable q) (f : Edns → Edns) (hf : ∀ e, q.edns? = some e → ∀ fa mask s a, .ecs fa mask s a ∈ (f e).options →
    mask < 256 ∨ .ecs fa mask s a ∈ e.options) : Askable (q.mapEdns f) := by
  refine ⟨h.question, h.types, fun e he fa mask s a ho => ?_⟩
  rw [Edns0.edns_mapEdns] at he
  obtain ⟨e0, h0, rfl⟩ := Option.map_eq_some_iff.mp he
  exact (hf e0 h0 fa mask s a ho).elim id fun h' => h.masks e0 h0 fa mask s a h'

private theorem setEdns_ask {q : Msg} (h : Askable q) (n : Nat) (d : Bool) : Askable (q.setEdns0 n d) := by
  refine ⟨h.question, h.types, fun e he fa mask s a ho => ?_⟩
  rw [Edns0.edns_setEdns0] at he
  cases he
  cases ho

private theorem withEdns_ask {q : Msg} (h : Askable q) : Askable (Modifiers.withEdns q) := by
  unfold Modifiers.withEdns
  split
  · exact setEdns_ask h _ _
  · exact h

private theorem modifier_ask {m : Modifier} (hm : Fits8 m) {q : Msg} (ci : ClientInfo) (h : Askable q) : Askable (m.apply q ci) := by
  have del : Askable (Modifiers.ecsDelete q) := mapEdns_ask h _ fun e _ _ _ _ _ ho => .inr (List.mem_filter.mp ho).1
  have add : ∀ a p4 p6, p4 < 256 ∧ p6 < 256 → Askable (Modifiers.ecsAdd a p4 p6 q ci) := by
    intro a p4 p6 hp
    refine mapEdns_ask (withEdns_ask del) _ fun e he f mask s a' ho => ?_
    simp only [List.mem_append, List.mem_singleton] at ho
    rcases ho with ho | ho
    · exact .inr ho
    · unfold Modifiers.ecsSubnet at ho
      simp only at ho
      split at ho
      · cases ho
        exact .inl hp.1
      · cases ho
        exact .inl hp.2
  have del0 : ∀ c, Askable (Modifiers.edns0Delete c q) := fun c => mapEdns_ask h _ fun e _ _ _ _ _ ho => .inr (List.mem_filter.mp ho).1
  cases m with
  | keep => exact h
  | ecsDelete => exact del
  | ecsAdd a p4 p6 => exact add a p4 p6 hm
  | ecsAddIfMissing a p4 p6 =>
    unfold Modifier.apply Modifiers.ecsAddIfMissing
    simp only
    split
    · exact h
    · exact add a p4 p6 hm
  | ecsPrivacy p4 p6 =>
    refine mapEdns_ask h _ fun e he f mask s a ho => ?_
    simp only [List.mem_map] at ho
    obtain ⟨o', ho', ho⟩ := ho
    unfold Modifiers.ecsPrivacyOpt at ho
    split at ho
    · cases ho
      exact .inl hm.1
    · cases ho
      exact .inl hm.2
    · subst ho
      exact .inr ho'
  | edns0Delete c => exact del0 c
  | edns0Add c d =>
    refine mapEdns_ask (withEdns_ask (del0 c)) _ fun e he f mask s a ho => ?_
    simp only [List.mem_append, List.mem_singleton, reduceCtorEq, or_false] at ho
    exact .inr ho

private theorem upstream_ask {q : Msg} (h : Askable q) : Askable (DnssecResolver.upstreamQuery q) := by
  unfold DnssecResolver.upstreamQuery
  split
  · exact setEdns_ask h _ _
  · exact mapEdns_ask h _ fun e _ _ _ _ _ ho => .inr ho

private theorem a_ask {q : Msg} (h : Askable q) : Askable (Dns64.aQuery q) := by
  obtain ⟨qu, qs, hqq⟩ := List.exists_cons_of_ne_nil h.question
  refine ⟨by simp [Dns64.aQuery, hqq], fun a ha => ?_, h.masks⟩
  simp only [Dns64.aQuery, hqq, List.mem_cons] at ha
  rcases ha with rfl | ha
  · exact ⟨by simp [typeA], (h.types qu (by simp [hqq])).2⟩
  · exact h.types a (by simp [hqq, ha])

private theorem replace_ask {exps : List (Str → Str)} {q : Msg} (h : Askable q) : Askable (replaceAsk exps q) := by
  obtain ⟨qu, qs, hqq⟩ := List.exists_cons_of_ne_nil h.question
  have hask : replaceAsk exps q = { q with question := { qu with name := Static.apply exps qu.name } :: qs } := by simp only [replaceAsk, hqq]
  rw [hask]
  refine ⟨by simp, fun a ha => ?_, h.masks⟩
  simp only [List.mem_cons] at ha
  rcases ha with rfl | ha
  · exact h.types qu (by simp [hqq])
  · exact h.types a (by simp [hqq, ha])

private theorem blocklist_forward {o : Blocklist.Options} {q q' : Msg} {t : Blocklist.Target} (h : Blocklist.resolve o q = some (.forward t q')) : q' = q := by
  unfold Blocklist.resolve at h
  split at h
  · cases h
  · repeat' split at h
    all_goals first
      | (cases h; rfl)
      | cases h

private theorem client_forward {e hb : Bool} {db : Str → Option Lists.Match} {q q' : Msg} {ci : ClientInfo} {t : Blocklist.Target} (h : Blocklist.resolveClient e hb db q ci = .forward t q') : q' = q := by
  unfold Blocklist.resolveClient at h
  simp only at h
  repeat' split at h
  all_goals first
    | (cases h; rfl)
    | cases h

private theorem block_forward {κ : Type} {key : RR → Option κ} {db : κ → Option Lists.Match} {inv hb : Bool} {e : Option Blocklist.Ede} {q q' a : Msg} {t : Blocklist.Target}
    (h : Blocklist.blockIfMatch key db inv hb e q a = .forward t q') : q' = q := by
  unfold Blocklist.blockIfMatch at h
  repeat' split at h
  all_goals first
    | (cases h; rfl)
    | cases h

private theorem ip_forward {o : Blocklist.IpOptions} {r : Res} {q q' : Msg} {t : Blocklist.Target} (h : Blocklist.resolveIp o r q = .forward t q') : q' = q := by
  unfold Blocklist.resolveIp at h
  split at h
  · split at h
    · cases h
    · split at h
      · unfold Blocklist.filterMatch at h
        repeat' split at h
        all_goals first
          | (cases h; rfl)
          | cases h
      · exact block_forward h
  · cases h

private theorem name_forward {o : Blocklist.NameOptions} {r : Res} {q q' : Msg} {t : Blocklist.Target} (h : Blocklist.resolveName o r q = .forward t q') : q' = q := by
  unfold Blocklist.resolveName at h
  split at h
  · exact block_forward h
  · cases h

/-! ### Groups -/

/-- What query 0 gets is what the member asked replies, and there are no other queries. -/
private def RotateFed (n : Nat) (ok : Res → Bool) (beh : Nat → Res) (s : Group.Rotate.Sys) (es : List Group.Rotate.Ev) : Prop :=
  ∀ pre j x post s1 i m, es = pre ++ .reply j x :: post → Group.Rotate.run n ok s pre = some s1 → s1.queries[j]? = some (.calling i m) → j = 0 ∧ x = beh m

private theorem rotate_cons {n : Nat} {ok : Res → Bool} {beh : Nat → Res} {s s' : Group.Rotate.Sys} {e : Group.Rotate.Ev} {es : List Group.Rotate.Ev} (hs : Group.Rotate.step n ok s e = some s')
    (h : RotateFed n ok beh s' es) (he : ∀ j x i m, e = .reply j x → s.queries[j]? = some (.calling i m) → j = 0 ∧ x = beh m) : RotateFed n ok beh s (e :: es) := by
  intro pre j x post s1 i m hp hr hq
  cases pre with
  | nil =>
    cases hp
    cases hr
    exact he j x i m rfl hq
  | cons e' pre =>
    cases hp
    refine h pre j x post s1 i m rfl ?_ hq
    simpa [Group.Rotate.run, hs] using hr

private theorem rotate_exists (n : Nat) (ok : Res → Bool) (beh : Nat → Res) : ∀ (fuel i active : Nat) (last : Res), i + fuel + 1 = n →
    ∃ es s r, Group.Rotate.run n ok ⟨active, [.idle i last]⟩ es = some s ∧ s.queries[0]? = some (.done r) ∧ RotateFed n ok beh ⟨active, [.idle i last]⟩ es := by
  intro fuel
  induction fuel with
  | zero =>
    intro i active last hi
    by_cases hk : ok (beh active) = true
    · refine ⟨[.current 0, .reply 0 (beh active)], ⟨active, [.done (beh active)]⟩, beh active, ?_, rfl, ?_⟩
      · simp [Group.Rotate.run, Group.Rotate.step, hk]
      · refine rotate_cons (s' := ⟨active, [.calling i active]⟩) rfl (rotate_cons (s' := ⟨active, [.done (beh active)]⟩) ?_ ?_ ?_) (by simp)
        · simp [Group.Rotate.step, hk]
        · intro pre j x post s1 i m hp
          simp at hp
        · rintro j x i' m h1 h2
          cases h1
          cases h2
          exact ⟨rfl, rfl⟩
    · refine ⟨[.current 0, .reply 0 (beh active), .report 0], ⟨(active + 1) % n, [.done (beh active)]⟩, beh active, ?_, rfl, ?_⟩
      · have : ¬ i + 1 < n := by omega
        simp [Group.Rotate.run, Group.Rotate.step, hk, Group.nextAttempt, this]
      · refine rotate_cons (s' := ⟨active, [.calling i active]⟩) rfl (rotate_cons (s' := ⟨active, [.failed i active (beh active)]⟩) ?_ (rotate_cons (s' := ⟨(active + 1) % n, [.done (beh active)]⟩) ?_ ?_ (by simp)) ?_) (by simp)
        · simp [Group.Rotate.step, hk]
        · have : ¬ i + 1 < n := by omega
          simp [Group.Rotate.step, Group.nextAttempt, this]
        · intro pre j x post s1 i m hp
          simp at hp
        · rintro j x i' m h1 h2
          cases h1
          cases h2
          exact ⟨rfl, rfl⟩
  | succ fuel ih =>
    intro i active last hi
    by_cases hk : ok (beh active) = true
    · refine ⟨[.current 0, .reply 0 (beh active)], ⟨active, [.done (beh active)]⟩, beh active, ?_, rfl, ?_⟩
      · simp [Group.Rotate.run, Group.Rotate.step, hk]
      · refine rotate_cons (s' := ⟨active, [.calling i active]⟩) rfl (rotate_cons (s' := ⟨active, [.done (beh active)]⟩) ?_ ?_ ?_) (by simp)
        · simp [Group.Rotate.step, hk]
        · intro pre j x post s1 i m hp
          simp at hp
        · rintro j x i' m h1 h2
          cases h1
          cases h2
          exact ⟨rfl, rfl⟩
    · obtain ⟨es, s, r, h1, h2, h3⟩ := ih (i + 1) ((active + 1) % n) (beh active) (by omega)
      have hlt : i + 1 < n := by omega
      have e3 : Group.Rotate.step n ok ⟨active, [.failed i active (beh active)]⟩ (.report 0) = some ⟨(active + 1) % n, [.idle (i + 1) (beh active)]⟩ := by
        simp [Group.Rotate.step, Group.nextAttempt, hlt]
      have e2 : Group.Rotate.step n ok ⟨active, [.calling i active]⟩ (.reply 0 (beh active)) = some ⟨active, [.failed i active (beh active)]⟩ := by
        simp [Group.Rotate.step, hk]
      have e1 : Group.Rotate.step n ok ⟨active, [.idle i last]⟩ (.current 0) = some ⟨active, [.calling i active]⟩ := rfl
      refine ⟨.current 0 :: .reply 0 (beh active) :: .report 0 :: es, s, r, ?_, h2, ?_⟩
      · simpa [Group.Rotate.run, e1, e2, e3] using h1
      · refine rotate_cons e1 (rotate_cons e2 (rotate_cons e3 h3 (by simp)) ?_) (by simp)
        rintro j x i' m h1 h2
        cases h1
        cases h2
        exact ⟨rfl, rfl⟩

private theorem rotate_run (n : Nat) (ok : Res → Bool) (beh : Nat → Res) :
    ∃ es s r, Group.Rotate.run n ok ⟨0, []⟩ es = some s ∧ s.queries[0]? = some (.done r) ∧ RotateFed n ok beh ⟨0, []⟩ es := by
  cases n with
  | zero =>
    refine ⟨[.start], ⟨0, [.done Res.drop]⟩, Res.drop, rfl, rfl, ?_⟩
    exact rotate_cons (s' := ⟨0, [.done Res.drop]⟩) rfl (fun pre j x post s1 i m hp => by simp at hp) (by simp)
  | succ n =>
    obtain ⟨es, s, r, h1, h2, h3⟩ := rotate_exists (n + 1) ok beh n 0 0 Res.drop (by omega)
    have e : Group.Rotate.step (n + 1) ok ⟨0, []⟩ .start = some ⟨0, [.idle 0 Res.drop]⟩ := by simp [Group.Rotate.step]
    refine ⟨.start :: es, s, r, ?_, h2, rotate_cons e h3 (by simp)⟩
    simpa [Group.Rotate.run, e] using h1

private def BackFed (n : Nat) (ok : Res → Bool) (beh : Nat → Res) (s : Group.Back.Sys) (es : List Group.Back.Ev) : Prop :=
  ∀ pre j x post s1 i m, es = pre ++ .reply j x :: post → Group.Back.run n ok s pre = some s1 → s1.queries[j]? = some (.calling i m) → j = 0 ∧ x = beh m

private theorem back_cons {n : Nat} {ok : Res → Bool} {beh : Nat → Res} {s s' : Group.Back.Sys} {e : Group.Back.Ev} {es : List Group.Back.Ev} (hs : Group.Back.step n ok s e = some s')
    (h : BackFed n ok beh s' es) (he : ∀ j x i m, e = .reply j x → s.queries[j]? = some (.calling i m) → j = 0 ∧ x = beh m) : BackFed n ok beh s (e :: es) := by
  intro pre j x post s1 i m hp hr hq
  cases pre with
  | nil =>
    cases hp
    cases hr
    exact he j x i m rfl hq
  | cons e' pre =>
    cases hp
    refine h pre j x post s1 i m rfl ?_ hq
    simpa [Group.Back.run, hs] using hr

private theorem back_nil {n : Nat} {ok : Res → Bool} {beh : Nat → Res} {s : Group.Back.Sys} : BackFed n ok beh s [] := fun pre j x post s1 i m hp => by simp at hp

private theorem back_exists (n : Nat) (ok : Res → Bool) (beh : Nat → Res) : ∀ (fuel i active : Nat) (t : Group.Back.Timer) (last : Res), i + fuel + 1 = n →
    ∃ es s r, Group.Back.run n ok ⟨active, t, 0, [.idle i last]⟩ es = some s ∧ s.queries[0]? = some (.done r) ∧ BackFed n ok beh ⟨active, t, 0, [.idle i last]⟩ es := by
  intro fuel
  induction fuel with
  | zero =>
    intro i active t last hi
    have e1 : Group.Back.step n ok ⟨active, t, 0, [.idle i last]⟩ (.current 0) = some ⟨active, t, 0, [.calling i active]⟩ := rfl
    have f : ∀ (j : Nat) (x : Res) (i' m : Nat), Group.Back.Ev.reply 0 (beh active) = .reply j x → [Group.Phase.calling i active][j]? = some (.calling i' m) → j = 0 ∧ x = beh m := by
      rintro j x i' m h1 h2
      cases h1
      cases h2
      exact ⟨rfl, rfl⟩
    by_cases hk : ok (beh active) = true
    · have e2 : Group.Back.step n ok ⟨active, t, 0, [.calling i active]⟩ (.reply 0 (beh active)) = some ⟨active, t, 0, [.done (beh active)]⟩ := by simp [Group.Back.step, hk]
      exact ⟨[.current 0, .reply 0 (beh active)], ⟨active, t, 0, [.done (beh active)]⟩, beh active, by simp [Group.Back.run, e1, e2], rfl, back_cons e1 (back_cons e2 back_nil f) (by simp)⟩
    · have hlt : ¬ i + 1 < n := by omega
      have e2 : Group.Back.step n ok ⟨active, t, 0, [.calling i active]⟩ (.reply 0 (beh active)) = some ⟨active, t, 0, [.failed i active (beh active)]⟩ := by simp [Group.Back.step, hk]
      have e3 : Group.Back.step n ok ⟨active, t, 0, [.failed i active (beh active)]⟩ (.report 0) = some ⟨(active + 1) % n, if t = .off then .armed else t, 0, [.sending i (beh active)]⟩ := by
        simp [Group.Back.step]
      have e4 : Group.Back.step n ok ⟨(active + 1) % n, if t = .off then .armed else t, 0, [.sending i (beh active)]⟩ (.send 0) =
          some ⟨(active + 1) % n, if t = .off then .armed else t, 1, [.done (beh active)]⟩ := by
        simp [Group.Back.step, Group.nextAttempt, hlt]
      exact ⟨[.current 0, .reply 0 (beh active), .report 0, .send 0], ⟨(active + 1) % n, if t = .off then .armed else t, 1, [.done (beh active)]⟩, beh active, by simp only [Group.Back.run, e1, e2, e3, e4, Option.bind_eq_bind, Option.bind_some], rfl,
        back_cons e1 (back_cons e2 (back_cons e3 (back_cons e4 back_nil (by simp)) (by simp)) f) (by simp)⟩
  | succ fuel ih =>
    intro i active t last hi
    have e1 : Group.Back.step n ok ⟨active, t, 0, [.idle i last]⟩ (.current 0) = some ⟨active, t, 0, [.calling i active]⟩ := rfl
    have f : ∀ (j : Nat) (x : Res) (i' m : Nat), Group.Back.Ev.reply 0 (beh active) = .reply j x → [Group.Phase.calling i active][j]? = some (.calling i' m) → j = 0 ∧ x = beh m := by
      rintro j x i' m h1 h2
      cases h1
      cases h2
      exact ⟨rfl, rfl⟩
    by_cases hk : ok (beh active) = true
    · have e2 : Group.Back.step n ok ⟨active, t, 0, [.calling i active]⟩ (.reply 0 (beh active)) = some ⟨active, t, 0, [.done (beh active)]⟩ := by simp [Group.Back.step, hk]
      exact ⟨[.current 0, .reply 0 (beh active)], ⟨active, t, 0, [.done (beh active)]⟩, beh active, by simp [Group.Back.run, e1, e2], rfl, back_cons e1 (back_cons e2 back_nil f) (by simp)⟩
    · have hlt : i + 1 < n := by omega
      obtain ⟨es, s, r, h1, h2, h3⟩ := ih (i + 1) ((active + 1) % n) .armed (beh active) (by omega)
      have e2 : Group.Back.step n ok ⟨active, t, 0, [.calling i active]⟩ (.reply 0 (beh active)) = some ⟨active, t, 0, [.failed i active (beh active)]⟩ := by simp [Group.Back.step, hk]
      have e3 : Group.Back.step n ok ⟨active, t, 0, [.failed i active (beh active)]⟩ (.report 0) = some ⟨(active + 1) % n, if t = .off then .armed else t, 0, [.sending i (beh active)]⟩ := by
        simp [Group.Back.step]
      have e4 : Group.Back.step n ok ⟨(active + 1) % n, if t = .off then .armed else t, 0, [.sending i (beh active)]⟩ (.send 0) =
          some ⟨(active + 1) % n, if t = .off then .armed else t, 1, [.idle (i + 1) (beh active)]⟩ := by
        simp [Group.Back.step, Group.nextAttempt, hlt]
      have e5 : Group.Back.step n ok ⟨(active + 1) % n, if t = .off then .armed else t, 1, [.idle (i + 1) (beh active)]⟩ .recv = some ⟨(active + 1) % n, .armed, 0, [.idle (i + 1) (beh active)]⟩ := by
        have : (if t = .off then Group.Back.Timer.armed else t) ≠ .off := by split <;> simp_all
        simp [Group.Back.step, this]
      refine ⟨.current 0 :: .reply 0 (beh active) :: .report 0 :: .send 0 :: .recv :: es, s, r, ?_, h2, back_cons e1 (back_cons e2 (back_cons e3 (back_cons e4 (back_cons e5 h3 (by simp)) (by simp)) (by simp)) f) (by simp)⟩
      simpa [Group.Back.run, e1, e2, e3, e4, e5] using h1

private theorem back_run (n : Nat) (ok : Res → Bool) (beh : Nat → Res) :
    ∃ es s r, Group.Back.run n ok Group.Back.init es = some s ∧ s.queries[0]? = some (.done r) ∧ BackFed n ok beh Group.Back.init es := by
  cases n with
  | zero => exact ⟨[.start], ⟨0, .off, 0, [.done Res.drop]⟩, Res.drop, rfl, rfl, back_cons (s' := ⟨0, .off, 0, [.done Res.drop]⟩) rfl back_nil (by simp)⟩
  | succ n =>
    obtain ⟨es, s, r, h1, h2, h3⟩ := back_exists (n + 1) ok beh n 0 0 .off Res.drop (by omega)
    have e : Group.Back.step (n + 1) ok Group.Back.init .start = some ⟨0, .off, 0, [.idle 0 Res.drop]⟩ := by simp [Group.Back.step, Group.Back.init]
    refine ⟨.start :: es, s, r, ?_, h2, back_cons e h3 (by simp)⟩
    simpa [Group.Back.run, e] using h1

private def RandomFed (ok : Res → Bool) (beh : Nat → Res) (s : Group.Random.Sys) (es : List Group.Random.Ev) : Prop :=
  ∀ pre j x post s1 m, es = pre ++ .reply j x :: post → Group.Random.run ok s pre = some s1 → s1.queries[j]? = some (.calling m) → j = 0 ∧ x = beh m

private theorem random_cons {ok : Res → Bool} {beh : Nat → Res} {s s' : Group.Random.Sys} {e : Group.Random.Ev} {es : List Group.Random.Ev} (hs : Group.Random.step ok s e = some s')
    (h : RandomFed ok beh s' es) (he : ∀ j x m, e = .reply j x → s.queries[j]? = some (.calling m) → j = 0 ∧ x = beh m) : RandomFed ok beh s (e :: es) := by
  intro pre j x post s1 m hp hr hq
  cases pre with
  | nil =>
    cases hp
    cases hr
    exact he j x m rfl hq
  | cons e' pre =>
    cases hp
    refine h pre j x post s1 m rfl ?_ hq
    simpa [Group.Random.run, hs] using hr

private theorem random_nil {ok : Res → Bool} {beh : Nat → Res} {s : Group.Random.Sys} : RandomFed ok beh s [] := fun pre j x post s1 m hp => by simp at hp

private theorem random_exists (ok : Res → Bool) (beh : Nat → Res) : ∀ (fuel : Nat) (active waiting : List Nat), active.length ≤ fuel →
    ∃ es s r, Group.Random.run ok ⟨active, waiting, [.idle]⟩ es = some s ∧ s.queries[0]? = some (.done r) ∧ RandomFed ok beh ⟨active, waiting, [.idle]⟩ es := by
  intro fuel
  induction fuel with
  | zero =>
    intro active waiting h
    obtain rfl : active = [] := List.length_eq_zero_iff.1 (by omega)
    exact ⟨[.pick 0 0], ⟨[], waiting, [.done none]⟩, none, rfl, rfl, random_cons (s' := ⟨[], waiting, [.done none]⟩) rfl random_nil (by simp)⟩
  | succ fuel ih =>
    intro active waiting h
    cases active with
    | nil => exact ⟨[.pick 0 0], ⟨[], waiting, [.done none]⟩, none, rfl, rfl, random_cons (s' := ⟨[], waiting, [.done none]⟩) rfl random_nil (by simp)⟩
    | cons m rest =>
      have e1 : Group.Random.step ok ⟨m :: rest, waiting, [.idle]⟩ (.pick 0 0) = some ⟨m :: rest, waiting, [.calling m]⟩ := by simp [Group.Random.step]
      have f : ∀ (j : Nat) (x : Res) (m' : Nat), Group.Random.Ev.reply 0 (beh m) = .reply j x → [Group.Random.Phase.calling m][j]? = some (.calling m') → j = 0 ∧ x = beh m' := by
        rintro j x m' h1 h2
        cases h1
        cases h2
        exact ⟨rfl, rfl⟩
      by_cases hk : ok (beh m) = true
      · have e2 : Group.Random.step ok ⟨m :: rest, waiting, [.calling m]⟩ (.reply 0 (beh m)) = some ⟨m :: rest, waiting, [.done (some (beh m))]⟩ := by simp [Group.Random.step, hk]
        exact ⟨[.pick 0 0, .reply 0 (beh m)], ⟨m :: rest, waiting, [.done (some (beh m))]⟩, some (beh m), by simp only [Group.Random.run, e1, e2, Option.bind_eq_bind, Option.bind_some], rfl, random_cons e1 (random_cons e2 random_nil f) (by simp)⟩
      · have e2 : Group.Random.step ok ⟨m :: rest, waiting, [.calling m]⟩ (.reply 0 (beh m)) = some ⟨m :: rest, waiting, [.failed m]⟩ := by simp [Group.Random.step, hk]
        have e3 : Group.Random.step ok ⟨m :: rest, waiting, [.failed m]⟩ (.deactivate 0) =
            some ⟨(m :: rest).filter (fun x => ¬ x = m), (m :: rest).filter (fun x => x = m) ++ waiting, [.idle]⟩ := by simp [Group.Random.step]
        have hlen : ((m :: rest).filter (fun x => ¬ x = m)).length ≤ fuel := by
          have h1 : (m :: rest).filter (fun x => decide ¬ x = m) = rest.filter (fun x => decide ¬ x = m) := by simp
          rw [h1]
          have := List.length_filter_le (fun x => decide ¬ x = m) rest
          simp only [List.length_cons] at h
          omega
        obtain ⟨es, s, r, h1, h2, h3⟩ := ih _ ((m :: rest).filter (fun x => x = m) ++ waiting) hlen
        refine ⟨.pick 0 0 :: .reply 0 (beh m) :: .deactivate 0 :: es, s, r, ?_, h2, random_cons e1 (random_cons e2 (random_cons e3 h3 (by simp)) f) (by simp)⟩
        simp only [Group.Random.run, e1, e2, e3, Option.bind_eq_bind, Option.bind_some]
        exact h1

private theorem random_run (n : Nat) (ok : Res → Bool) (beh : Nat → Res) :
    ∃ es s r, Group.Random.run ok ⟨List.range n, [], []⟩ es = some s ∧ s.queries[0]? = some (.done r) ∧ RandomFed ok beh ⟨List.range n, [], []⟩ es := by
  obtain ⟨es, s, r, h1, h2, h3⟩ := random_exists ok beh n (List.range n) [] (by simp)
  have e : Group.Random.step ok ⟨List.range n, [], []⟩ .start = some ⟨List.range n, [], [.idle]⟩ := by simp [Group.Random.step]
  refine ⟨.start :: es, s, r, ?_, h2, random_cons e h3 (by simp)⟩
  simpa [Group.Random.run, e] using h1

private theorem balance_exists (ok : Res → Bool) (beh : Nat → Res) : ∀ (fuel round : Nat) (l : List Nat) (last : Res), l.length = fuel →
    ∃ r asked, Balance.loop ok beh (fun _ => 0) fuel round l last = some (r, asked) := by
  intro fuel
  induction fuel with
  | zero => exact fun round l last _ => ⟨_, _, rfl⟩
  | succ fuel ih =>
    intro round l last hl
    cases l with
    | nil => simp at hl
    | cons m rest =>
      unfold Balance.loop
      simp only [List.getElem?_cons_zero]
      split
      · exact ⟨_, _, rfl⟩
      · have hlen : (Balance.swapRemove (m :: rest) 0).length = fuel := by
          unfold Balance.swapRemove
          split
          · rename_i h
            simp at h
          · simp only [List.length_dropLast, List.length_set]
            omega
        obtain ⟨r, asked, h⟩ := ih (round + 1) _ (beh m) hlen
        rw [h]
        exact ⟨_, _, rfl⟩

private theorem fastest_exists (n : Nat) : ∀ (l : List Res) (i : Nat), l ≠ [] → n ≤ i + l.length → ∃ r, Balance.fastest n i l = some r := by
  intro l
  induction l with
  | nil => exact fun i h => absurd rfl h
  | cons x l ih =>
    intro i _ hn
    unfold Balance.fastest
    split
    · exact ⟨_, rfl⟩
    · split
      · exact ⟨_, rfl⟩
      · simp only [List.length_cons] at hn
        refine ih (i + 1) ?_ (by omega)
        rintro rfl
        simp at hn
        omega

/-- Members may all reply, or one may crash. -/
private theorem members {H : Type} [DecidableEq H] {W : Around H} {C : Nat → Msg → ClientInfo → Option Res → Prop} {member : Nat → Tree H} {q : Msg} {ci : ClientInfo}
    (h : ∀ m, ∃ o, RepliesIn W C (member m) q ci o) : (∃ m, RepliesIn W C (member m) q ci none) ∨ ∃ beh : Nat → Res, ∀ m, RepliesIn W C (member m) q ci (some (beh m)) := by
  by_cases hc : ∃ m, RepliesIn W C (member m) q ci none
  · exact .inl hc
  · refine .inr ?_
    have : ∀ m, ∃ r, RepliesIn W C (member m) q ci (some r) := by
      intro m
      obtain ⟨o, ho⟩ := h m
      cases o with
      | none => exact absurd ⟨m, ho⟩ hc
      | some r => exact ⟨r, ho⟩
    exact ⟨fun m => (this m).choose, fun m => (this m).choose_spec⟩

/-! ### The theorem -/

/-- C119: as long as servers reply in some way, every element of every configuration replies to every query in some way. What goes on around (`W`) may be anything, if there is a clock, validations end, and
de-duplication may at least hand out what the element behind replies. -/
theorem replies_exist {H : Type} [DecidableEq H] (W : Around H) (C : Nat → Msg → ClientInfo → Option Res → Prop) (hC : ∀ i q ci, ∃ o, C i q ci o) (hclock : ∃ τ, W.clock τ)
    (hv : ∀ t m, ∃ v, W.verdict t m v) (hs : ∀ t q ci y, RepliesIn W C t q ci (some y) → W.shared t y) :
    ∀ (t : Tree H), Ready t → ∀ q ci, Askable q → ∃ o, RepliesIn W C t q ci o := by
  intro t
  induction t with
  | client i =>
    intro _ q ci _
    obtain ⟨o, ho⟩ := hC i q ci
    exact ⟨o, .client ho⟩
  | ttl opt t ih =>
    intro hr q ci hq
    obtain ⟨o, ho⟩ := ih hr q ci hq
    exact ⟨_, .ttl ho⟩
  | truncateRetry t u ih iu =>
    intro hr q ci hq
    obtain ⟨o, ho⟩ := ih hr.1 q ci hq
    obtain ⟨o2, ho2⟩ := iu hr.2 q ci hq
    cases o with
    | none => exact ⟨_, .truncateCrash ho⟩
    | some r =>
      cases o2 with
      | none => exact ⟨_, .truncateCrash2 ho ho2⟩
      | some r2 =>
        cases hb : (Elements.truncateRetry r r2).2 with
        | false => exact ⟨_, .truncateKeep ho hb⟩
        | true => exact ⟨_, .truncateAsk ho hb ho2⟩
  | collapse n t ih =>
    intro hr q ci hq
    obtain ⟨o, ho⟩ := ih hr q ci hq
    exact ⟨_, .collapse ho⟩
  | minimize t ih =>
    intro hr q ci hq
    obtain ⟨o, ho⟩ := ih hr q ci hq
    exact ⟨_, .minimize ho⟩
  | drop => exact fun _ q ci _ => ⟨_, .drop⟩
  | modify m t ih =>
    intro hr q ci hq
    obtain ⟨o, ho⟩ := ih hr.2 _ ci (modifier_ask hr.1 ci hq)
    exact ⟨_, .modify ho⟩
  | blocklist L t a b ih ia ib =>
    rintro ⟨⟨opt, hL⟩, h1, h2, h3⟩ q ci hq
    cases hr : Blocklist.resolve opt q with
    | none => exact ⟨_, .blocklistCrash hL hr⟩
    | some act =>
      cases act with
      | done r => exact ⟨_, .blocklistDone hL hr⟩
      | forward target q' =>
        obtain rfl := blocklist_forward hr
        have : ∃ o, RepliesIn W C (branch t a b target) q' ci o := by
          cases target
          · exact ih h1 q' ci hq
          · exact ia h2 q' ci hq
          · exact ib h3 q' ci hq
        obtain ⟨o, ho⟩ := this
        exact ⟨_, .blocklistForward hL hr ho⟩
  | clientBlocklist L t b ih ib =>
    rintro ⟨⟨e, hb, db, hL⟩, h1, h2⟩ q ci hq
    cases hr : Blocklist.resolveClient e hb db q ci with
    | done r => exact ⟨_, .clientDone hL hr⟩
    | forward target q' =>
      obtain rfl := client_forward hr
      have : ∃ o, RepliesIn W C (branch t t b target) q' ci o := by
        cases target
        · exact ih h1 q' ci hq
        · exact ih h1 q' ci hq
        · exact ib h2 q' ci hq
      obtain ⟨o, ho⟩ := this
      exact ⟨_, .clientForward hL hr ho⟩
  | responseIp L t b ih ib =>
    rintro ⟨⟨opt, hL⟩, h1, h2⟩ q ci hq
    obtain ⟨o, ho⟩ := ih h1 q ci hq
    cases o with
    | none => exact ⟨_, .ipCrash ho⟩
    | some r =>
      cases hr : Blocklist.resolveIp opt r q with
      | done x => exact ⟨_, .ipDone hL ho hr⟩
      | forward target q' =>
        obtain rfl := ip_forward hr
        have : ∃ o, RepliesIn W C (branch t t b target) q' ci o := by
          cases target
          · exact ih h1 q' ci hq
          · exact ih h1 q' ci hq
          · exact ib h2 q' ci hq
        obtain ⟨o, ho'⟩ := this
        exact ⟨_, .ipForward hL ho hr ho'⟩
  | responseName L t b ih ib =>
    rintro ⟨⟨opt, hL⟩, h1, h2⟩ q ci hq
    obtain ⟨o, ho⟩ := ih h1 q ci hq
    cases o with
    | none => exact ⟨_, .nameCrash ho⟩
    | some r =>
      cases hr : Blocklist.resolveName opt r q with
      | done x => exact ⟨_, .nameDone hL ho hr⟩
      | forward target q' =>
        obtain rfl := name_forward hr
        have : ∃ o, RepliesIn W C (branch t t b target) q' ci o := by
          cases target
          · exact ih h1 q' ci hq
          · exact ih h1 q' ci hq
          · exact ib h2 q' ci hq
        obtain ⟨o, ho'⟩ := this
        exact ⟨_, .nameForward hL ho hr ho'⟩
  | rateLimit hasLimit t l ih il =>
    intro hr q ci hq
    obtain ⟨o, ho⟩ := ih hr.1 q ci hq
    exact ⟨_, .rateOn (rejected := false) rfl ho⟩
  | static s => exact fun _ q ci _ => ⟨_, .static⟩
  | template newRR s => exact fun _ q ci _ => ⟨_, .template⟩
  | replace exps t ih =>
    intro hr q ci hq
    obtain ⟨o, ho⟩ := ih hr _ ci (replace_ask hq)
    exact ⟨_, .replace ho⟩
  | syslog opt t ih =>
    intro hr q ci hq
    obtain ⟨o, ho⟩ := ih hr q ci hq
    exact ⟨_, .syslog (connected := true) ho⟩
  | queryLog t ih =>
    intro hr q ci hq
    obtain ⟨o, ho⟩ := ih hr q ci hq
    exact ⟨_, .queryLog ho⟩
  | dns64 ps t ih =>
    intro hr q ci hq
    obtain ⟨o, ho⟩ := ih hr q ci hq
    obtain ⟨o2, ho2⟩ := ih hr _ ci (a_ask hq)
    cases o with
    | none => exact ⟨_, .dns64Crash ho⟩
    | some r =>
      cases o2 with
      | none => exact ⟨_, .dns64Crash2 ho ho2⟩
      | some r2 => exact ⟨_, .dns64Two ho ho2⟩
  | failRotate n ok member ih =>
    intro hr q ci hq
    rcases members fun m => ih m (hr m) q ci hq with ⟨m, hm⟩ | ⟨beh, hb⟩
    · exact ⟨_, .failRotateCrash hm⟩
    · obtain ⟨es, s, r, h1, h2, h3⟩ := rotate_run n ok beh
      refine ⟨_, .failRotate h1 h2 (fun pre j x post s1 i m e1 e2 e3 e4 => absurd (h3 pre j x post s1 i m e1 e2 e3).1 e4) (fun pre x post s1 i m e1 e2 e3 => ?_)⟩
      rw [(h3 pre 0 x post s1 i m e1 e2 e3).2]
      exact hb m
  | failBack n ok member ih =>
    intro hr q ci hq
    rcases members fun m => ih m (hr m) q ci hq with ⟨m, hm⟩ | ⟨beh, hb⟩
    · exact ⟨_, .failBackCrash hm⟩
    · obtain ⟨es, s, r, h1, h2, h3⟩ := back_run n ok beh
      refine ⟨_, .failBack h1 h2 (fun pre j x post s1 i m e1 e2 e3 e4 => absurd (h3 pre j x post s1 i m e1 e2 e3).1 e4) (fun pre x post s1 i m e1 e2 e3 => ?_)⟩
      rw [(h3 pre 0 x post s1 i m e1 e2 e3).2]
      exact hb m
  | failBackEach n ok member ih =>
    intro hr q ci hq
    rcases members fun m => ih m (hr m) q ci hq with ⟨m, hm⟩ | ⟨beh, hb⟩
    · exact ⟨_, .failBackEachCrash hm⟩
    · exact ⟨_, .failBackEach (beh := beh) fun m _ => hb m⟩
  | roundRobin n member ih =>
    intro hr q ci hq
    cases n with
    | zero => exact ⟨_, .roundRobinEmpty⟩
    | succ n =>
      obtain ⟨o, ho⟩ := ih _ (hr (Group.roundRobinPick (n + 1) 0).1) q ci hq
      exact ⟨_, .roundRobin (Nat.succ_pos n) ho⟩
  | random n ok member ih =>
    intro hr q ci hq
    rcases members fun m => ih m (hr m) q ci hq with ⟨m, hm⟩ | ⟨beh, hb⟩
    · exact ⟨_, .randomCrash hm⟩
    · obtain ⟨es, s, r, h1, h2, h3⟩ := random_run n ok beh
      refine ⟨_, .random h1 h2 (fun pre j x post s1 m e1 e2 e3 e4 => absurd (h3 pre j x post s1 m e1 e2 e3).1 e4) (fun pre x post s1 m e1 e2 e3 => ?_)⟩
      rw [(h3 pre 0 x post s1 m e1 e2 e3).2]
      exact hb m
  | loadBalance n ok member ih =>
    intro hr q ci hq
    rcases members fun m => ih m (hr m) q ci hq with ⟨m, hm⟩ | ⟨beh, hb⟩
    · exact ⟨_, .loadBalanceCrash hm⟩
    · obtain ⟨r, asked, h⟩ := balance_exists ok beh n 0 (List.range n) Res.drop (by simp)
      exact ⟨_, .loadBalance (beh := beh) (choose := fun _ => 0) h fun m _ => hb m⟩
  | fastest n member ih =>
    intro hr q ci hq
    rcases members fun m => ih m (hr.2 m) q ci hq with ⟨m, hm⟩ | ⟨beh, hb⟩
    · exact ⟨_, .fastestCrash hm⟩
    · have hn := hr.1
      obtain ⟨r, h⟩ := fastest_exists n ((List.range n).map beh) 0 (by simp; omega) (by simp)
      refine ⟨_, .fastest (who := id) h (by simp) (fun i j _ _ h => h) (fun i x hx => ?_)⟩
      simp only [List.getElem?_map, Option.map_eq_some_iff] at hx
      obtain ⟨m, hm, rfl⟩ := hx
      obtain ⟨h1, h2⟩ := List.getElem?_eq_some_iff.1 hm
      simp only [List.getElem_range] at h2
      subst h2
      exact hb i
  | fastestTcp w n t ih =>
    intro hr q ci hq
    obtain ⟨o, ho⟩ := ih hr q ci hq
    exact ⟨_, .fastestTcp (probes := []) ho⟩
  | router routes member ih =>
    intro hr q ci hq
    obtain ⟨qu, qs, hqq⟩ := List.exists_cons_of_ne_nil hq.question
    cases hx : Route.routeIndex routes q qu ci (fun _ => ⟨0, 0, 0⟩) 0 with
    | none => exact ⟨_, .routerNone hqq hx⟩
    | some i =>
      obtain ⟨o, ho⟩ := ih i (hr i) q ci hq
      exact ⟨_, .router hqq hx ho⟩
  | dedup t ih =>
    intro hr q ci hq
    obtain ⟨o, ho⟩ := ih hr q ci hq
    cases o with
    | none => exact ⟨_, .dedupCrash ho⟩
    | some y =>
      cases hk : Dedup.key q with
      | none => exact ⟨_, .dedupNoKey hk⟩
      | some k =>
        refine ⟨_, .dedup (evs := [.arrive q, .reply 0 y, .finish 0]) (s := { inflight := [], callers := [{ q := q, ph := .returned (Dedup.restore q y), answer := some y }] }) (c := 0) ?_ rfl rfl rfl ?_⟩
        · simp [Dedup.run, Dedup.step, hk, Dedup.Sys.setCaller]
        · intro l y' hy
          simp at hy
          rw [hy.2]
          exact hs t q ci y ho
  | cache env opt cap t ih =>
    intro hr q ci hq
    obtain ⟨o, ho⟩ := ih hr q ci hq
    obtain ⟨τ, hτ⟩ := hclock
    cases o with
    | none => exact ⟨_, .cacheCrash ho⟩
    | some y =>
      exact ⟨_, .cache (hist := []) (c := Lru.new cap) (up := y) (clock := fun _ => τ) (ts := 0) (by simp) (by simp) (fun _ => hτ) rfl (wellFormed hq) (by simp [Cache.SaneTime]) (fun _ _ _ => ho)⟩
  | prefetch t ih =>
    intro hr q ci hq
    obtain ⟨o, ho⟩ := ih hr q ci hq
    exact ⟨_, .prefetch ho⟩
  | dnssec logOnly t ih =>
    intro hr q ci hq
    obtain ⟨o, ho⟩ := ih hr _ ci (upstream_ask hq)
    exact ⟨_, .dnssec (v := fun m => (hv t m).choose) ho fun m _ => (hv t m).choose_spec⟩

/-- C119: servers that send fitting replies are enough for fitting replies from any configuration. No query is left without. -/
theorem always_reply {H : Type} [DecidableEq H] {C : Nat → Msg → ClientInfo → Option Res → Prop} (hC : ∀ i q ci, ∃ o, C i q ci o) (hf : ∀ i q ci o, FromWire q → C i q ci o → ∃ r, o = some r ∧ Fits q r)
    (t : Tree H) (ht : Props.Composition.Sane t) (hr : Ready t) (q : Msg) (hq : FromWire q) (ha : Askable q) (ci : ClientInfo) : ∃ r, Replies C t q ci (some r) ∧ Fits q r := by
  obtain ⟨o, ho⟩ := replies_exist Around.any C hC ⟨0, trivial⟩ (fun _ _ => ⟨.valid, trivial⟩) (fun _ _ _ _ _ => trivial) t hr q ci ha
  cases o with
  | none => exact absurd ho (Props.Composition.no_crash hf t ht q hq ci)
  | some r => exact ⟨r, ho, Props.Composition.reply_belongs hf t ht q hq ci r ho⟩

/-- A `fastest` group without members never replies. -/
theorem fastest_empty {H : Type} [DecidableEq H] (W : Around H) (C : Nat → Msg → ClientInfo → Option Res → Prop) (q : Msg) (ci : ClientInfo) (o : Option Res) :
    ¬ RepliesIn W C (.fastest 0 (Spec.Assemble.nth ([] : List (Tree H)))) q ci o := by
  intro h
  cases h with
  | @fastest _ _ _ _ arrivals _ _ h hl =>
    cases arrivals with
    | nil => cases h
    | cons x l => exact absurd (hl 0 (by simp)) (Nat.not_lt_zero _)
  | fastestCrash h =>
    rw [show ∀ m, Spec.Assemble.nth ([] : List (Tree H)) m = .drop from fun m => by simp [Spec.Assemble.nth]] at h
    cases h

/-! ### From the configuration -/

section
open Spec.Assemble Assemble
variable {H : Type}

private theorem nth_ready {gr : List (Tree H)} (h : ∀ (i : Nat) (t : Tree H), gr[i]? = some t → Ready t) (i : Nat) : Ready (nth gr i) := by
  unfold nth
  split
  · exact h _ _ (by assumption)
  · trivial

private theorem opt_ready {x : Option (Tree H)} (h : ∀ t, x = some t → Ready t) {d : Tree H} (hd : Ready d) : Ready (x.getD d) := by
  cases x with
  | none => exact hd
  | some t => exact h t rfl

private theorem each_ex {α β γ : Type} {R : α → β → Prop} {S : β → γ → Prop} (h : ∀ a b, R a b → ∃ x, S b x) {l : List α} {bs : List β} (he : Each R l bs) : ∃ xs, Each S bs xs := by
  induction he with
  | nil => exact ⟨[], .nil⟩
  | cons h1 _ ih =>
    obtain ⟨x, hx⟩ := h _ _ h1
    obtain ⟨xs, hxs⟩ := ih
    exact ⟨x :: xs, .cons hx hxs⟩

private theorem names_some {env : Env H} (hl : Loads env) {inl : ListCfg} {rules : List Str} {src : List ListCfg} {ds : List NameList} (h : NameLists env inl rules src ds) :
    ∃ db, Several (nameListMay env) ds db := by
  have : ∃ dbs, Each (nameListMay env) ds dbs := by
    cases h with
    | rules _ _ h =>
      obtain ⟨db, hd⟩ := hl.names _ h.loads
      exact ⟨[db], .cons hd .nil⟩
    | sources _ h => exact each_ex (fun _ b h => hl.names b h.loads) h
  obtain ⟨dbs, h⟩ := this
  exact ⟨fun x => dbs.findSome? fun f => f x, dbs, h, fun _ => rfl⟩

private theorem ips_some {env : Env H} (hl : Loads env) {inl : ListCfg} {db : Str} {rules : List Str} {src : List ListCfg} {ds : List IpList} (h : IpLists env inl db rules src ds) :
    ∃ db, Several (ipListMay env) ds db := by
  have : ∃ dbs, Each (ipListMay env) ds dbs := by
    cases h with
    | rules _ _ h =>
      obtain ⟨db, hd⟩ := hl.ips _ h.loads
      exact ⟨[db], .cons hd .nil⟩
    | sources _ h => exact each_ex (fun _ b h => hl.ips b h.loads) h
  obtain ⟨dbs, h⟩ := this
  exact ⟨fun x => dbs.findSome? fun f => f x, dbs, h, fun _ => rfl⟩

private theorem flag {α : Type} (o : Option α) : o.isSome = true ↔ o ≠ none := Option.isSome_iff_ne_none

/-- What a configuration stands for is ready. -/
theorem config_ready (w : World H) (c : Cfg) (hc : ∀ x ∈ c.groups, Whole x.2) (hl : Loads w.env) (id : Str) (t : Tree H) (h : Denotes w c id t) : Ready t := by
  induction h with
  | resolver => trivial
  | bootstrap => trivial
  | router h1 h2 h3 h4 ih =>
    refine fun i => nth_ready (fun i t ht => ?_) i
    have hi : i < _ := (List.getElem?_eq_some_iff.1 ht).1
    rw [h2] at hi
    exact ih i _ t (List.getElem?_eq_getElem hi) ht
  | @group id g gr o b h1 h2 h3 a1 a2 b1 b2 l1 l2 r1 r2 hb ih ia ib il ir =>
    have hcg := hc _ h1
    have hm : ∀ (i : Nat) (t : Tree H), gr[i]? = some t → Ready t := by
      intro i t ht
      have hi : i < gr.length := (List.getElem?_eq_some_iff.1 ht).1
      rw [h2] at hi
      exact ih i _ t (List.getElem?_eq_getElem hi) ht
    have ho : ∀ {t}, gr = [t] → Ready t := fun {t} ht => hm 0 t (by rw [ht]; rfl)
    cases hb with
    | roundRobin h => exact nth_ready hm
    | failRotate h => exact nth_ready hm
    | failBackEach h => exact nth_ready hm
    | failBack h => exact nth_ready hm
    | fastest h =>
      refine ⟨?_, nth_ready hm⟩
      rw [h2]
      exact List.length_pos_iff.2 (hcg.members h)
    | loadBalance h => exact nth_ready hm
    | random h => exact nth_ready hm
    | blocklist h ht hx hd =>
      obtain ⟨f, hf⟩ := hl.names _ hd.loads
      obtain ⟨db, hdb⟩ : ∃ db, Several (nameListMay w.env) [_] db := ⟨fun x => [f].findSome? fun f => f x, [f], .cons hf .nil, fun _ => rfl⟩
      exact ⟨⟨{ blockDB := db, allowDB := none, ede := none, hasAllowResolver := false, hasBlockResolver := false }, ⟨hdb, fun _ => rfl, fun _ h => (by cases h), rfl, by simp, by simp⟩⟩, ho ht, ho ht, trivial⟩
    | @blocklistV2 t b a e h ht hb ha he =>
      obtain ⟨db, hdb⟩ := names_some hl hb
      obtain ⟨da, hda⟩ := names_some hl ha
      refine ⟨⟨{ blockDB := db, allowDB := some da, ede := e, hasAllowResolver := o.allow.isSome, hasBlockResolver := o.block.isSome }, ⟨hdb, fun h => (by cases h), fun ds h => ?_, rfl, flag _, flag _⟩⟩,
        ho ht, opt_ready ia (ho ht), opt_ready ib trivial⟩
      cases h
      exact ⟨da, rfl, hda⟩
    | replace h ht => exact (ho ht :)
    | ttlModifier h ht => exact (ho ht :)
    | truncateRetry h ht hr => exact ⟨ho ht, ir _ hr⟩
    | requestDedup h ht => exact (ho ht :)
    | fastestTcp h ht => exact (ho ht :)
    | ecsModifier h ht he =>
      refine ⟨?_, ho ht⟩
      cases he with
      | none => trivial
      | add => exact hcg.prefixes
      | addIfMissing => exact hcg.prefixes
      | delete => trivial
      | privacy => exact hcg.prefixes
    | edns0Modifier h ht he =>
      refine ⟨?_, ho ht⟩
      cases he <;> trivial
    | syslog h ht => exact (ho ht :)
    | cache h ht => exact (ho ht :)
    | redis => trivial
    | prefetch h ht => exact (ho ht :)
    | @responseIp t b e h ht hb he =>
      obtain ⟨db, hdb⟩ := ips_some hl hb
      exact ⟨⟨{ db := db, filter := g.filter, inverted := g.inverted, ede := e, hasBlockResolver := o.block.isSome }, ⟨hdb, rfl, rfl, rfl, flag _⟩⟩, ho ht, opt_ready ib trivial⟩
    | @responseName t b h ht hb =>
      obtain ⟨db, hdb⟩ := names_some hl hb
      exact ⟨⟨{ db := db, inverted := g.inverted, ede := none, hasBlockResolver := o.block.isSome }, ⟨hdb, rfl, rfl, flag _⟩⟩, ho ht, opt_ready ib trivial⟩
    | @clientBlocklist t b h ht hb =>
      obtain ⟨db, hdb⟩ := ips_some hl hb
      exact ⟨⟨g.useECS, o.block.isSome, db, ⟨hdb, rfl, flag _⟩⟩, ho ht, opt_ready ib trivial⟩
    | staticResponder => trivial
    | staticTemplate => trivial
    | minimize h ht => exact (ho ht :)
    | collapse h ht => exact (ho ht :)
    | drop => trivial
    | rateLimiter h ht hl' => exact ⟨ho ht, il _ hl'⟩
    | rateLimiterDrop h ht => exact ⟨ho ht, trivial⟩
    | queryLog h ht => exact (ho ht :)
    | lua => trivial
    | dnssec h ht => exact (ho ht :)
    | dns64 h ht => exact (ho ht :)

/-- C119: once the program has started, the element of each listener has a fitting reply for each query, if the servers do. -/
theorem program_replies [DecidableEq H] (w : World H) (o : Config.Orders) (ho : Spec.Config.AnyOrder o) (c : Cfg) (ts : List (Option (Tree H))) (h : start w o c = some ts)
    (hw : ∀ x ∈ c.groups, Whole x.2 ∧ Careful w.env x.2) (hl : Loads w.env) (hlib : Library w.env) (C : Nat → Msg → ClientInfo → Option Res → Prop) (hC : ∀ i q ci, ∃ o, C i q ci o)
    (hf : ∀ i q ci o, FromWire q → C i q ci o → ∃ r, o = some r ∧ Fits q r) (t : Tree H) (ht : some t ∈ ts) (q : Msg) (hq : FromWire q) (ha : Askable q) (ci : ClientInfo) :
    ∃ r, Replies C t q ci (some r) ∧ Fits q r := by
  obtain ⟨h1, h2⟩ := Props.Assemble.program_start w o ho c ts h
  obtain ⟨i, hi, hx⟩ := List.getElem_of_mem ht
  have hi' : i < c.listeners.length := h1 ▸ hi
  have hd := ((h2 i _ _ (some t) (List.getElem?_eq_getElem hi') (by rw [List.getElem?_eq_getElem hi, hx])).2.1 t).1 rfl
  exact always_reply hC hf t (Props.Assemble.careful_sane w c (fun x hx => (hw x hx).2) hlib _ t hd) (config_ready w c (fun x hx => (hw x hx).1) hl _ t hd) q hq ha ci

end

/-! ### An example: a `fastest` group before a fail-rotate group that has no members, de-duplicated and cached -/

private def someQuery : Msg := { id := 7, question := [{ name := str "a.", qtype := 1, qclass := 1 }] }

example : Askable someQuery := ⟨by simp [someQuery], by simp [someQuery], by simp [someQuery, Msg.edns?]⟩

example (env : CacheM.Env Unit) (cap : Int) : Ready (.dedup (.cache env {} cap (.fastest 2 fun m => if m = 0 then .failRotate 0 (fun _ => true) (fun _ => .drop) else .client m)) : Tree Unit) := by
  refine ⟨by omega, fun m => ?_⟩
  dsimp only
  split
  · exact fun _ => trivial
  · trivial

/-- The rules there are when the list is first read; files are empty -/
private def first : Assemble.Loader → List Str
  | .static rules => rules
  | _ => []

/-- The library of the example of C79, reading lists for real -/
private def reading : Assemble.Env Nat :=
  { Props.Assemble.toyEnv with
    loadNames := fun d => (Assemble.nameDB Props.Assemble.toyEnv d (first d.loader)).isSome
    loadIps := fun d => d.format != .cidr || (Cidr.load Props.Assemble.toyEnv.parseCIDR (first d.loader) {}).isSome }

private theorem first_may (l : Assemble.Loader) : Assemble.mayLoad l (first l) := by
  cases l <;> trivial

open Props.Assemble in
example : (∀ x ∈ sample.groups, Whole x.2) ∧ Loads reading ∧ ((Assemble.start { toy with env := reading } someOrder sample).map (·.map (·.isSome)) = some [true, true, false]) := by
  refine ⟨?_, ⟨fun d h => ?_, fun d h => ?_⟩, by decide +kernel⟩
  · intro x hx
    simp only [sample, List.mem_cons, List.not_mem_nil, or_false] at hx
    rcases hx with rfl | rfl | rfl | rfl | rfl | rfl <;> exact ⟨by decide, by decide⟩
  · obtain ⟨db, hdb⟩ := Option.isSome_iff_exists.1 h
    exact ⟨db, _, first_may _, hdb⟩
  · unfold Assemble.ipListMay
    split
    · rename_i hf
      simp only [reading, hf, bne_self_eq_false, Bool.false_or] at h
      obtain ⟨c, hc⟩ := Option.isSome_iff_exists.1 h
      exact ⟨fun ip => (c.lookup ip).map fun _ => ⟨[], []⟩, _, c, first_may _, hc, fun ip => by simp⟩
    · exact ⟨fun _ => none, trivial⟩

end Verif.Props.Exist
