import Verif.Spec.NetnsEvents
/-
C87: namespace events are read as the kernel wrote them and reach the subscribers of their name; waiting for a namespace.
-/
namespace Verif.Props.NetnsEvents
open Verif Verif.NetnsEvents Verif.Spec.NetnsEvents
set_option linter.unusedVariables false
set_option linter.unusedSimpArgs false

private theorem bit_of {c n : Nat} (hc : c < 2 ^ n) (i : Nat) (h : n ≤ i) : c.testBit i = false :=
  Nat.testBit_lt_two_pow (Nat.lt_of_lt_of_le hc (Nat.pow_le_pow_right (by decide) h))

private theorem bits_a (i : Nat) : Nat.testBit (0x100 ||| 0x80) i = decide (i = 8 ∨ i = 7) := by
  by_cases h : 10 ≤ i
  · rw [bit_of (n := 10) (by decide) i h]
    exact (decide_eq_false (by omega)).symm
  · have hi : i < 10 := by omega
    clear h
    revert i
    decide

private theorem bits_b (i : Nat) : Nat.testBit (0x200 ||| 0x40) i = decide (i = 9 ∨ i = 6) := by
  by_cases h : 10 ≤ i
  · rw [bit_of (n := 10) (by decide) i h]
    exact (decide_eq_false (by omega)).symm
  · have hi : i < 10 := by omega
    clear h
    revert i
    decide

private theorem and_ne {m c a b : Nat} (hc : ∀ i, c.testBit i = decide (i = a ∨ i = b)) : m &&& c ≠ 0 ↔ (m.testBit a = true ∨ m.testBit b = true) := by
  constructor
  · intro h
    apply Classical.byContradiction
    intro hn
    apply h
    apply Nat.eq_of_testBit_eq
    intro i
    rw [Nat.testBit_and, hc, Nat.zero_testBit]
    by_cases hi : i = a ∨ i = b
    · rcases hi with rfl | rfl <;> simp_all
    · simp [hi]
  · intro h h0
    have : ∀ i, (m &&& c).testBit i = false := by intro i; rw [h0]; simp
    rcases h with h | h
    · have := this a; rw [Nat.testBit_and, hc, h] at this; simp at this
    · have := this b; rw [Nat.testBit_and, hc, h] at this; simp at this

private theorem said_meaning (e : KEvent) : said e.mask e.name = meaning e := by
  unfold said stateOf meaning
  simp only [and_ne bits_a, and_ne bits_b]
  by_cases hn : e.name = [] <;> simp only [hn, if_true, if_false]
  · split <;> rfl
  · by_cases h1 : e.mask.testBit 8 = true ∨ e.mask.testBit 7 = true
    · rw [if_pos h1, if_pos h1]
    · rw [if_neg h1, if_neg h1]
      by_cases h2 : e.mask.testBit 9 = true ∨ e.mask.testBit 6 = true
      · rw [if_pos h2, if_pos h2]
      · rw [if_neg h2, if_neg h2]

private theorem leVal_le4 {n : Nat} (h : n < 4294967296) (r : Str) : leVal ((le4 n ++ r).take 4) = n := by
  simp only [le4, List.cons_append, List.nil_append, List.take_succ_cons, List.take_zero, leVal, List.foldr_cons, List.foldr_nil]
  simp only [Nat.toUInt8, UInt8.toNat_ofNat']
  omega

private theorem length_le4 (n : Nat) : (le4 n).length = 4 := rfl

private theorem length_bytes (e : KEvent) : (bytes e).length = 16 + (e.name.length + e.pad) := by
  simp [bytes, length_le4]; omega

private theorem drop_app (a b : Str) (n : Nat) : (a ++ b).drop (a.length + n) = b.drop n := by simp [List.drop_append]

private theorem field_mask (pre : Str) (e : KEvent) (post : Str) (h : Proper e) : field (pre ++ (bytes e ++ post)) (pre.length + 4) = e.mask := by
  unfold field
  rw [drop_app]
  have : (bytes e ++ post).drop 4 = le4 e.mask ++ ((le4 e.cookie ++ (le4 (e.name.length + e.pad) ++ (e.name ++ List.replicate e.pad 0))) ++ post) := by
    simp [bytes, le4]
  rw [this, leVal_le4 h.1]

private theorem field_len (pre : Str) (e : KEvent) (post : Str) (h : Proper e) : field (pre ++ (bytes e ++ post)) (pre.length + 12) = e.name.length + e.pad := by
  unfold field
  rw [drop_app]
  have : (bytes e ++ post).drop 12 = le4 (e.name.length + e.pad) ++ ((e.name ++ List.replicate e.pad 0) ++ post) := by
    simp [bytes, le4]
  rw [this, leVal_le4 h.2.1]

private theorem takeWhile_name (name : Str) (pad : Nat) (h : ¬ 0 ∈ name) : nameIn (name ++ List.replicate pad 0) = name := by
  unfold nameIn
  induction name with
  | nil => cases pad <;> simp [List.replicate_succ]
  | cons c cs ih =>
    have hc : c ≠ 0 := fun h0 => h (h0 ▸ List.mem_cons_self)
    have := ih (fun hx => h (List.mem_cons_of_mem _ hx))
    simp only [List.cons_append, List.takeWhile_cons, hc, ne_eq, not_false_eq_true, decide_true, if_true]
    rw [this]

private theorem slice_name (pre : Str) (e : KEvent) (post : Str) :
    slice? (pre ++ (bytes e ++ post)) (pre.length + 16) (pre.length + 16 + (e.name.length + e.pad)) = some (e.name ++ List.replicate e.pad 0) := by
  unfold slice?
  rw [if_pos (by refine ⟨by omega, ?_⟩; rw [List.length_append, List.length_append, length_bytes]; omega)]
  rw [drop_app]
  have : (bytes e ++ post).drop 16 = (e.name ++ List.replicate e.pad 0) ++ post := by simp [bytes, le4]
  rw [this, show pre.length + 16 + (e.name.length + e.pad) - (pre.length + 16) = (e.name ++ List.replicate e.pad 0).length from by simp, List.take_left']
  rfl

private theorem events_from (es : List KEvent) (junk : Str) (h : ∀ e ∈ es, Proper e) :
    ∀ pre : Str, events (pre ++ ((es.map bytes).flatten ++ junk)) (pre.length + (es.map bytes).flatten.length) pre.length = some (es.filterMap meaning) := by
  induction es with
  | nil =>
    intro pre
    rw [events, if_neg (by simp)]
    rfl
  | cons e es ih =>
    intro pre
    have hp := h e List.mem_cons_self
    have ih := ih (fun x hx => h x (List.mem_cons_of_mem _ hx)) (pre ++ bytes e)
    have hl : (pre ++ bytes e).length = pre.length + 16 + (e.name.length + e.pad) := by rw [List.length_append, length_bytes]; omega
    rw [hl] at ih
    have hbuf : pre ++ (((e :: es).map bytes).flatten ++ junk) = pre ++ (bytes e ++ ((es.map bytes).flatten ++ junk)) := by simp
    have hbuf2 : pre ++ bytes e ++ ((es.map bytes).flatten ++ junk) = pre ++ (bytes e ++ ((es.map bytes).flatten ++ junk)) := by simp
    have hn : pre.length + ((e :: es).map bytes).flatten.length = pre.length + 16 + (e.name.length + e.pad) + (es.map bytes).flatten.length := by
      simp only [List.map_cons, List.flatten_cons, List.length_append, length_bytes]; omega
    rw [hbuf, hn, events, if_pos (by omega), field_len pre e _ hp, field_mask pre e _ hp]
    rw [hbuf2] at ih
    split
    · rename_i h0
      have hname : e.name = [] := List.length_eq_zero_iff.mp (by omega)
      have hm := said_meaning e
      rw [hname] at hm
      rw [h0, Nat.add_zero] at ih
      rw [h0, Nat.add_zero, ih, hm]
      simp only [Option.map_some, List.filterMap_cons]
      cases meaning e <;> rfl
    · rw [slice_name, Option.bind_some, takeWhile_name _ _ hp.2.2, ih, said_meaning]
      simp only [Option.map_some, List.filterMap_cons]
      cases meaning e <;> rfl

/-- Whatever events the kernel writes into the buffer, and whatever was left in the rest of it from earlier: exactly what they say is dispatched, in their order, and the watcher does not crash. -/
theorem events_understood (es : List KEvent) (junk : Str) (h : ∀ e ∈ es, Proper e) :
    events ((es.map bytes).flatten ++ junk) (es.map bytes).flatten.length 0 = some (es.filterMap meaning) := by
  have := events_from es junk h []
  simpa using this

/-! ### Subscribers -/

/-- What reaches a subscriber depends only on the events of its name and on what it receives itself; other subscribers and other names do not matter. -/
theorem others_do_not_matter (subs : List Sub) (es : List Ev) (hn : NoCancel es) (i : Nat) (s : Sub) (hs : subs[i]? = some s) :
    (es.foldl step subs)[i]? = ((es.filter (Concerns i s.name)).foldl step subs)[i]? := by
  suffices ∀ (es : List Ev) (as bs : List Sub) (a : Sub), NoCancel es → as[i]? = some a → bs[i]? = some a → a.name = s.name →
      (es.foldl step as)[i]? = ((es.filter (Concerns i s.name)).foldl step bs)[i]? from this es subs subs s hn hs hs rfl
  intro es
  induction es with
  | nil => intro as bs a _ ha hb _; simp [ha, hb]
  | cons e es ih =>
    intro as bs a hn ha hb hname
    have hn' : NoCancel es := fun x j hx => hn x j (List.mem_cons_of_mem _ hx)
    have hlen : i < as.length := (List.getElem?_eq_some_iff.mp ha).1
    cases e with
    | event name st =>
      by_cases he : name = s.name
      · have hst : ∀ l : List Sub, l[i]? = some a → (step l (.event name st))[i]? = some (notify a st) := by
          intro l hl; simp [step, dispatch, hl, hname, he]
        rw [List.filter_cons_of_pos (by simp [Concerns, he]), List.foldl_cons, List.foldl_cons]
        refine ih _ _ (notify a st) hn' (hst as ha) (hst bs hb) ?_
        unfold notify; split
        · exact hname
        · split <;> exact hname
      · rw [List.filter_cons_of_neg (by simp [Concerns, he]), List.foldl_cons]
        refine ih _ _ a hn' ?_ hb hname
        have : ¬ a.name = name := fun h => he (h ▸ hname)
        simp [step, dispatch, ha, this]
    | subscribe name st =>
      rw [List.filter_cons_of_neg (by simp [Concerns]), List.foldl_cons]
      refine ih _ _ a hn' ?_ hb hname
      simp only [step]
      rw [List.getElem?_append_left hlen, ha]
    | cancel j => exact (hn _ j List.mem_cons_self rfl).elim
    | receive j =>
      by_cases hj : j = i
      · subst hj
        have hst : ∀ l : List Sub, l[j]? = some a → (step l (.receive j))[j]? = some { a with chan := a.chan.tail } := by
          intro l hl; simp [step, hl]
        rw [List.filter_cons_of_pos (by simp [Concerns]), List.foldl_cons, List.foldl_cons]
        exact ih _ _ _ hn' (hst as ha) (hst bs hb) hname
      · rw [List.filter_cons_of_neg (by simp [Concerns, hj]), List.foldl_cons]
        refine ih _ _ a hn' ?_ hb hname
        simp [step, List.getElem?_modify, hj, ha]

/-- A subscriber who does not read hears of the first sixteen changes of its namespace, in order, and of nothing that is not a change. -/
theorem hears_changes (s : Sub) (sts : List Bool) (h : s.chan.length ≤ 16) : (sts.foldl notify s).chan = (s.chan ++ changes s.last sts).take 16 := by
  have hfull : ∀ (sts : List Bool) (s : Sub), s.chan.length = 16 → (sts.foldl notify s).chan = s.chan := by
    intro sts
    induction sts with
    | nil => intro s _; rfl
    | cons st sts ih =>
      intro s h
      rw [List.foldl_cons]
      have : notify s st = s := by unfold notify; rw [if_neg (by omega : ¬ s.chan.length < 16)]; split <;> rfl
      rw [this, ih s h]
  induction sts generalizing s with
  | nil => simp [changes, List.take_of_length_le h]
  | cons st sts ih =>
    rw [List.foldl_cons, changes]
    by_cases hl : s.last = some st
    · rw [if_pos hl, show notify s st = s from by simp [notify, hl], ih s h]
    · rw [if_neg hl]
      by_cases hc : s.chan.length < 16
      · rw [show notify s st = { s with chan := s.chan ++ [st], last := some st } from by simp [notify, hl, hc], ih _ (by simp; omega)]
        simp
      · have h16 : s.chan.length = 16 := by omega
        rw [show notify s st = s from by simp [notify, hl, hc], hfull _ _ h16, List.take_append_of_le_length (by omega), List.take_of_length_le (by omega)]

/-! ### Waiting for a namespace -/

/-- Waiting ends exactly at the first look that decides: ready as soon as it is mounted, an error as soon as it is missing, and a time-out only at a look after the deadline. -/
theorem wait_ends (deadline : Int) (ls : List Look) (r : Result) :
    (wait deadline ls).1 = some r ↔ ∃ (before : List Look) (l : Look) (after : List Look), ls = before ++ l :: after ∧ (∀ x ∈ before, Undecided deadline x) ∧ Decides deadline l r := by
  induction ls with
  | nil => simp [wait]
  | cons x ls ih =>
    constructor
    · intro h
      unfold wait at h
      cases hx : x.stat with
      | mounted => rw [hx] at h; simp only [Option.some.injEq] at h; subst h; exact ⟨[], x, ls, rfl, by simp, hx⟩
      | missing => rw [hx] at h; simp only [Option.some.injEq] at h; subst h; exact ⟨[], x, ls, rfl, by simp, hx⟩
      | other =>
        rw [hx] at h
        dsimp only at h
        split at h
        · simp only [Option.some.injEq] at h; subst h; exact ⟨[], x, ls, rfl, by simp, hx, by omega⟩
        · obtain ⟨b, l, a, h1, h2, h3⟩ := ih.mp h
          refine ⟨x :: b, l, a, by rw [h1]; rfl, ?_, h3⟩
          intro y hy
          cases List.mem_cons.mp hy with
          | inl he => subst he; exact ⟨hx, by omega⟩
          | inr hm => exact h2 y hm
    · rintro ⟨b, l, a, h1, h2, h3⟩
      cases b with
      | nil =>
        simp only [List.nil_append, List.cons.injEq] at h1
        obtain ⟨rfl, rfl⟩ := h1
        unfold wait
        cases r <;> simp only [Decides] at h3
        · rw [h3]
        · rw [h3]
        · rw [h3.1]; dsimp only; rw [if_pos (by omega)]
      | cons y b =>
        simp only [List.cons_append, List.cons.injEq] at h1
        obtain ⟨rfl, h1⟩ := h1
        have hy := h2 x List.mem_cons_self
        have := ih.mpr ⟨b, l, a, h1, fun z hz => h2 z (List.mem_cons_of_mem _ hz), h3⟩
        unfold wait
        rw [hy.1]
        dsimp only
        rw [if_neg (by have := hy.2; omega)]
        exact this

/-- It sleeps once after every look that decides nothing, at most ten milliseconds, and never beyond the deadline. -/
theorem wait_sleeps (deadline : Int) (ls : List Look) (k : Nat) (d : Int) (h : (wait deadline ls).2[k]? = some d) :
    ∃ l, ls[k]? = some l ∧ Undecided deadline l ∧ 0 < d ∧ d ≤ 10000000 ∧ l.now + d ≤ deadline ∧ (d < 10000000 → l.now + d = deadline) := by
  induction ls generalizing k with
  | nil => simp [wait] at h
  | cons x ls ih =>
    unfold wait at h
    cases hx : x.stat with
    | mounted => rw [hx] at h; simp at h
    | missing => rw [hx] at h; simp at h
    | other =>
      rw [hx] at h
      dsimp only at h
      split at h
      · simp at h
      · cases k with
        | zero =>
          simp only [List.getElem?_cons_zero, Option.some.injEq] at h
          refine ⟨x, rfl, ⟨hx, by omega⟩, ?_⟩
          unfold interval at h
          omega
        | succ k =>
          simp only [List.getElem?_cons_succ] at h
          obtain ⟨l, h1, h2⟩ := ih k h
          exact ⟨l, by simpa using h1, h2⟩

section Examples

/-- Three events in a row: a namespace is created, the queue overflows, another namespace is deleted. -/
private def three : List KEvent := [⟨1, 0x100, 0, str "vpn", 13⟩, ⟨4294967295, 0x4000, 0, [], 0⟩, ⟨1, 0x200, 0, str "lan", 1⟩]

example : ∀ e ∈ three, Proper e := by unfold Proper three; decide
example : three.filterMap meaning = [(str "vpn", true), (str "lan", false)] := by decide +kernel
example : ((three.map bytes).flatten).length = 68 := by decide +kernel

/-- An overflow of the kernel's queue (events were lost) says nothing: the watcher does not look again. -/
example (name : Str) : said 0x4000 name = none := rfl

/-- Bytes that are no events could crash it: the length of the name is not checked. -/
example : events [0, 0, 0, 0, 0, 1, 0, 0, 0, 0, 0, 0, 9, 0, 0, 0] 16 0 = none := by
  rw [events]
  decide +kernel

/-- Two subscribers, events for both. -/
example : ([.subscribe (str "a") false, .subscribe (str "b") true, .event (str "a") true, .event (str "b") true, .receive 1, .event (str "a") false] : List Ev).foldl step [] =
    [⟨str "a", [false, true, false], some false⟩, ⟨str "b", [], some true⟩] := by decide +kernel
example : changes (some false) [false, true, true, false] = [true, false] := by decide

/-- Mounted after three looks. -/
example : wait 1000000000 [⟨.other, 0⟩, ⟨.other, 10000000⟩, ⟨.mounted, 20000000⟩] = (some .ready, [10000000, 10000000]) := by decide +kernel
example : wait 15000000 [⟨.other, 0⟩, ⟨.other, 10000000⟩, ⟨.other, 15000000⟩] = (some .timeout, [10000000, 5000000]) := by decide +kernel

end Examples

end Verif.Props.NetnsEvents
