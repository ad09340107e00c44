import Verif.Model.NetResolver
import Verif.Spec.NetResolver
import Verif.Props.Composition
/-
C78: look-ups through the bootstrap resolver.
-/
namespace Verif.Props.NetResolver
open Verif Verif.Listeners Verif.NetResolver Verif.Spec.NetResolver
set_option linter.unusedVariables false
set_option linter.unusedSimpArgs false

private theorem check_iff (id : Nat) (q : Question) (a : Msg) : checkResponse id q ⟨a.id, a.response, a.tc, a.question⟩ = true ↔ Responds id q a := by
  unfold checkResponse Responds
  cases a.question with
  | nil => simp
  | cons x xs => simp [equalFold, and_assoc]

/-- C78: one round trip of a look-up ends as `Ends` says, in all cases: the resolver is asked once, with the query of the look-up and as the local host, and the answer is
the resolver's if it is one. -/
theorem round_trip (lib : Lib) (parse : Str → Option Head) (hp : Reads lib parse) (r : Pipeline) (id : Nat) (q : Question) (p : Str) :
    (lib.unpack p = none → roundTrip lib parse r id q p = .failed) ∧
    ∀ m, lib.unpack p = some m → Ends lib id q (r m { sourceIP := [127, 0, 0, 1] }) (roundTrip lib parse r id q p) := by
  constructor
  · intro h; simp only [roundTrip, write, h]
  · intro m hm
    simp only [roundTrip, write, hm]
    generalize r m { sourceIP := [127, 0, 0, 1] } = res
    obtain ⟨msg, err⟩ := res
    cases err with
    | some e => exact .error (by simp)
    | none =>
      cases msg with
      | none => exact .dropped rfl
      | some a =>
        simp only [List.length_nil, Nat.zero_lt_one, if_true, List.nil_append, List.length_singleton, await, readConn]
        cases hb : lib.pack a with
        | none => exact .unpackable a rfl hb
        | some b =>
          by_cases hl : 1232 < b.length
          · simp only [maxPacket, hl, if_true]
            exact .large a b rfl hb hl
          · simp only [maxPacket, hl, if_false, hp a b hb]
            by_cases hc : checkResponse id q ⟨a.id, a.response, a.tc, a.question⟩ = true
            · rw [if_pos hc]
              exact .answer a b rfl hb (by omega) ((check_iff id q a).mp hc)
            · rw [if_neg hc]
              exact .other a b rfl hb (by omega) (fun h => hc ((check_iff id q a).mpr h))

/-- C78: what a look-up uses is the bytes of a reply of the resolver to its query, with its ID and for its question. -/
theorem lookup_sound (lib : Lib) (parse : Str → Option Head) (hp : Reads lib parse) (r1 r2 : Pipeline) (id : Nat) (q : Question) (p b : Str)
    (h : exchange lib parse r1 r2 id q p = .answer b) : ∃ m a r, (r = r1 ∨ r = r2) ∧ lib.unpack p = some m ∧ r m { sourceIP := [127, 0, 0, 1] } = .ok a ∧ lib.pack a = some b ∧ Responds id q a := by
  have key : ∀ r b, roundTrip lib parse r id q p = .answer b → ∃ m a, lib.unpack p = some m ∧ r m { sourceIP := [127, 0, 0, 1] } = .ok a ∧ lib.pack a = some b ∧ Responds id q a := by
    intro r b hb
    obtain ⟨h1, h2⟩ := round_trip lib parse hp r id q p
    cases hm : lib.unpack p with
    | none => rw [h1 hm] at hb; cases hb
    | some m =>
      have := h2 m hm
      rw [hb] at this
      cases this with
      | answer a _ h hp hl hr => exact ⟨m, a, rfl, h, hp, hr⟩
  unfold exchange at h
  split at h
  · rename_i b1 hb1
    split at h
    · cases h
    · split at h
      · cases h
      · split at h
        · split at h
          · rename_i b2 hb2
            split at h
            · cases h
            · split at h
              · cases h
              · cases h
                obtain ⟨m, a, h1, h2, h3, h4⟩ := key r2 b hb2
                exact ⟨m, a, r2, .inr rfl, h1, h2, h3, h4⟩
          · rename_i hn
            exact absurd h (hn b)
        · cases h
          obtain ⟨m, a, h1, h2, h3, h4⟩ := key r1 b hb1
          exact ⟨m, a, r1, .inl rfl, h1, h2, h3, h4⟩
  · rename_i hn
    exact absurd h (hn b)

/-- C78: if replies belong to their queries and are marked as responses, no look-up waits for ever. -/
theorem lookup_ends (lib : Lib) (parse : Str → Option Head) (hp : Reads lib parse) (r1 r2 : Pipeline) (p : Str) (m : Msg) (q : Question) (hm : lib.unpack p = some m)
    (hq : m.question.head? = some q)
    (hr : ∀ r, r = r1 ∨ r = r2 → Composition.Fits m (r m { sourceIP := [127, 0, 0, 1] }) ∧ ∀ a, r m { sourceIP := [127, 0, 0, 1] } = .ok a → a.response = true) :
    exchange lib parse r1 r2 m.id q p ≠ .hangs := by
  have key : ∀ r, r = r1 ∨ r = r2 → roundTrip lib parse r m.id q p ≠ .hangs := by
    intro r hrr h
    have := (round_trip lib parse hp r m.id q p).2 m hm
    rw [h] at this
    cases this with
    | other a b h hp hl hn =>
      obtain ⟨h1, h2⟩ := hr r hrr
      rw [h] at h1
      obtain ⟨hi, qu, au, e1, e2, e3, e4, e5⟩ := h1 rfl a rfl
      rw [hq] at e1
      cases e1
      exact hn ⟨h2 a h, hi, au, e2, e4, e5, e3⟩
  unfold exchange
  split
  · split
    · simp
    · split
      · simp
      · split
        · split
          · split
            · simp
            · split <;> simp
          · exact key r2 (.inr rfl)
        · simp
  · exact key r1 (.inl rfl)

/-- C78: so with any sane configuration (C76) look-ups end, provided replies are marked as responses. -/
theorem bootstrap_ends {H : Type} [DecidableEq H] (lib : Lib) (parse : Str → Option Head) (hp : Reads lib parse) (b64 : Str → Str) (servers : Nat → Composition.Upstream)
    (t : Composition.Tree H) (ht : Props.Composition.Sane t) (r1 r2 : Pipeline) (p : Str) (m : Msg) (q : Question) (hm : lib.unpack p = some m) (hw : Composition.FromWire m)
    (hq : m.question.head? = some q)
    (hr : ∀ r, r = r1 ∨ r = r2 → Composition.Replies (fun i q _ o => Composition.ClientReplies lib b64 (servers i) q o) t m { sourceIP := [127, 0, 0, 1] }
      (some (r m { sourceIP := [127, 0, 0, 1] })) ∧ ∀ a, r m { sourceIP := [127, 0, 0, 1] } = .ok a → a.response = true) :
    exchange lib parse r1 r2 m.id q p ≠ .hangs :=
  lookup_ends lib parse hp r1 r2 p m q hm hq fun r h =>
    ⟨Props.Composition.reply_belongs (fun i q ci o hq h => Props.Composition.clients_good lib b64 (servers i) q hq o h) t ht m hw _ _ (hr r h).1, (hr r h).2⟩

private theorem answered (lib : Lib) (parse : Str → Option Head) (hp : Reads lib parse) (r : Pipeline) (id : Nat) (q : Question) (p : Str) (m a : Msg) (b : Str) (hm : lib.unpack p = some m)
    (ha : r m { sourceIP := [127, 0, 0, 1] } = .ok a) (hb : lib.pack a = some b) (hl : b.length ≤ 1232) (hr : Responds id q a) : roundTrip lib parse r id q p = .answer b := by
  have := (round_trip lib parse hp r id q p).2 m hm
  rw [ha] at this
  generalize roundTrip lib parse r id q p = o at this
  cases this with
  | error h => exact absurd rfl h
  | dropped h => cases h
  | unpackable x h hx => cases h; rw [hb] at hx; cases hx
  | large x y h hx hy => cases h; rw [hb] at hx; cases hx; omega
  | answer x y h hx hy hz => cases h; rw [hb] at hx; cases hx; rfl
  | other x y h hx hy hz => cases h; exact absurd hr hz

/-- C78: a reply to the query that fits is what the look-up uses, unless it is truncated: then the resolver is asked again, and the second reply counts, truncated or not. -/
theorem lookup_uses (lib : Lib) (parse : Str → Option Head) (hp : Reads lib parse) (r1 r2 : Pipeline) (id : Nat) (q : Question) (p : Str) (m a : Msg) (b : Str) (hm : lib.unpack p = some m)
    (ha : r1 m { sourceIP := [127, 0, 0, 1] } = .ok a) (hb : lib.pack a = some b) (hl : b.length ≤ 1232) (hr : Responds id q a) (h1 : a.question.length = 1) :
    (a.tc = false → exchange lib parse r1 r2 id q p = .answer b) ∧
    (a.tc = true → ∀ a2 b2, r2 m { sourceIP := [127, 0, 0, 1] } = .ok a2 → lib.pack a2 = some b2 → b2.length ≤ 1232 → Responds id q a2 → a2.question.length = 1 →
      exchange lib parse r1 r2 id q p = .answer b2) := by
  have ht := answered lib parse hp r1 id q p m a b hm ha hb hl hr
  constructor
  · intro htc
    simp [exchange, ht, hp a b hb, h1, htc]
  · intro htc a2 b2 ha2 hb2 hl2 hr2 h2
    have ht2 := answered lib parse hp r2 id q p m a2 b2 hm ha2 hb2 hl2 hr2
    simp [exchange, ht, hp a b hb, h1, htc, ht2, hp a2 b2 hb2, h2]

/-- Finding (C78): a reply that is not marked as a response, which clients do accept from a server, makes a look-up wait for ever: the Go library waits for another message,
none comes, and deadlines are ignored. -/
theorem lookup_hangs (lib : Lib) (parse : Str → Option Head) (hp : Reads lib parse) (r1 r2 : Pipeline) (p : Str) (m a : Msg) (q : Question) (b : Str) (hm : lib.unpack p = some m)
    (ha : r1 m { sourceIP := [127, 0, 0, 1] } = .ok a) (hb : lib.pack a = some b) (hl : b.length ≤ 1232) (hr : a.response = false) :
    exchange lib parse r1 r2 m.id q p = .hangs := by
  have : roundTrip lib parse r1 m.id q p = .hangs := by
    have := (round_trip lib parse hp r1 m.id q p).2 m hm
    rw [ha] at this
    generalize roundTrip lib parse r1 m.id q p = o at this
    cases this with
    | error h => exact absurd rfl h
    | dropped h => cases h
    | unpackable x h hx => cases h; rw [hb] at hx; cases hx
    | large x y h hx hy => cases h; rw [hb] at hx; cases hx; omega
    | answer x y h hx hy hz => cases h; exact absurd (hr.symm.trans hz.1) (by simp)
    | other => rfl
  simp only [exchange, this]

/-- Finding (C78): answers of more than 1232 bytes fail the look-up; there is no second try over TCP for them. -/
theorem lookup_large (lib : Lib) (parse : Str → Option Head) (hp : Reads lib parse) (r1 r2 : Pipeline) (p : Str) (m a : Msg) (id : Nat) (q : Question) (b : Str) (hm : lib.unpack p = some m)
    (ha : r1 m { sourceIP := [127, 0, 0, 1] } = .ok a) (hb : lib.pack a = some b) (hl : 1232 < b.length) : exchange lib parse r1 r2 id q p = .failed := by
  have : roundTrip lib parse r1 id q p = .failed := by
    have := (round_trip lib parse hp r1 id q p).2 m hm
    rw [ha] at this
    generalize roundTrip lib parse r1 id q p = o at this
    cases this with
    | error h => rfl
    | dropped h => rfl
    | unpackable x h hx => rfl
    | large x y h hx hy => rfl
    | answer x y h hx hy hz => cases h; rw [hb] at hx; cases hx; omega
    | other x y h hx hy hz => cases h; rw [hb] at hx; cases hx; omega
  simp only [exchange, this]

/-- Messages of one question for the root, packed as ID, flag and type, if they fit -/
private def exUnpack (b : Str) : Option Msg := match b with
  | [i, f, t] => some { id := i.toNat, response := f == 1, question := [⟨[], t.toNat, 1⟩] }
  | _ => none
private def exParse (b : Str) : Option Head := (exUnpack b).map fun m => ⟨m.id, m.response, m.tc, m.question⟩
private def exLib : Lib where
  len _ := 0
  truncate m _ := m
  pack m :=
    let b := [UInt8.ofNat m.id, if m.response then 1 else 0, UInt8.ofNat ((m.question.head?.map (·.qtype)).getD 0)]
    if exParse b = some ⟨m.id, m.response, m.tc, m.question⟩ then some b else none
  unpack := exUnpack
  parseIP _ := none

example : Reads exLib exParse := by
  intro a b h
  dsimp only [exLib] at h
  generalize [UInt8.ofNat a.id, if a.response then 1 else 0, UInt8.ofNat ((a.question.head?.map (·.qtype)).getD 0)] = c at h
  split at h
  · cases h; assumption
  · cases h
example : exchange exLib exParse (fun q _ => .ok { q with response := true }) (fun _ _ => .drop) 7 ⟨[], 28, 1⟩ [7, 0, 28] = .answer [7, 1, 28] := by decide +kernel
example : exchange exLib exParse (fun q _ => .ok q) (fun _ _ => .drop) 7 ⟨[], 28, 1⟩ [7, 0, 28] = .hangs := by decide +kernel
example : exchange exLib exParse (fun _ _ => .drop) (fun _ _ => .drop) 7 ⟨[], 28, 1⟩ [7, 0, 28] = .failed := by decide +kernel

end Verif.Props.NetResolver
