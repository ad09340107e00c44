import Verif.Spec.Clients
import Verif.Props.Modifiers
import Verif.Props.Listeners
import Verif.Props.Pipeline
/-
C55 (clients), C56: upstream clients.
-/
set_option linter.unusedVariables false
set_option linter.unusedSimpArgs false
set_option maxRecDepth 100000
namespace Verif.Props.Clients
open Verif Verif.Listeners Verif.Clients Verif.Edns0
open Verif.Spec.Listeners Verif.Spec.Clients
open Verif.Pipeline (validateResponseQuestion)
open Verif.Spec.Pipeline (ForQuestion)

private theorem validate_iff (q a : Msg) : validateResponseQuestion q a = true ↔ ForQuestion q a := by
  unfold validateResponseQuestion ForQuestion
  cases hq : q.question with
  | nil => simp
  | cons qu qs =>
    cases ha : a.question with
    | nil => simp
    | cons au as =>
      simp only [equalFold, Bool.and_eq_true, beq_iff_eq, List.head?_cons, Option.some.injEq]
      constructor
      · rintro ⟨⟨h1, h2⟩, h3⟩
        exact Or.inr ⟨qu, au, rfl, rfl, h1, h3, h2⟩
      · rintro (h | ⟨x, y, rfl, rfl, h1, h2, h3⟩)
        · simp at h
        · exact ⟨⟨h1, h3⟩, h2⟩

/-! ### Queries over UDP, TCP, DoT and DTLS -/

private theorem size_set (size : Nat) (q : Msg) : SizeSet size q (setUDPSize q size) := by
  unfold setUDPSize SizeSet
  by_cases h : size = 0
  · rw [if_pos h]; exact Or.inl ⟨h, rfl⟩
  · rw [if_neg h]
    refine Or.inr ⟨h, ?_⟩
    cases hq : q.edns? with
    | some e => exact Or.inl ⟨e, mapEdns_some q _ e hq⟩
    | none => exact Or.inr ⟨hq, rfl⟩

private theorem size_decoded (size : Nat) (q : Msg) (h : Decoded q) : Decoded (setUDPSize q size) := by
  unfold setUDPSize
  by_cases h0 : size = 0
  · rw [if_pos h0]; exact h
  · rw [if_neg h0]
    cases hq : q.edns? with
    | some e =>
      intro e' he' o ho hc
      simp only [] at he'
      rw [edns_mapEdns, hq] at he'
      simp only [Option.map_some, Option.some.injEq] at he'
      subst he'
      exact h e hq o ho hc
    | none =>
      intro e' he' o ho hc
      simp only [] at he'
      rw [edns_setEdns0] at he'
      simp only [Option.some.injEq] at he'
      subst he'
      simp at ho

/-- Unencrypted clients send the query with the configured size and without padding, and change nothing else. -/
theorem plain_query (size : Nat) (q : Msg) : ∃ m, SizeSet size q m ∧ ButPadding m (plainQuery size q) ∧ NoPadding (plainQuery size q) := by
  refine ⟨_, size_set size q, ?_, ?_⟩
  · unfold plainQuery
    generalize setUDPSize q size = m
    unfold ButPadding Modifiers.stripPadding
    cases hm : m.edns? with
    | none => exact Or.inl (mapEdns_none m _ hm)
    | some e =>
      refine Or.inr (Or.inl ⟨e, _, rfl, mapEdns_some m _ e hm, ?_⟩)
      simp [List.filter_filter]
  · intro e he o ho
    unfold plainQuery Modifiers.stripPadding at he
    rw [edns_mapEdns] at he
    cases hm : (setUDPSize q size).edns? with
    | none => rw [hm] at he; simp at he
    | some e' =>
      rw [hm] at he
      simp only [Option.map_some, Option.some.injEq] at he
      subst he
      simpa using (List.mem_filter.mp ho).2

/-- Encrypted clients (DoT with size 0, DTLS) send the query with the configured size, change nothing but padding, and every query with EDNS has a length that is a multiple of
128 then. They do not panic, as long as options with the code of padding are padding. -/
theorem encrypted_query (lib : Lib) (size : Nat) (q : Msg) (hq : Decoded q) :
    ∃ m m', SizeSet size q m ∧ dtlsQuery lib size q = some m' ∧ ButPadding m m' ∧ (Spec.Modifiers.CountsPadding lib.len → m.edns? ≠ none → 128 ∣ lib.len m') := by
  have hd := size_decoded size q hq
  obtain ⟨m', h1, h2⟩ := Modifiers.pad_query_other lib.len (setUDPSize q size) hd
  refine ⟨_, m', size_set size q, h1, ?_, ?_⟩
  · rcases h2 with h2 | ⟨e, os, h2, h3⟩
    · exact Or.inl h2
    · exact Or.inr (Or.inl ⟨e, os, (replaced_edns h2).1, h2, h3⟩)
  · intro hc he
    cases hm : (setUDPSize q size).edns? with
    | none => exact absurd hm he
    | some e =>
      obtain ⟨q', os, h3, h4, _⟩ := (Modifiers.pad_query lib.len hc (setUDPSize q size)).2 e hm (hd e hm)
      rw [h1] at h3
      simp only [Option.some.injEq] at h3
      subst h3
      exact h4

theorem dot_query (lib : Lib) (q : Msg) : dotQuery lib q = dtlsQuery lib 0 q := rfl

/-! ### DNS over QUIC -/

private theorem quic_form (q : Msg) : QuicForm q (doqQuery q) := by
  have hid : (doqQuery q).id = 0 := rfl
  have he : ({ q with id := 0 } : Msg).edns? = q.edns? := rfl
  refine ⟨hid, ?_, ?_⟩
  · rintro ⟨e, o, h1, h2, h3⟩
    unfold doqQuery at h1
    rw [edns_mapEdns, he] at h1
    cases hq : q.edns? with
    | none => rw [hq] at h1; simp at h1
    | some e' =>
      rw [hq] at h1
      simp only [Option.map_some, Option.some.injEq] at h1
      subst h1
      have := (List.mem_filter.mp h2).2
      simp [h3] at this
  · cases hq : q.edns? with
    | none => exact Or.inl ⟨rfl, mapEdns_none _ _ (by rw [he, hq])⟩
    | some e =>
      refine Or.inr ⟨e, _, mapEdns_some _ _ e (by rw [he, hq]), ?_⟩
      apply List.filter_congr
      intro o _
      simp

private theorem keepalive_iff (a : Msg) : hasKeepAlive a = true ↔ KeepAlive a := by
  unfold hasKeepAlive KeepAlive
  cases h : a.edns? with
  | none => simp
  | some e =>
    simp only [List.any_eq_true, decide_eq_true_eq]
    constructor
    · rintro ⟨o, h1, h2⟩; exact ⟨e, o, rfl, h1, h2⟩
    · rintro ⟨e', o, h0, h1, h2⟩; simp only [Option.some.injEq] at h0; subst h0; exact ⟨o, h1, h2⟩

private theorem framed_be16 (p : Str) (h : p.length < 65536) : Framed p (be16 p.length ++ p) := by
  refine ⟨UInt8.ofNat (p.length / 256), UInt8.ofNat p.length, rfl, ?_⟩
  simp only [UInt8.toNat_ofNat']
  omega

private theorem read_frame_iff (s b : Str) : readFrame s = some b ↔ Begins s b := by
  unfold readFrame Begins Framed
  constructor
  · intro h
    split at h
    · rename_i hh l rest
      split at h
      · simp at h
      · rename_i hl
        simp only [Option.some.injEq] at h
        subst h
        refine ⟨hh :: l :: rest.take (hh.toNat * 256 + l.toNat), rest.drop (hh.toNat * 256 + l.toNat), ⟨hh, l, rfl, ?_⟩, by simp⟩
        rw [List.length_take]; omega
    · simp at h
  · rintro ⟨f, rest, ⟨hh, l, rfl, hl⟩, rfl⟩
    show (if (b ++ rest).length < hh.toNat * 256 + l.toNat then none else some ((b ++ rest).take (hh.toNat * 256 + l.toNat))) = some b
    have e : hh.toNat * 256 + l.toNat = b.length := by omega
    rw [e, if_neg (by simp), List.take_left']
    rfl

/-- C56, QUIC: the query goes out with ID 0 and without keep-alive options, as one frame. The caller gets an answer exactly if the server's stream begins with the frame of a
message that is for the question asked and has no keep-alive option; the answer is that message with the caller's ID. -/
theorem doq_client (lib : Lib) (net : Str → Option Str) (q : Msg) : ∃ m, QuicForm q m ∧
    (lib.pack m = none → doqResolve lib net q = (none, .failed)) ∧
    ∀ p, lib.pack m = some p → ∃ sent, (doqResolve lib net q).1 = some sent ∧ (p.length < 65536 → Framed p sent) ∧
      (doqResolve lib net q).2 ≠ .crash ∧
      ∀ a, (doqResolve lib net q).2 = .answer a ↔
        ∃ s b a0, net sent = some s ∧ Begins s b ∧ lib.unpack b = some a0 ∧ ForQuestion q a0 ∧ ¬ KeepAlive a0 ∧ a = { a0 with id := q.id } := by
  refine ⟨doqQuery q, quic_form q, ?_, ?_⟩
  · intro h; simp only [doqResolve, h]
  · intro p hp
    have acc : ∀ b, doqAccept lib q b ≠ .crash ∧ ∀ a, doqAccept lib q b = .answer a ↔ ∃ a0, lib.unpack b = some a0 ∧ ForQuestion q a0 ∧ ¬ KeepAlive a0 ∧ a = { a0 with id := q.id } := by
      intro b
      unfold doqAccept
      cases hu : lib.unpack b with
      | none => simp
      | some a0 =>
        simp only []
        have e1 : validateResponseQuestion q { a0 with id := q.id } = validateResponseQuestion q a0 := rfl
        have e2 : hasKeepAlive { a0 with id := q.id } = hasKeepAlive a0 := rfl
        rw [e1, e2]
        by_cases h1 : validateResponseQuestion q a0 = true
        · by_cases h2 : hasKeepAlive a0 = true
          · rw [if_neg (by simp [h1]), if_pos h2]
            refine ⟨by simp, fun a => ⟨by simp, ?_⟩⟩
            rintro ⟨x, hx, _, hk, _⟩
            simp only [Option.some.injEq] at hx
            subst hx
            exact absurd ((keepalive_iff _).mp h2) hk
          · rw [if_neg (by simp [h1]), if_neg h2]
            refine ⟨by simp, fun a => ?_⟩
            simp only [Outcome.answer.injEq]
            constructor
            · rintro rfl; exact ⟨a0, rfl, (validate_iff _ _).mp h1, fun hk => h2 ((keepalive_iff _).mpr hk), rfl⟩
            · rintro ⟨x, hx, _, _, rfl⟩
              simp only [Option.some.injEq] at hx
              subst hx; rfl
        · rw [if_pos (by simp [h1])]
          refine ⟨by simp, fun a => ⟨by simp, ?_⟩⟩
          rintro ⟨x, hx, hv, _⟩
          simp only [Option.some.injEq] at hx
          subst hx
          exact absurd ((validate_iff _ _).mpr hv) h1
    refine ⟨be16 p.length ++ p, by simp only [doqResolve, hp], framed_be16 p, ?_, ?_⟩
    · simp only [doqResolve, hp]
      cases net (be16 p.length ++ p) with
      | none => simp
      | some s =>
        simp only []
        cases readFrame s with
        | none => simp
        | some b => exact (acc b).1
    · intro a
      simp only [doqResolve, hp]
      cases hn : net (be16 p.length ++ p) with
      | none => simp
      | some s =>
        simp only []
        cases hf : readFrame s with
        | none =>
          refine ⟨by simp, ?_⟩
          rintro ⟨s', b, a0, h1, h2, _⟩
          simp only [Option.some.injEq] at h1
          subst h1
          rw [(read_frame_iff s b).mpr h2] at hf
          simp at hf
        | some b =>
          simp only []
          rw [(acc b).2 a]
          constructor
          · rintro ⟨a0, h1, h2⟩; exact ⟨s, b, a0, rfl, (read_frame_iff s b).mp hf, h1, h2⟩
          · rintro ⟨s', b', a0, h1, h2, h3⟩
            simp only [Option.some.injEq] at h1
            subst h1
            have := (read_frame_iff s b').mpr h2
            rw [hf] at this
            simp only [Option.some.injEq] at this
            subst this
            exact ⟨a0, h3⟩

/-! ### DNS over HTTPS -/

private theorem bounded (body : Option Str) (limit : Nat) (b : Str) : readBoundedBody body limit = some b ↔ body = some b ∧ b.length ≤ limit := by
  unfold readBoundedBody
  cases body with
  | none => simp
  | some x =>
    simp only [Option.some.injEq]
    by_cases h : x.length ≤ limit
    · rw [if_neg (by rw [List.length_take]; omega), List.take_of_length_le (by omega)]
      simp only [Option.some.injEq]
      constructor
      · rintro rfl; exact ⟨rfl, h⟩
      · exact fun h => h.1
    · rw [if_pos (by rw [List.length_take]; omega)]
      simp only [reduceCtorEq, false_iff]
      rintro ⟨rfl, h'⟩; exact h h'

private theorem from_http (lib : Lib) (q : Msg) (r : HttpResp) : responseFromHTTP lib q r ≠ .crash ∧
    ∀ a, responseFromHTTP lib q r = .answer a ↔ ∃ b, Content r b ∧ lib.unpack b = some a ∧ ForQuestion q a := by
  unfold responseFromHTTP Content
  by_cases hs : r.status < 200 ∨ r.status > 299
  · rw [if_pos hs]
    refine ⟨by simp, fun a => ⟨by simp, ?_⟩⟩
    rintro ⟨b, ⟨h1, h2, _⟩, _⟩; omega
  · rw [if_neg hs]
    cases hb : readBoundedBody r.body maxDoHResponseSize with
    | none =>
      refine ⟨by simp, fun a => ⟨by simp, ?_⟩⟩
      rintro ⟨b, ⟨_, _, h3, h4⟩, _⟩
      rw [(bounded _ _ b).mpr ⟨h3, h4⟩] at hb
      simp at hb
    | some b =>
      obtain ⟨b1, b2⟩ := (bounded _ _ b).mp hb
      simp only []
      have only : ∀ b', r.body = some b' → b' = b := by intro b' h; rw [b1] at h; simpa using h.symm
      cases hu : lib.unpack b with
      | none =>
        refine ⟨by simp, fun a => ⟨by simp, ?_⟩⟩
        rintro ⟨b', ⟨_, _, h3, _⟩, h5, _⟩
        rw [only b' h3, hu] at h5; simp at h5
      | some a0 =>
        simp only []
        by_cases hv : validateResponseQuestion q a0 = true
        · rw [if_pos hv]
          refine ⟨by simp, fun a => ?_⟩
          simp only [Outcome.answer.injEq]
          constructor
          · rintro rfl; exact ⟨b, ⟨by omega, by omega, b1, b2⟩, hu, (validate_iff _ _).mp hv⟩
          · rintro ⟨b', ⟨_, _, h3, _⟩, h5, _⟩
            rw [only b' h3, hu] at h5; simpa using h5
        · rw [if_neg hv]
          refine ⟨by simp, fun a => ⟨by simp, ?_⟩⟩
          rintro ⟨b', ⟨_, _, h3, _⟩, h5, h6⟩
          rw [only b' h3, hu] at h5
          simp only [Option.some.injEq] at h5
          subst h5
          exact absurd ((validate_iff _ _).mpr h6) hv

/-- C56, HTTPS: the query goes out with padding as the only change. The caller gets an answer exactly if the response is successful, of at most 66047 bytes, and a message
that is for the question asked; the answer is that message as it is. -/
theorem doh_client (lib : Lib) (b64 : Str → Str) (t : Template) (o : DoHOpt) (net : HttpReq → Option HttpResp) (q : Msg) (hq : Decoded q) :
    ∃ m, ButPadding q m ∧ Modifiers.padQuery lib.len q = some m ∧ (dohResolve lib b64 t o net q).2 ≠ .crash ∧
    (∀ req, (dohResolve lib b64 t o net q).1 = some req → ∃ p, lib.pack m = some p ∧
      ((req.method = .post ∧ t.expand none = some req.url ∧ req.body = p) ∨ (req.method ≠ .post ∧ t.expand (some (b64 p)) = some req.url ∧ req.body = []))) ∧
    ∀ a, (dohResolve lib b64 t o net q).2 = .answer a ↔
      ∃ req r b, (dohResolve lib b64 t o net q).1 = some req ∧ net req = some r ∧ Content r b ∧ lib.unpack b = some a ∧ ForQuestion q a := by
  obtain ⟨m, h1, h2⟩ := Modifiers.pad_query_other lib.len q hq
  have hqm : m.question = q.question := by
    rcases h2 with rfl | ⟨e, os, ⟨pre, r, post, _, _, _, rfl⟩, _⟩ <;> rfl
  have hfor : ∀ a, ForQuestion m a ↔ ForQuestion q a := by intro a; unfold ForQuestion; rw [hqm]
  refine ⟨m, ?_, h1, ?_, ?_, ?_⟩
  · rcases h2 with h2 | ⟨e, os, h2, h3⟩
    · exact Or.inl h2
    · exact Or.inr (Or.inl ⟨e, os, (replaced_edns h2).1, h2, h3⟩)
  · simp only [dohResolve, h1]
    cases lib.pack m with
    | none => simp
    | some p =>
      simp only []
      cases buildRequest b64 t o p m.opcode with
      | none => simp
      | some req =>
        simp only []
        cases net req with
        | none => simp
        | some r => exact (from_http lib m r).1
  · intro req hr
    simp only [dohResolve, h1] at hr
    cases hp : lib.pack m with
    | none => rw [hp] at hr; simp at hr
    | some p =>
      refine ⟨p, rfl, ?_⟩
      rw [hp] at hr
      simp only [] at hr
      cases hb : buildRequest b64 t o p m.opcode with
      | none => rw [hb] at hr; simp at hr
      | some req' =>
        rw [hb] at hr
        simp only [Option.some.injEq] at hr
        subst hr
        unfold buildRequest at hb
        by_cases c1 : o.method = str "POST"
        · rw [if_pos c1] at hb
          cases he : t.expand none with
          | none => rw [he] at hb; simp at hb
          | some u =>
            rw [he] at hb
            simp only [Option.map_some, Option.some.injEq] at hb
            subst hb
            exact Or.inl ⟨rfl, rfl, rfl⟩
        · rw [if_neg c1] at hb
          by_cases c2 : o.method = str "GET"
          · rw [if_pos c2] at hb
            cases he : t.expand (some (b64 p)) with
            | none => rw [he] at hb; simp at hb
            | some u =>
              rw [he] at hb
              simp only [Option.map_some, Option.some.injEq] at hb
              subst hb
              refine Or.inr ⟨?_, rfl, rfl⟩
              show (if _ then Method.get0RTT else Method.get) ≠ _
              split <;> simp
          · rw [if_neg c2] at hb; simp at hb
  · intro a
    simp only [dohResolve, h1]
    cases hp : lib.pack m with
    | none => simp
    | some p =>
      simp only []
      cases hb : buildRequest b64 t o p m.opcode with
      | none => simp
      | some req =>
        simp only [Option.some.injEq]
        cases hn : net req with
        | none =>
          refine ⟨by simp, ?_⟩
          rintro ⟨req', r, b, rfl, h3, _⟩
          rw [hn] at h3; simp at h3
        | some r =>
          simp only []
          rw [(from_http lib m r).2 a]
          constructor
          · rintro ⟨b, h3, h4, h5⟩; exact ⟨req, r, b, rfl, hn, h3, h4, (hfor a).mp h5⟩
          · rintro ⟨req', r', b, rfl, h2, h3, h4, h5⟩
            rw [hn] at h2
            simp only [Option.some.injEq] at h2
            subst h2
            exact ⟨b, h3, h4, (hfor a).mpr h5⟩

/-! ### Oblivious DNS -/

/-- C56, oblivious DNS: the caller gets an answer exactly if the proxy's response is successful, of the right type and at most 66047 bytes, can be decrypted with the key
material of this very query, and is a message for the question asked. -/
theorem odoh_client (lib : Lib) (o : OdohLib) (b64 : Str → Str) (t : Template) (opt : DoHOpt) (target : Str → Str) (net : HttpReq → Option HttpResp) (key : o.Key) (q : Msg) :
    (odohResolve lib o b64 t opt target net key q).2 ≠ .crash ∧
    (∀ req, (odohResolve lib o b64 t opt target net key q).1 = some req → ∃ p e c, lib.pack q = some p ∧ o.encrypt key p = some (e, c) ∧
      req.contentType = odohType ∧ ((req.method = .post ∧ req.body = e) ∨ (req.method ≠ .post ∧ req.body = [] ∧ ∃ u, t.expand (some (b64 e)) = some u ∧ req.url = target u))) ∧
    ∀ a, (odohResolve lib o b64 t opt target net key q).2 = .answer a ↔
      ∃ p e c req r b d, lib.pack q = some p ∧ o.encrypt key p = some (e, c) ∧ (odohResolve lib o b64 t opt target net key q).1 = some req ∧ net req = some r ∧
        r.contentType = odohType ∧ Content r b ∧ o.openAnswer c b = some d ∧ lib.unpack d = some a ∧ ForQuestion q a := by
  have dec : ∀ (c : o.Ctx) r, decodeProxyResponse lib o q c r ≠ .crash ∧ ∀ a, decodeProxyResponse lib o q c r = .answer a ↔
      ∃ b d, r.contentType = odohType ∧ Content r b ∧ o.openAnswer c b = some d ∧ lib.unpack d = some a ∧ ForQuestion q a := by
    intro c r
    unfold decodeProxyResponse Content
    by_cases hs : r.status < 200 ∨ r.status > 299
    · rw [if_pos hs]
      refine ⟨by simp, fun a => ⟨by simp, ?_⟩⟩
      rintro ⟨b, d, _, ⟨h1, h2, _⟩, _⟩; omega
    · rw [if_neg hs]
      by_cases ht : r.contentType = odohType
      · rw [if_neg (by simp [ht])]
        cases hb : readBoundedBody r.body maxDoHResponseSize with
        | none =>
          refine ⟨by simp, fun a => ⟨by simp, ?_⟩⟩
          rintro ⟨b, d, _, ⟨_, _, h3, h4⟩, _⟩
          rw [(bounded _ _ b).mpr ⟨h3, h4⟩] at hb
          simp at hb
        | some b =>
          obtain ⟨b1, b2⟩ := (bounded _ _ b).mp hb
          simp only []
          have only : ∀ b', r.body = some b' → b' = b := by intro b' h; rw [b1] at h; simpa using h.symm
          cases hd : o.openAnswer c b with
          | none =>
            refine ⟨by simp, fun a => ⟨by simp, ?_⟩⟩
            rintro ⟨b', d, _, ⟨_, _, h3, _⟩, h5, _⟩
            rw [only b' h3, hd] at h5; simp at h5
          | some d =>
            simp only []
            cases hu : lib.unpack d with
            | none =>
              refine ⟨by simp, fun a => ⟨by simp, ?_⟩⟩
              rintro ⟨b', d', _, ⟨_, _, h3, _⟩, h5, h6, _⟩
              rw [only b' h3, hd] at h5
              simp only [Option.some.injEq] at h5
              subst h5
              rw [hu] at h6; simp at h6
            | some a0 =>
              simp only []
              by_cases hv : validateResponseQuestion q a0 = true
              · rw [if_pos hv]
                refine ⟨by simp, fun a => ?_⟩
                simp only [Outcome.answer.injEq]
                constructor
                · rintro rfl; exact ⟨b, d, ht, ⟨by omega, by omega, b1, b2⟩, hd, hu, (validate_iff _ _).mp hv⟩
                · rintro ⟨b', d', _, ⟨_, _, h3, _⟩, h5, h6, _⟩
                  rw [only b' h3, hd] at h5
                  simp only [Option.some.injEq] at h5
                  subst h5
                  rw [hu] at h6; simpa using h6
              · rw [if_neg hv]
                refine ⟨by simp, fun a => ⟨by simp, ?_⟩⟩
                rintro ⟨b', d', _, ⟨_, _, h3, _⟩, h5, h6, h7⟩
                rw [only b' h3, hd] at h5
                simp only [Option.some.injEq] at h5
                subst h5
                rw [hu] at h6
                simp only [Option.some.injEq] at h6
                subst h6
                exact absurd ((validate_iff _ _).mpr h7) hv
      · rw [if_pos ht]
        refine ⟨by simp, fun a => ⟨by simp, ?_⟩⟩
        rintro ⟨b, d, h, _⟩; exact absurd h ht
  unfold odohResolve
  cases hp : lib.pack q with
  | none => simp
  | some p =>
    simp only []
    cases he : o.encrypt key p with
    | none => simp [he]
    | some ec =>
      obtain ⟨e, c⟩ := ec
      simp only []
      cases hb : buildRequest b64 t opt e q.opcode with
      | none => simp
      | some req =>
        simp only [Option.some.injEq]
        refine ⟨?_, ?_, ?_⟩
        · cases net { req with url := target req.url, contentType := odohType } with
          | none => simp
          | some r => exact (dec c r).1
        · rintro _ rfl
          refine ⟨p, e, c, rfl, he, rfl, ?_⟩
          unfold buildRequest at hb
          by_cases c1 : opt.method = str "POST"
          · rw [if_pos c1] at hb
            cases hx : t.expand none with
            | none => rw [hx] at hb; simp at hb
            | some u =>
              rw [hx] at hb
              simp only [Option.map_some, Option.some.injEq] at hb
              subst hb
              exact Or.inl ⟨rfl, rfl⟩
          · rw [if_neg c1] at hb
            by_cases c2 : opt.method = str "GET"
            · rw [if_pos c2] at hb
              cases hx : t.expand (some (b64 e)) with
              | none => rw [hx] at hb; simp at hb
              | some u =>
                rw [hx] at hb
                simp only [Option.map_some, Option.some.injEq] at hb
                subst hb
                refine Or.inr ⟨?_, rfl, u, rfl, rfl⟩
                show (if _ then Method.get0RTT else Method.get) ≠ _
                split <;> simp
            · rw [if_neg c2] at hb; simp at hb
        · intro a
          cases hn : net { req with url := target req.url, contentType := odohType } with
          | none =>
            refine ⟨by simp, ?_⟩
            rintro ⟨p', e', c', req', r, b, d, _, _, rfl, h3, _⟩
            rw [hn] at h3; simp at h3
          | some r =>
            simp only []
            rw [(dec c r).2 a]
            constructor
            · rintro ⟨b, d, h⟩; exact ⟨p, e, c, _, r, b, d, rfl, he, rfl, hn, h⟩
            · rintro ⟨p', e', c', req', r', b, d, h1, h2, rfl, h3, h4⟩
              subst h1
              rw [he] at h2
              simp only [Option.some.injEq, Prod.mk.injEq] at h2
              obtain ⟨rfl, rfl⟩ := h2
              rw [hn] at h3
              simp only [Option.some.injEq] at h3
              subst h3
              exact ⟨b, d, h4⟩

private theorem refresh_ok (lib : OdohLib) (resp : Option HttpResp) (k : lib.Key) (h : refreshTargetKey lib resp = .ok k) :
    ∃ r b ks, resp = some r ∧ r.body = some b ∧ b.length ≤ 65535 + 512 ∧ lib.configs b = some (k :: ks) := by
  unfold refreshTargetKey at h
  cases resp with
  | none => simp at h
  | some r =>
    simp only [] at h
    cases hb : readBoundedBody r.body maxDoHResponseSize with
    | none => rw [hb] at h; simp at h
    | some b =>
      rw [hb] at h
      simp only [] at h
      obtain ⟨b1, b2⟩ := (bounded _ _ b).mp hb
      cases hc : lib.configs b with
      | none => rw [hc] at h; simp at h
      | some cs =>
        rw [hc] at h
        cases cs with
        | nil => simp [firstConfig] at h
        | cons x xs =>
          simp only [firstConfig, Try.ok.injEq] at h
          subst h
          exact ⟨r, b, xs, rfl, b1, b2, hc⟩

private theorem fetched_mono (lib : OdohLib) (h : List (Nat × Option HttpResp)) (x : Nat × Option HttpResp) (k : lib.Key) (t : Nat) (hf : Fetched lib h k t) : Fetched lib (x :: h) k t := by
  obtain ⟨r, b, ks, h1, h2⟩ := hf
  exact ⟨r, b, ks, by simp [h1], h2⟩

private theorem key_step (lib : OdohLib) (resp : Option HttpResp) (now : Nat) (s : OdohState lib.Key) (h : List (Nat × Option HttpResp))
    (hs : ∀ k, s.config = some k → ∃ t, Fetched lib h k t ∧ s.expiry = t + 24 * 3600 * 1000000000) :
    (∀ k, (getTargetConfig lib [] resp now s).2.config = some k → ∃ t, Fetched lib ((now, resp) :: h) k t ∧ (getTargetConfig lib [] resp now s).2.expiry = t + 24 * 3600 * 1000000000) ∧
    ∀ k, (getTargetConfig lib [] resp now s).1 = .ok k → ∃ t, Fetched lib ((now, resp) :: h) k t ∧ now ≤ t + 24 * 3600 * 1000000000 := by
  have old : ∀ k, s.config = some k → ∃ t, Fetched lib ((now, resp) :: h) k t ∧ s.expiry = t + 24 * 3600 * 1000000000 := by
    intro k hk; obtain ⟨t, h1, h2⟩ := hs k hk; exact ⟨t, fetched_mono lib h _ k t h1, h2⟩
  have new : ∀ k, refreshTargetKey lib resp = .ok k → Fetched lib ((now, resp) :: h) k now := by
    intro k hk
    obtain ⟨r, b, ks, rfl, h2⟩ := refresh_ok lib resp k hk
    exact ⟨r, b, ks, by simp, h2⟩
  unfold getTargetConfig
  rw [if_neg (by simp)]
  cases hc : s.config with
  | some k0 =>
    simp only []
    by_cases he : now > s.expiry
    · rw [if_pos he]
      cases hr : refreshTargetKey lib resp with
      | ok k =>
        simp only [Option.some.injEq, Try.ok.injEq]
        exact ⟨by rintro _ rfl; exact ⟨now, new k hr, rfl⟩, by rintro _ rfl; exact ⟨now, new k hr, by omega⟩⟩
      | failed => simp
      | crash => exact ⟨old, by simp⟩
    · rw [if_neg he]
      refine ⟨old, ?_⟩
      intro k hk
      simp only [Try.ok.injEq] at hk
      subst hk
      obtain ⟨t, h1, h2⟩ := old k0 hc
      exact ⟨t, h1, by omega⟩
  | none =>
    simp only []
    cases hr : refreshTargetKey lib resp with
    | ok k =>
      simp only [Option.some.injEq, Try.ok.injEq]
      exact ⟨by rintro _ rfl; exact ⟨now, new k hr, rfl⟩, by rintro _ rfl; exact ⟨now, new k hr, by omega⟩⟩
    | failed => simp
    | crash => exact ⟨old, by simp⟩

/-- Oblivious DNS: after any history of calls, the key used for a query is the first one of a configuration that was fetched successfully, not more than 24 hours before. -/
theorem odoh_key_fresh (lib : OdohLib) (h : List (Nat × Option HttpResp)) (resp : Option HttpResp) (now : Nat) (k : lib.Key)
    (hk : (getTargetConfig lib [] resp now (odohRun lib h)).1 = .ok k) : ∃ t, Fetched lib ((now, resp) :: h) k t ∧ now ≤ t + 24 * 3600 * 1000000000 := by
  have inv : ∀ h k, (odohRun lib h).config = some k → ∃ t, Fetched lib h k t ∧ (odohRun lib h).expiry = t + 24 * 3600 * 1000000000 := by
    intro h
    induction h with
    | nil => intro k hk; simp [odohRun] at hk
    | cons x h ih => obtain ⟨n, r⟩ := x; exact (key_step lib r n _ h ih).1
  exact (key_step lib resp now _ h (inv h)).2 k hk

/-- Finding: a target that serves a configuration without keys makes the client panic. -/
theorem odoh_no_key_crashes (lib : OdohLib) (r : HttpResp) (b : Str) (now : Nat) (hb : r.body = some b) (hl : b.length ≤ 65535 + 512) (hc : lib.configs b = some []) :
    (getTargetConfig lib [] (some r) now {}).1 = .crash := by
  have : refreshTargetKey lib (some r) = .crash := by
    simp only [refreshTargetKey]
    rw [(bounded r.body maxDoHResponseSize b).mpr ⟨hb, hl⟩]
    simp only [hc, firstConfig]
  simp only [getTargetConfig, this]
  rfl

/-- Finding: neither the ID of a response over HTTPS is compared with that of the query, nor is it replaced. The caller gets whatever ID the server sent. -/
theorem doh_id_unchecked (lib : Lib) (q : Msg) (i : Nat) (r : HttpResp) (b : Str) (a : Msg) (h : Content r b) (hu : lib.unpack b = some a) (hq : ForQuestion q a) (hi : a.id = i) :
    ∃ m, responseFromHTTP lib q r = .answer m ∧ m.id = i :=
  ⟨a, ((from_http lib q r).2 a).mpr ⟨b, h, hu, hq⟩, hi⟩

/-! ### Early data -/

/-- C55, HTTPS client: of a client that could be set up, a request is marked for early data exactly if 0-RTT was configured and the query is one that may be replayed;
and then the client uses QUIC and GET, as early data demands. -/
theorem doh_client_early (lib : Lib) (b64 : Str → Str) (ok : Bool) (t0 : Option Template) (o0 : DoHOpt) (t : Template) (o : DoHOpt) (net : HttpReq → Option HttpResp) (q : Msg)
    (hq : Decoded q) (hnew : newDoHClient ok t0 o0 = some (t, o)) (req : HttpReq) (hr : (dohResolve lib b64 t o net q).1 = some req) :
    (req.method = .get0RTT ↔ o0.use0RTT = true ∧ MayReplay q) ∧ (o0.use0RTT = true → o0.transport = str "quic" ∧ (o0.method = [] ∨ o0.method = str "GET")) := by
  have hnew' : t0 = some t ∧ o.use0RTT = o0.use0RTT ∧ o.transport = o0.transport ∧
      (o0.use0RTT = true → o0.transport = str "quic" ∧ (o0.method = [] ∨ o0.method = str "GET") ∧ o.method = str "GET") := by
    unfold newDoHClient at hnew
    by_cases h0 : o0.idleTimeout < 0
    · rw [if_pos h0] at hnew; simp at hnew
    · rw [if_neg h0] at hnew
      cases t0 with
      | none => simp at hnew
      | some t1 =>
        simp only [] at hnew
        cases hc : check0RTT t1 o0 with
        | none => rw [hc] at hnew; simp at hnew
        | some o1 =>
          rw [hc] at hnew
          simp only [] at hnew
          have hc' : o1.use0RTT = o0.use0RTT ∧ o1.transport = o0.transport ∧
              (o0.use0RTT = true → o0.transport = str "quic" ∧ (o0.method = [] ∨ o0.method = str "GET") ∧ o1.method = str "GET") := by
            unfold check0RTT at hc
            by_cases c0 : o0.use0RTT = true
            · rw [if_pos c0] at hc
              by_cases c1 : o0.transport = str "quic"
              · rw [if_neg (by simp [c1])] at hc
                by_cases c2 : t1.names.contains (str "dns") = true
                · rw [if_neg (by simpa using c2)] at hc
                  by_cases c3 : o0.method = []
                  · rw [if_pos c3] at hc
                    simp only [Option.some.injEq] at hc
                    subst hc
                    exact ⟨rfl, rfl, fun _ => ⟨c1, Or.inl c3, rfl⟩⟩
                  · rw [if_neg c3] at hc
                    by_cases c4 : o0.method = str "GET"
                    · rw [if_pos c4] at hc
                      simp only [Option.some.injEq] at hc
                      subst hc
                      exact ⟨rfl, rfl, fun _ => ⟨c1, Or.inr c4, c4⟩⟩
                    · rw [if_neg c4] at hc; simp at hc
                · rw [if_pos c2] at hc; simp at hc
              · rw [if_pos c1] at hc; simp at hc
            · rw [if_neg c0] at hc
              simp only [Option.some.injEq] at hc
              subst hc
              exact ⟨rfl, rfl, fun h => absurd h c0⟩
          split at hnew
          · simp at hnew
          · split at hnew
            · simp at hnew
            · by_cases c5 : o1.method = []
              · rw [if_pos c5] at hnew
                simp only [] at hnew
                rw [if_neg (by simp)] at hnew
                simp only [Option.some.injEq, Prod.mk.injEq] at hnew
                obtain ⟨rfl, rfl⟩ := hnew
                refine ⟨rfl, hc'.1, hc'.2.1, ?_⟩
                intro hu
                have := (hc'.2.2 hu).2.2
                rw [c5] at this
                exact absurd this (by decide)
              · rw [if_neg c5] at hnew
                split at hnew
                · simp at hnew
                · simp only [Option.some.injEq, Prod.mk.injEq] at hnew
                  obtain ⟨rfl, rfl⟩ := hnew
                  exact ⟨rfl, hc'.1, hc'.2.1, hc'.2.2⟩
  obtain ⟨_, hu, htr, hcfg⟩ := hnew'
  refine ⟨?_, fun h => ⟨(hcfg h).1, (hcfg h).2.1⟩⟩
  obtain ⟨m, h1, h2⟩ := Modifiers.pad_query_other lib.len q hq
  have hop : m.opcode = q.opcode := by
    rcases h2 with rfl | ⟨e, os, ⟨pre, r, post, _, _, _, rfl⟩, _⟩ <;> rfl
  simp only [dohResolve, h1] at hr
  cases hp : lib.pack m with
  | none => rw [hp] at hr; simp at hr
  | some p =>
    rw [hp] at hr
    simp only [] at hr
    cases hb : buildRequest b64 t o p m.opcode with
    | none => rw [hb] at hr; simp at hr
    | some req' =>
      rw [hb] at hr
      simp only [Option.some.injEq] at hr
      subst hr
      have hrep : isReplayableOpcode m.opcode = true ↔ MayReplay q := by
        unfold isReplayableOpcode MayReplay opcodeQuery opcodeNotify
        rw [hop]; simp
      unfold buildRequest at hb
      by_cases c1 : o.method = str "POST"
      · rw [if_pos c1] at hb
        cases he : t.expand none with
        | none => rw [he] at hb; simp at hb
        | some u =>
          rw [he] at hb
          simp only [Option.map_some, Option.some.injEq] at hb
          subst hb
          simp only [reduceCtorEq, false_iff]
          rintro ⟨h, _⟩
          have := (hcfg h).2.2
          rw [c1] at this
          exact absurd this (by decide)
      · rw [if_neg c1] at hb
        by_cases c2 : o.method = str "GET"
        · rw [if_pos c2] at hb
          cases he : t.expand (some (b64 p)) with
          | none => rw [he] at hb; simp at hb
          | some u =>
            rw [he] at hb
            simp only [Option.map_some, Option.some.injEq] at hb
            subst hb
            simp only []
            rw [← hrep, ← hu]
            by_cases c3 : (o.use0RTT && o.transport = str "quic" && isReplayableOpcode m.opcode) = true
            · rw [if_pos c3]
              simp only [Bool.and_eq_true] at c3
              exact ⟨fun _ => ⟨c3.1.1, c3.2⟩, fun _ => rfl⟩
            · rw [if_neg c3]
              simp only [reduceCtorEq, false_iff]
              rintro ⟨h, h'⟩
              apply c3
              have : o.transport = str "quic" := by rw [htr]; exact (hcfg (hu ▸ h)).1
              simp [h, h', this]
        · rw [if_neg c2] at hb; simp at hb

/-! ### Examples -/

/-- A toy message format: ID, opcode, and a byte that names the question -/
private def exLib : Lib :=
  { len := fun m => 12 + m.extra.length * 11
    truncate := fun m _ => m
    pack := fun m => some [UInt8.ofNat m.id, UInt8.ofNat m.opcode, (m.question.head?.bind (·.name.head?)).getD 0]
    unpack := fun b => match b with
      | [i, op, n] => some { id := i.toNat, opcode := op.toNat, response := true, question := [⟨[n, 46], 1, 1⟩] }
      | _ => none
    parseIP := fun _ => none }
private def exOpt : RR := { name := str ".", rtype := 41, cls := 1232, ttl := 0, data := .opt 1232 true [.padding 3, .other 11 [0]] }
private def exQ (op : Nat) : Msg := { id := 7, opcode := op, question := [⟨str "A.", 1, 1⟩], extra := [exOpt] }

example : Decoded (exQ 0) := by
  intro e he o ho hc
  have : (exQ 0).edns? = some ⟨1232, true, [.padding 3, .other 11 [0]]⟩ := by decide +kernel
  rw [this] at he
  simp only [Option.some.injEq] at he
  subst he
  simp only [List.mem_cons, List.not_mem_nil, or_false] at ho
  rcases ho with rfl | rfl
  · exact ⟨3, rfl⟩
  · simp [EOpt.code] at hc
/-- Over UDP padding is removed, the size is set, and the keep-alive option stays; over QUIC the keep-alive option is removed. -/
example : (plainQuery 4096 (exQ 0)).edns? = some ⟨4096, true, [.other 11 [0]]⟩ ∧ (doqQuery (exQ 0)).edns? = some ⟨1232, true, [.padding 3]⟩ ∧
    (dtlsQuery exLib 1400 (exQ 0)).bind Msg.edns? = some ⟨1400, true, [.padding 105, .other 11 [0]]⟩ := by decide +kernel
/-- Over QUIC, ID 0 is sent, and the answer has the ID of the query; an answer for another question is not taken, spelling does not matter. -/
example : doqResolve exLib (fun b => some b) (exQ 0) = (some [0, 3, 0, 0, 65], .answer { id := 7, response := true, question := [⟨str "A.", 1, 1⟩] }) ∧
    (doqResolve exLib (fun _ => some [0, 3, 9, 0, 97, 1, 2]) (exQ 0)).2 = .answer { id := 7, response := true, question := [⟨str "a.", 1, 1⟩] } ∧
    (doqResolve exLib (fun _ => some [0, 3, 0, 0, 98]) (exQ 0)).2 = .failed ∧ (doqResolve exLib (fun _ => some [0, 4, 0, 0, 97]) (exQ 0)).2 = .failed := by decide +kernel

private def exT : Template := { names := [str "dns"], expand := fun v => match v with | some x => some (str "u?dns=" ++ x) | none => some (str "u") }
/-- A client with 0-RTT: queries are sent early, updates are not. -/
example : (newDoHClient true (some exT) { transport := str "quic", use0RTT := true }).map (·.2) = some { transport := str "quic", use0RTT := true, method := str "GET" } ∧
    (newDoHClient true (some exT) { use0RTT := true }).isNone = true ∧ (newDoHClient true (some exT) { transport := str "quic", use0RTT := true, method := str "POST" }).isNone = true ∧
    ((dohResolve exLib id exT { transport := str "quic", use0RTT := true, method := str "GET" } (fun _ => none) (exQ 0)).1.map (·.method)) = some .get0RTT ∧
    ((dohResolve exLib id exT { transport := str "quic", use0RTT := true, method := str "GET" } (fun _ => none) (exQ 5)).1.map (·.method)) = some .get := by decide +kernel
/-- Over HTTPS the ID of the server is passed on. -/
example : (dohResolve exLib id exT { method := str "POST" } (fun _ => some ⟨200, [], some [99, 0, 97]⟩) (exQ 0)) =
    (some ⟨.post, str "u", [7, 0, 65], str "application/dns-message"⟩, .answer { id := 99, response := true, question := [⟨str "a.", 1, 1⟩] }) := by decide +kernel

/-- Toy cryptography: a key is a byte that is put in front. -/
private def exOdoh : OdohLib :=
  { Key := UInt8, Ctx := UInt8, hex := some, configs := fun b => some b, encrypt := fun k m => some (k :: m, k)
    openAnswer := fun k m => match m with | x :: m => if x = k then some m else none | [] => none }
example : (odohResolve exLib exOdoh id exT { method := str "POST" } id (fun r => some ⟨200, odohType, some r.body⟩) (5 : UInt8) (exQ 0)).2 = .answer { id := 7, response := true, question := [⟨str "A.", 1, 1⟩] } ∧
    (odohResolve exLib exOdoh id exT { method := str "POST" } id (fun r => some ⟨200, odohType, some (6 :: r.body)⟩) (5 : UInt8) (exQ 0)).2 = .failed ∧
    (odohResolve exLib exOdoh id exT { method := str "POST" } id (fun r => some ⟨200, [], some r.body⟩) (5 : UInt8) (exQ 0)).2 = .failed := by decide +kernel
/-- The key is kept for a day. -/
example : (match (getTargetConfig exOdoh [] (some ⟨200, [], some [2]⟩) 86400000000005 (odohRun exOdoh [(5, some ⟨200, [], some [1, 9]⟩)])).1 with | .ok k => k | _ => (0 : UInt8)) = (1 : UInt8) ∧
    (match (getTargetConfig exOdoh [] (some ⟨200, [], some [2]⟩) 86400000000006 (odohRun exOdoh [(5, some ⟨200, [], some [1, 9]⟩)])).1 with | .ok k => k | _ => (0 : UInt8)) = (2 : UInt8) := by decide +kernel

end Verif.Props.Clients
