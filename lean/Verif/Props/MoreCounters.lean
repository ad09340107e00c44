import Verif.Model.MoreCounters
import Verif.Spec.MoreCounters
import Verif.Props.Balance
import Verif.Props.Group
import Verif.Props.Route
/-
C92, continued: the counters of DoQ listeners, of clients, and of routers and groups.
-/
namespace Verif.Props.MoreCounters
open Verif Verif.Counters Verif.MoreCounters Verif.Spec.Counters Verif.Spec.MoreCounters
open Verif.Listeners (Lib Pipeline StreamRun handleStream isAllowed setRcode)

private theorem total {α : Type} (l : List α) (f : α → List Count) (p : Count → Bool) (g : α → Bool) (h : ∀ x ∈ l, (f x).countP p = if g x = true then 1 else 0) :
    (l.flatMap f).countP p = l.countP g := by
  induction l with
  | nil => rfl
  | cons x l ih =>
    rw [List.flatMap_cons, List.countP_append, h x (by simp), ih fun y hy => h y (by simp [hy]), List.countP_cons]
    omega

private theorem flat {α : Type} {P : List Count → Prop} (h0 : P []) (ha : ∀ a b, P a → P b → P (a ++ b)) (l : List α) (f : α → List Count) (h : ∀ x ∈ l, P (f x)) :
    P (l.flatMap f) := by
  induction l with
  | nil => exact h0
  | cons x l ih => rw [List.flatMap_cons]; exact ha _ _ (h x (by simp)) (ih fun y hy => h y (by simp [hy]))

private theorem one_each {α : Type} (l : List α) (f : α → List Count) (h : ∀ x ∈ l, (f x).countP isResponse + (f x).countP isError = 1) :
    (l.flatMap f).countP isResponse + (l.flatMap f).countP isError = l.length := by
  induction l with
  | nil => rfl
  | cons x l ih =>
    have h1 := h x (by simp)
    have h2 := ih fun y hy => h y (by simp [hy])
    rw [List.flatMap_cons, List.countP_append, List.countP_append, List.length_cons]
    omega

/-! ### DoQ listeners -/

/-- A connection to a DoQ listener -/
structure Conn where
  peer : Str
  sni : Str
  streams : List StreamIn

/-- What the connection leads to on one of its streams -/
def out (lib : Lib) (id : Str) (allowed : List Cidr.IPNet) (x : Conn × StreamIn) : Listeners.Stream :=
  (handleStream lib id allowed x.2.r x.1.peer x.1.sni x.2.hs x.2.sent).out

/-- All streams of the connections that are permitted -/
def open' (allowed : List Cidr.IPNet) (conns : List Conn) : List (Conn × StreamIn) :=
  (conns.filter fun c => isAllowed allowed c.peer).flatMap fun c => c.streams.map fun s => (c, s)

private theorem frame_iff (lib : Lib) (sent : Str) :
    CarriesQuery lib sent ↔ ∃ b q, Listeners.readFrame sent = some b ∧ lib.unpack b = some q ∧ ¬ q.question.length = 0 := by
  constructor
  · rintro ⟨h, l, b, more, q, rfl, hb, hu, hq⟩
    refine ⟨b, q, ?_, hu, fun h0 => hq (List.length_eq_zero_iff.mp h0)⟩
    simp only [Listeners.readFrame]
    rw [if_neg (by simp; omega), List.take_append_of_le_length (by omega), List.take_of_length_le (by omega)]
  · rintro ⟨b, q, hf, hu, hq⟩
    match sent with
    | [] => simp [Listeners.readFrame] at hf
    | [_] => simp [Listeners.readFrame] at hf
    | h :: l :: rest =>
      simp only [Listeners.readFrame] at hf
      split at hf
      · cases hf
      · simp only [Option.some.injEq] at hf
        exact ⟨h, l, b, rest.drop (h.toNat * 256 + l.toNat), q, by rw [← hf, List.take_append_drop], by rw [← hf, List.length_take]; omega, hu,
          fun h0 => hq (by rw [h0]; rfl)⟩

/-- The fates of a stream, with what is counted for them. -/
private inductive Fate (lib : Lib) (sent : Str) : Listeners.Stream → List Count → Prop
  | noQuery (w : Str) (hw : w = str "read" ∨ w = str "unpack" ∨ w = str "noquestion") (h : ¬ CarriesQuery lib sent) : Fate lib sent .closed [.stream, .error w]
  | refused (w : Str) (hw : w = str "keepalive" ∨ w = str "tooearly" ∨ w = str "encode") (h : CarriesQuery lib sent) : Fate lib sent .closed [.stream, .query, .error w]
  | answered (a : Msg) (p : Str) (hp : lib.pack a = some p) (h : CarriesQuery lib sent) :
      Fate lib sent (.written (Listeners.be16 p.length ++ p)) [.stream, .query, .response a.rcode]
  | unsent (a : Msg) (p : Str) (hp : lib.pack a = some p) (h : CarriesQuery lib sent) :
      Fate lib sent (.written (Listeners.be16 p.length ++ p)) [.stream, .query, .error (str "send"), .response a.rcode]

private theorem fate (lib : Lib) (id : Str) (allowed : List Cidr.IPNet) (r : Pipeline) (peer sni : Str) (hs : Listeners.Handshake) (sends : Bool) (sent : Str)
    (ha : isAllowed allowed peer = true) (hc : (handleStream lib id allowed r peer sni hs sent).out ≠ .crash) :
    Fate lib sent (handleStream lib id allowed r peer sni hs sent).out
      (streamCounts lib r { sourceIP := peer, tlsServerName := sni, listener := id } hs sends sent) := by
  have hq := frame_iff lib sent
  unfold handleStream at hc ⊢
  unfold streamCounts
  simp only [ha, Bool.not_true, Bool.false_eq_true, if_false] at hc ⊢
  cases hf : Listeners.readFrame sent with
  | none => exact .noQuery _ (by simp) (by rw [hq]; rintro ⟨b, q, h, -⟩; rw [hf] at h; cases h)
  | some b =>
    simp only [hf] at hc ⊢
    cases hu : lib.unpack b with
    | none => exact .noQuery _ (by simp) (by rw [hq]; rintro ⟨b', q, h, h', -⟩; rw [hf] at h; cases h; rw [hu] at h'; cases h')
    | some q =>
      simp only [hu] at hc ⊢
      by_cases h0 : q.question.length = 0
      · rw [if_pos h0, if_pos h0]
        exact .noQuery _ (by simp) (by rw [hq]; rintro ⟨b', q', h, h', h''⟩; rw [hf] at h; cases h; rw [hu] at h'; cases h'; exact h'' h0)
      · have hcq : CarriesQuery lib sent := hq.mpr ⟨b, q, hf, hu, h0⟩
        rw [if_neg h0] at hc ⊢
        rw [if_neg h0]
        by_cases hk : Listeners.hasKeepAlive q = true
        · rw [if_pos hk, if_pos hk]; exact .refused _ (by simp) hcq
        · rw [if_neg hk] at hc ⊢
          rw [if_neg hk]
          cases hw : Listeners.awaitHandshake q hs with
          | none => exact .refused _ (by simp) hcq
          | some w =>
            simp only [hw] at hc ⊢
            generalize Listeners.answerOr (setRcode q rcodeServerFailure) (r q _) = a at hc ⊢
            cases a with
            | none => exact absurd rfl hc
            | some a =>
              simp only [Listeners.writeStream, writeCounts]
              cases hp : lib.pack a with
              | none => exact .refused _ (by simp) hcq
              | some p =>
                cases sends with
                | true => exact .answered a p hp hcq
                | false => exact .unsent a p hp hcq

open Classical in
private theorem fate_count {lib : Lib} {sent : Str} {o : Listeners.Stream} {k : List Count} {p : Count → Bool} {P : Listeners.Stream → Prop} (h : Fate lib sent o k)
    (hp : ∀ k o, Fate lib sent o k → k.countP p = if P o then 1 else 0) : k.countP p = if decide (P o) = true then 1 else 0 := by
  rw [hp k o h]; simp

private theorem doq_total (lib : Lib) (id : Str) (allowed : List Cidr.IPNet) (conns : List Conn) (p : Count → Bool) (hd : p .drop = false) (hs : p .session = false) :
    (conns.flatMap fun c => connectionCounts lib id allowed c.peer c.sni c.streams).countP p =
    ((open' allowed conns).flatMap fun x => streamCounts lib x.2.r { sourceIP := x.1.peer, tlsServerName := x.1.sni, listener := id } x.2.hs x.2.sends x.2.sent).countP p := by
  induction conns with
  | nil => rfl
  | cons c l ih =>
    rw [List.flatMap_cons, List.countP_append, ih]
    unfold connectionCounts open'
    cases hc : isAllowed allowed c.peer with
    | false => rw [List.filter_cons_of_neg (by simp [hc])]; simp [hd]
    | true =>
      rw [List.filter_cons_of_pos (by simpa using hc), List.flatMap_cons, List.flatMap_append, List.countP_append]
      simp [hs, List.flatMap_map]

private theorem mem_open {allowed : List Cidr.IPNet} {conns : List Conn} {x : Conn × StreamIn} (h : x ∈ open' allowed conns) : isAllowed allowed x.1.peer = true := by
  simp only [open', List.mem_flatMap, List.mem_filter, List.mem_map] at h
  obtain ⟨c, ⟨-, hc⟩, s, -, rfl⟩ := h
  exact hc

open Classical in
/-- C92: over any connections to a DoQ listener with any streams, for as long as it runs: `drop` counts the connections that are not permitted and `session` the others,
`stream` the streams opened on these, `query` the streams on which a message with a question arrives, and `response` those to which an answer was written. Every message that
was counted ends in exactly one of a response and the errors `keepalive`, `tooearly` and `encode`; every stream without one is an error as well. -/
theorem doq_counts (lib : Lib) (id : Str) (allowed : List Cidr.IPNet) (conns : List Conn) (hok : ∀ x ∈ open' allowed conns, out lib id allowed x ≠ .crash) :
    let cs := conns.flatMap fun c => connectionCounts lib id allowed c.peer c.sni c.streams
    cs.count .drop = conns.countP (fun c => !isAllowed allowed c.peer) ∧
    cs.count .session = conns.countP (fun c => isAllowed allowed c.peer) ∧
    cs.count .stream = (open' allowed conns).length ∧
    cs.count .query = (open' allowed conns).countP (fun x => CarriesQuery lib x.2.sent) ∧
    cs.countP isResponse = (open' allowed conns).countP (fun x => Written (out lib id allowed x)) ∧
    cs.count .query = cs.countP isResponse + cs.count (.error (str "keepalive")) + cs.count (.error (str "tooearly")) + cs.count (.error (str "encode")) ∧
    cs.count .stream = cs.count .query + cs.count (.error (str "read")) + cs.count (.error (str "unpack")) + cs.count (.error (str "noquestion")) := by
  intro cs
  have hf : ∀ x ∈ open' allowed conns, Fate lib x.2.sent (out lib id allowed x)
      (streamCounts lib x.2.r { sourceIP := x.1.peer, tlsServerName := x.1.sni, listener := id } x.2.hs x.2.sends x.2.sent) := fun x hx =>
    fate lib id allowed x.2.r x.1.peer x.1.sni x.2.hs x.2.sends x.2.sent (mem_open hx) (hok x hx)
  have hstreams : ∀ (c : Conn) (p : Count → Bool), (∀ k ∈ c.streams.flatMap (fun s => streamCounts lib s.r { sourceIP := c.peer, tlsServerName := c.sni, listener := id } s.hs s.sends s.sent),
      k ≠ .drop ∧ k ≠ .session) := by
    intro c _ k hk
    rw [List.mem_flatMap] at hk
    obtain ⟨s, -, hk⟩ := hk
    simp only [streamCounts, writeCounts, List.mem_cons] at hk
    rcases hk with rfl | hk
    · simp
    · repeat' split at hk
      all_goals simp at hk
      all_goals grind
  refine ⟨?_, ?_, ?_, ?_, ?_, ?_, ?_⟩
  · rw [List.count_eq_countP]
    apply total
    intro c _
    unfold connectionCounts
    cases isAllowed allowed c.peer with
    | false => rfl
    | true =>
      simp only [Bool.not_true, Bool.false_eq_true, if_false]
      rw [List.countP_eq_zero]
      intro k hk
      rcases List.mem_cons.mp hk with rfl | hk
      · simp
      · simpa using ((hstreams c (fun _ => true)) k hk).1
  · rw [List.count_eq_countP]
    apply total
    intro c _
    unfold connectionCounts
    cases isAllowed allowed c.peer with
    | false => rfl
    | true =>
      simp only [Bool.not_true, Bool.false_eq_true, if_false, if_true]
      rw [List.countP_cons, List.countP_eq_zero.mpr]
      · rfl
      · intro k hk
        simpa using ((hstreams c (fun _ => true)) k hk).2
  · rw [List.count_eq_countP, doq_total lib id allowed conns _ rfl rfl, total _ _ _ (fun _ => true) (fun x hx => ?_), List.countP_true]
    exact fate_count (P := fun _ => True) (hf x hx) (fun k o h => by cases h <;> simp [List.countP_cons]) |>.trans (by simp)
  · rw [List.count_eq_countP, doq_total lib id allowed conns _ rfl rfl, total]
    intro x hx
    exact fate_count (P := fun o => CarriesQuery lib x.2.sent) (hf x hx) (fun k o h => by cases h <;> simp [List.countP_cons, *])
  · rw [doq_total lib id allowed conns _ rfl rfl, total]
    intro x hx
    exact fate_count (P := fun o => Written o) (hf x hx) (fun k o h => by cases h <;> simp [List.countP_cons, isResponse, Written])
  · simp only [List.count_eq_countP]
    simp only [cs]
    rw [doq_total lib id allowed conns _ rfl rfl, doq_total lib id allowed conns _ rfl rfl, doq_total lib id allowed conns _ rfl rfl, doq_total lib id allowed conns _ rfl rfl,
      doq_total lib id allowed conns _ rfl rfl]
    apply flat (P := fun t => t.countP (fun x => x == Count.query) = t.countP isResponse + t.countP (fun x => x == Count.error (str "keepalive")) +
      t.countP (fun x => x == Count.error (str "tooearly")) + t.countP (fun x => x == Count.error (str "encode")))
    · simp only [List.countP_nil]
    · intro a b h h'; simp only [List.countP_append] at h h' ⊢; omega
    · intro x hx
      have h := hf x hx
      revert h
      generalize out lib id allowed x = o
      generalize streamCounts lib x.2.r _ x.2.hs x.2.sends x.2.sent = k
      intro h
      cases h with
      | noQuery w hw h => rcases hw with rfl | rfl | rfl <;> decide
      | refused w hw h => rcases hw with rfl | rfl | rfl <;> decide
      | answered a p hp h => simp (decide := true) [List.countP_cons, isResponse]
      | unsent a p hp h => simp (decide := true) [List.countP_cons, isResponse]
  · simp only [List.count_eq_countP]
    simp only [cs]
    rw [doq_total lib id allowed conns _ rfl rfl, doq_total lib id allowed conns _ rfl rfl, doq_total lib id allowed conns _ rfl rfl, doq_total lib id allowed conns _ rfl rfl,
      doq_total lib id allowed conns _ rfl rfl]
    apply flat (P := fun t => t.countP (fun x => x == Count.stream) = t.countP (fun x => x == Count.query) + t.countP (fun x => x == Count.error (str "read")) +
      t.countP (fun x => x == Count.error (str "unpack")) + t.countP (fun x => x == Count.error (str "noquestion")))
    · simp only [List.countP_nil]
    · intro a b h h'; simp only [List.countP_append] at h h' ⊢; omega
    · intro x hx
      have h := hf x hx
      revert h
      generalize out lib id allowed x = o
      generalize streamCounts lib x.2.r _ x.2.hs x.2.sends x.2.sent = k
      intro h
      cases h with
      | noQuery w hw h => rcases hw with rfl | rfl | rfl <;> decide
      | refused w hw h => rcases hw with rfl | rfl | rfl <;> decide
      | answered a p hp h => simp (decide := true) [List.countP_cons]
      | unsent a p hp h => simp (decide := true) [List.countP_cons]

/-- C92: an answer written to a stream is counted, once, under the code it has. (Also if writing it failed, which is then counted as an error besides.) -/
theorem doq_response_code (lib : Lib) (id : Str) (allowed : List Cidr.IPNet) (c : Conn) (s : StreamIn) (b : Str) (h : out lib id allowed (c, s) = .written b) :
    ∃ a p, lib.pack a = some p ∧ b = Listeners.be16 p.length ++ p ∧ ∀ code,
      (streamCounts lib s.r { sourceIP := c.peer, tlsServerName := c.sni, listener := id } s.hs s.sends s.sent).count (.response code) = if a.rcode = code then 1 else 0 := by
  have ha : isAllowed allowed c.peer = true := by
    cases ha : isAllowed allowed c.peer with
    | true => rfl
    | false => simp [out, handleStream, ha] at h
  have hf := fate lib id allowed s.r c.peer c.sni s.hs s.sends s.sent ha (by unfold out at h; simp only at h; rw [h]; simp)
  unfold out at h
  simp only at h
  rw [h] at hf
  revert hf
  generalize streamCounts lib s.r _ s.hs s.sends s.sent = k
  intro hf
  cases hf with
  | answered a p hp h => exact ⟨a, p, hp, rfl, fun code => by simp [List.count_cons]⟩
  | unsent a p hp h => exact ⟨a, p, hp, rfl, fun code => by simp [List.count_cons]⟩

/-! ### Clients -/

/-- How one query at a client ends, with what is counted for it after the query -/
private inductive End : Clients.Outcome → List Count → Prop
  | answer (a : Msg) : End (.answer a) [.response a.rcode]
  | failed (w : Str) : End .failed [.error w]

private theorem end_response (lib : Lib) (q : Msg) (r : Clients.HttpResp) : End (Clients.responseFromHTTP lib q r) (responseCounts lib q r) := by
  unfold Clients.responseFromHTTP responseCounts
  by_cases h : r.status < 200 ∨ r.status > 299
  · rw [if_pos h, if_pos h]; exact .failed _
  · rw [if_neg h, if_neg h]
    cases Clients.readBoundedBody r.body Clients.maxDoHResponseSize with
    | none => exact .failed _
    | some b =>
      simp only
      cases lib.unpack b with
      | none => exact .failed _
      | some a =>
        simp only
        cases Pipeline.validateResponseQuestion q a with
        | true => exact .answer a
        | false => exact .failed _

open Classical in
/-- C92: over any queries at a DoH client, with whatever the network does: `query` counts the queries that could be encoded, `response` by code the answers that the client gave,
and every query that failed is counted under exactly one error. -/
theorem doh_client_counts (lib : Lib) (b64 : Str → Str) (t : Clients.Template) (o : Clients.DoHOpt) (hm : o.method = str "POST" ∨ o.method = str "GET")
    (l : List (Msg × (Clients.HttpReq → Option Clients.HttpResp))) (hok : ∀ x ∈ l, (Clients.dohResolve lib b64 t o x.2 x.1).2 ≠ .crash) :
    let cs := l.flatMap fun x => dohClientCounts lib b64 t o x.2 x.1
    cs.count .query = l.countP (fun x => ∃ m b, Modifiers.padQuery lib.len x.1 = some m ∧ lib.pack m = some b) ∧
    (∀ code, cs.count (.response code) = l.countP (fun x => Answers code (Clients.dohResolve lib b64 t o x.2 x.1).2)) ∧
    cs.countP isError = l.countP (fun x => (Clients.dohResolve lib b64 t o x.2 x.1).2 = .failed) ∧
    cs.countP isResponse + cs.countP isError = l.length := by
  intro cs
  have key : ∀ x ∈ l, (∃ e, End (Clients.dohResolve lib b64 t o x.2 x.1).2 e ∧
      ((dohClientCounts lib b64 t o x.2 x.1 = e ∧ ¬ ∃ m b, Modifiers.padQuery lib.len x.1 = some m ∧ lib.pack m = some b) ∨
       (dohClientCounts lib b64 t o x.2 x.1 = .query :: e ∧ ∃ m b, Modifiers.padQuery lib.len x.1 = some m ∧ lib.pack m = some b))) := by
    intro x hx
    have hc := hok x hx
    revert hc
    unfold Clients.dohResolve dohClientCounts
    cases hp : Modifiers.padQuery lib.len x.1 with
    | none => intro hc; exact absurd rfl hc
    | some q =>
      intro _
      simp only
      cases hb : lib.pack q with
      | none => exact ⟨_, .failed _, Or.inl ⟨rfl, by rintro ⟨m, b, h, h'⟩; cases h; rw [hb] at h'; cases h'⟩⟩
      | some msg =>
        simp only
        cases hr : Clients.buildRequest b64 t o msg q.opcode with
        | none => exact ⟨_, .failed (str "template"), Or.inr ⟨by simp only [buildCounts, hm, if_true], q, msg, rfl, hb⟩⟩
        | some req =>
          simp only
          cases x.2 req with
          | none => exact ⟨_, .failed _, Or.inr ⟨rfl, q, msg, rfl, hb⟩⟩
          | some r => exact ⟨_, end_response lib q r, Or.inr ⟨rfl, q, msg, rfl, hb⟩⟩
  refine ⟨?_, fun code => ?_, ?_, ?_⟩
  · rw [List.count_eq_countP]
    apply total
    intro x hx
    obtain ⟨e, he, ⟨h, h'⟩ | ⟨h, h'⟩⟩ := key x hx <;> rw [h] <;> simp only [h', decide_true, decide_false, if_true, if_false] <;> revert he <;>
      generalize (Clients.dohResolve lib b64 t o x.2 x.1).2 = oc <;> intro he <;> cases he <;> simp [List.countP_cons]
  · rw [List.count_eq_countP]
    apply total
    intro x hx
    obtain ⟨e, he, ⟨h, h'⟩ | ⟨h, h'⟩⟩ := key x hx <;> rw [h] <;> revert he <;>
      generalize (Clients.dohResolve lib b64 t o x.2 x.1).2 = oc <;> intro he <;> cases he <;> simp [List.countP_cons, Answers]
  · apply total
    intro x hx
    obtain ⟨e, he, ⟨h, h'⟩ | ⟨h, h'⟩⟩ := key x hx <;> rw [h] <;> revert he <;>
      generalize (Clients.dohResolve lib b64 t o x.2 x.1).2 = oc <;> intro he <;> cases he <;> simp [List.countP_cons, isError]
  · apply one_each
    intro x hx
    obtain ⟨e, he, ⟨h, h'⟩ | ⟨h, h'⟩⟩ := key x hx <;> rw [h] <;> revert he <;>
      generalize (Clients.dohResolve lib b64 t o x.2 x.1).2 = oc <;> intro he <;> cases he <;> simp [List.countP_cons, isError, isResponse]

private theorem end_accept (lib : Lib) (q : Msg) (b : Str) : End (Clients.doqAccept lib q b) (doqAcceptCounts lib q b) := by
  unfold Clients.doqAccept doqAcceptCounts
  cases lib.unpack b with
  | none => exact .failed _
  | some a =>
    simp only
    split
    · exact .failed _
    · split
      · exact .failed _
      · exact .answer { a with id := q.id }

open Classical in
/-- C92: over any queries at a DoQ client, with whatever the network does: `query` counts them all, `response` by code the answers that the client gave, and every query that
failed is counted under exactly one error. -/
theorem doq_client_counts (lib : Lib) (l : List (Msg × (Str → DoqNet))) :
    let outcome := fun x : Msg × (Str → DoqNet) => (Clients.doqResolve lib (fun b => (x.2 b).bytes) x.1).2
    let cs := l.flatMap fun x => doqClientCounts lib x.2 x.1
    cs.count .query = l.length ∧
    (∀ code, cs.count (.response code) = l.countP (fun x => Answers code (outcome x))) ∧
    cs.countP isError = l.countP (fun x => outcome x = .failed) ∧
    cs.countP isResponse + cs.countP isError = l.length := by
  intro outcome cs
  have key : ∀ x, ∃ e, End (outcome x) e ∧ doqClientCounts lib x.2 x.1 = .query :: e := by
    intro x
    simp only [outcome]
    unfold Clients.doqResolve doqClientCounts
    cases lib.pack (Clients.doqQuery x.1) with
    | none => exact ⟨_, .failed _, rfl⟩
    | some p =>
      simp only
      cases x.2 (Listeners.be16 p.length ++ p) with
      | read r =>
        simp only [DoqNet.bytes]
        cases Listeners.readFrame r with
        | none => exact ⟨_, .failed _, rfl⟩
        | some b => exact ⟨_, end_accept lib x.1 b, rfl⟩
      | _ => exact ⟨_, .failed _, rfl⟩
  refine ⟨?_, fun code => ?_, ?_, ?_⟩
  · rw [List.count_eq_countP, total _ _ _ (fun _ => true) (fun x hx => ?_), List.countP_true]
    obtain ⟨e, he, h⟩ := key x
    rw [h]
    revert he
    generalize outcome x = oc
    intro he
    cases he <;> simp [List.countP_cons]
  · rw [List.count_eq_countP]
    apply total
    intro x hx
    obtain ⟨e, he, h⟩ := key x
    rw [h]
    revert he
    generalize outcome x = oc
    intro he
    cases he <;> simp [List.countP_cons, Answers]
  · apply total
    intro x hx
    obtain ⟨e, he, h⟩ := key x
    rw [h]
    revert he
    generalize outcome x = oc
    intro he
    cases he <;> simp [List.countP_cons, isError]
  · apply one_each
    intro x hx
    obtain ⟨e, he, h⟩ := key x
    rw [h]
    revert he
    generalize outcome x = oc
    intro he
    cases he <;> simp [List.countP_cons, isError, isResponse]

/-- How one query at an ODoH client ends: some failures are not counted. -/
private inductive OEnd : Clients.Outcome → List Count → Prop
  | loud {o : Clients.Outcome} {l : List Count} (h : End o l) : OEnd o l
  | silent : OEnd .failed []

/-- What goes through an ODoH client: the key of the target, the query, and what the network does -/
abbrev Oblivious (o : Clients.OdohLib) := o.Key × Msg × (Clients.HttpReq → Option Clients.HttpResp)

private theorem odoh_end (lib : Lib) (o : Clients.OdohLib) (parses : Str → Bool) (b64 : Str → Str) (t : Clients.Template) (opt : Clients.DoHOpt) (target : Str → Str)
    (net : Clients.HttpReq → Option Clients.HttpResp) (key : o.Key) (q : Msg) :
    OEnd (Clients.odohResolve lib o b64 t opt target net key q).2 (odohCounts lib o parses b64 t opt target net key q) := by
  unfold Clients.odohResolve odohCounts
  cases lib.pack q with
  | none => exact .silent
  | some p =>
    simp only
    cases o.encrypt key p with
    | none => exact .silent
    | some mc =>
      obtain ⟨msg, c⟩ := mc
      simp only
      cases Clients.buildRequest b64 t opt msg q.opcode with
      | none =>
        simp only [buildCounts]
        split
        · exact .loud (.failed _)
        · exact .silent
      | some req =>
        simp only
        cases net { req with url := target req.url, contentType := Clients.odohType } with
        | none => exact .loud (.failed _)
        | some r =>
          simp only [Clients.decodeProxyResponse, proxyCounts]
          split
          · exact .loud (.failed _)
          · split
            · exact .silent
            · cases Clients.readBoundedBody r.body Clients.maxDoHResponseSize with
              | none => exact .loud (.failed _)
              | some b =>
                simp only
                cases o.openAnswer c b with
                | none => exact .loud (.failed _)
                | some p =>
                  simp only
                  cases lib.unpack p with
                  | none => exact .loud (.failed _)
                  | some a =>
                    simp only
                    cases Pipeline.validateResponseQuestion q a with
                    | true => exact .loud (.answer a)
                    | false => exact .loud (.failed _)

open Classical in
/-- C92, findings: over any queries at an ODoH client, the answers are counted by code as at the other clients; but no query is ever counted, and a query that fails is counted as at most
one error, possibly none. -/
theorem odoh_counts (lib : Lib) (o : Clients.OdohLib) (parses : Str → Bool) (b64 : Str → Str) (t : Clients.Template) (opt : Clients.DoHOpt) (target : Str → Str)
    (l : List (Oblivious o)) :
    let outcome := fun x : Oblivious o => (Clients.odohResolve lib o b64 t opt target x.2.2 x.1 x.2.1).2
    let cs := l.flatMap fun x => odohCounts lib o parses b64 t opt target x.2.2 x.1 x.2.1
    cs.count .query = 0 ∧
    (∀ code, cs.count (.response code) = l.countP (fun x => Answers code (outcome x))) ∧
    cs.countP isError ≤ l.countP (fun x => outcome x = .failed) := by
  intro outcome cs
  have key : ∀ x, OEnd (outcome x) (odohCounts lib o parses b64 t opt target x.2.2 x.1 x.2.1) := fun x => odoh_end lib o parses b64 t opt target x.2.2 x.1 x.2.1
  refine ⟨?_, fun code => ?_, ?_⟩
  · rw [List.count_eq_countP]
    refine (total _ _ _ (fun _ => false) ?_).trans (by simp)
    intro x hx
    have h := key x
    revert h
    generalize outcome x = oc
    generalize odohCounts lib o parses b64 t opt target x.2.2 x.1 x.2.1 = k
    intro h
    cases h with
    | silent => rfl
    | loud h => cases h <;> simp [List.countP_cons]
  · rw [List.count_eq_countP]
    apply total
    intro x hx
    have h := key x
    revert h
    generalize outcome x = oc
    generalize odohCounts lib o parses b64 t opt target x.2.2 x.1 x.2.1 = k
    intro h
    cases h with
    | silent => simp [Answers]
    | loud h => cases h <;> simp [List.countP_cons, Answers]
  · have : ∀ l' : List (Oblivious o), (l'.flatMap fun x => odohCounts lib o parses b64 t opt target x.2.2 x.1 x.2.1).countP isError ≤ l'.countP (fun x => outcome x = .failed) := by
      intro l'
      induction l' with
      | nil => simp
      | cons x l' ih =>
        rw [List.flatMap_cons, List.countP_append, List.countP_cons]
        have h := key x
        have : (odohCounts lib o parses b64 t opt target x.2.2 x.1 x.2.1).countP isError ≤ if decide (outcome x = .failed) = true then 1 else 0 := by
          revert h
          generalize outcome x = oc
          generalize odohCounts lib o parses b64 t opt target x.2.2 x.1 x.2.1 = k
          intro h
          cases h with
          | silent => simp
          | loud h => cases h <;> simp [List.countP_cons, isError]
        omega
    exact this l

/-- C92, finding: a reply of the proxy with another content type makes the query fail, and nothing at all is counted. -/
theorem odoh_uncounted (lib : Lib) (o : Clients.OdohLib) (parses : Str → Bool) (b64 : Str → Str) (t : Clients.Template) (opt : Clients.DoHOpt) (target : Str → Str)
    (key : o.Key) (q : Msg) (p msg : Str) (c : o.Ctx) (req : Clients.HttpReq) (hp : lib.pack q = some p) (he : o.encrypt key p = some (msg, c))
    (hr : Clients.buildRequest b64 t opt msg q.opcode = some req) (r : Clients.HttpResp) (h2 : 200 ≤ r.status ∧ r.status ≤ 299)
    (hct : r.contentType ≠ str "application/oblivious-dns-message") :
    (Clients.odohResolve lib o b64 t opt target (fun _ => some r) key q).2 = .failed ∧ odohCounts lib o parses b64 t opt target (fun _ => some r) key q = [] := by
  have h1 : ¬ (r.status < 200 ∨ r.status > 299) := by omega
  have h3 : r.contentType ≠ Clients.odohType := hct
  simp only [Clients.odohResolve, odohCounts, hp, he, hr, Clients.decodeProxyResponse, proxyCounts]
  rw [if_neg h1, if_neg h1, if_pos h3, if_pos h3]
  exact ⟨rfl, rfl⟩

/-! ### Routers and groups -/

private theorem goes_iff (routes : List Route.Route) (target : Nat → Nat) (q : Msg) (qu : Question) (rest : List Question) (hq : q.question = qu :: rest) (ci : ClientInfo)
    (now : Nat → Route.Now) (m : Nat) : Goes routes target q ci now m ↔ ∃ i, Route.routeIndex routes q qu ci now 0 = some i ∧ target i = m := by
  have h := Route.routeIndex_spec q qu ci now routes 0
  constructor
  · rintro ⟨qu', rest', i, r, hq', hr, hm, hn, ht⟩
    rw [hq] at hq'
    cases hq'
    cases hi : Route.routeIndex routes q qu ci now 0 with
    | none => rw [hi] at h; have := h i r hr; rw [Nat.zero_add, hm] at this; cases this
    | some k =>
      rw [hi] at h
      obtain ⟨-, r', hr', hm', hn'⟩ := h
      rw [Nat.sub_zero] at hr' hn'
      rcases Nat.lt_trichotomy i k with hlt | rfl | hlt
      · have := hn' i r hlt hr; rw [Nat.zero_add, hm] at this; cases this
      · exact ⟨i, rfl, ht⟩
      · have := hn k r' hlt hr'; rw [hm'] at this; cases this
  · rintro ⟨i, hi, ht⟩
    rw [hi] at h
    obtain ⟨-, r', hr', hm', hn'⟩ := h
    rw [Nat.sub_zero] at hr' hn'
    exact ⟨qu, rest, i, r', hq, hr', hm', fun j r hj hr => by have := hn' j r hj hr; rwa [Nat.zero_add] at this, ht⟩

/-- One query at a router -/
structure Routed where
  q : Msg
  ci : ClientInfo
  now : Nat → Route.Now
  beh : Nat → Msg → ClientInfo → Res

open Classical in
/-- C92: over any queries with a question at a router, an element is counted as `route` once for each query whose first matching route leads to it, and as `failure` once for each
of these to which it replied with an error. -/
theorem router_counts (routes : List Route.Route) (target : Nat → Nat) (l : List Routed) (hq : ∀ x ∈ l, x.q.question ≠ []) :
    ∃ css, l.mapM (fun x => routerCounts routes target x.beh x.q x.ci x.now) = some css ∧ ∀ m,
      css.flatten.count (.route m) = l.countP (fun x => Goes routes target x.q x.ci x.now m) ∧
      css.flatten.count (.failure m) = l.countP (fun x => Goes routes target x.q x.ci x.now m ∧ (x.beh m x.q x.ci).err.isSome) ∧
      css.flatten.count .failover = 0 := by
  induction l with
  | nil => exact ⟨[], rfl, fun m => ⟨rfl, rfl, rfl⟩⟩
  | cons x l ih =>
    obtain ⟨css, he, hc⟩ := ih fun y hy => hq y (by simp [hy])
    cases hx : x.q.question with
    | nil => exact absurd hx (hq x (by simp))
    | cons qu rest =>
      have hg := goes_iff routes target x.q qu rest hx x.ci x.now
      cases hi : Route.routeIndex routes x.q qu x.ci x.now 0 with
      | none =>
        refine ⟨[] :: css, by rw [List.mapM_cons, he]; simp [routerCounts, hx, hi], fun m => ?_⟩
        obtain ⟨h1, h2, h3⟩ := hc m
        have hno : ¬ Goes routes target x.q x.ci x.now m := by rw [hg, hi]; rintro ⟨i, h, -⟩; cases h
        simp [List.countP_cons, hno, h1, h2, h3]
      | some i =>
        refine ⟨forwardCounts (target i) (x.beh (target i) x.q x.ci) :: css, by rw [List.mapM_cons, he]; simp [routerCounts, hx, hi], fun m => ?_⟩
        obtain ⟨h1, h2, h3⟩ := hc m
        have hyes : Goes routes target x.q x.ci x.now m ↔ target i = m := by rw [hg, hi]; simp
        rw [List.flatten_cons, List.count_append, List.count_append, List.count_append, h1, h2, h3, List.countP_cons, List.countP_cons]
        simp only [hyes, forwardCounts]
        by_cases ht : target i = m
        · subst ht
          cases (x.beh (target i) x.q x.ci).err with
          | none => simp [List.count_cons]; omega
          | some e => simp [List.count_cons]; omega
        · cases (x.beh (target i) x.q x.ci).err with
          | none => simp [List.count_cons, ht]
          | some e => simp [List.count_cons, ht]

/-- C92: the gauge `available` of a router is the number of its routes, if they are added one by one, as the program does (finding: it counts the calls of `Add`). -/
theorem router_gauge (adds : List (List Route.Route)) : routerGauge adds = adds.length ∧ ((∀ a ∈ adds, a.length = 1) → routerGauge adds = adds.flatten.length) := by
  have h : ∀ (l : List (List Route.Route)) (n : Nat), l.foldl (fun n _ => n + 1) n = n + l.length := by
    intro l
    induction l with
    | nil => simp
    | cons a l ih => intro n; rw [List.foldl_cons, ih, List.length_cons]; omega
  have h1 : routerGauge adds = adds.length := by unfold routerGauge; rw [h]; omega
  refine ⟨h1, fun ha => ?_⟩
  rw [h1]
  clear h1
  induction adds with
  | nil => rfl
  | cons a l ih => rw [List.flatten_cons, List.length_append, ha a (by simp), ← ih fun b hb => ha b (by simp [hb]), List.length_cons]; omega

private theorem round_picks (n : Nat) (m : Nat) : ∀ (l : List (Nat → Res)) (c : Nat),
    (roundRobinCounts n c l).count (.route m) = (Group.roundRobinPicks n l.length c).count m ∧
    (roundRobinCounts n c l).count (.failure m) = ((Group.roundRobinPicks n l.length c).zip l).countP (fun x => x.1 = m && (x.2 m).err.isSome)
  | [], c => by simp [roundRobinCounts, Group.roundRobinPicks]
  | beh :: l, c => by
    obtain ⟨h1, h2⟩ := round_picks n m l (Group.roundRobinPick n c).2
    simp only [roundRobinCounts, Group.roundRobinPicks, List.length_cons, List.count_append, h1, h2, List.zip_cons_cons, List.count_cons, List.countP_cons, forwardCounts]
    by_cases hm : (Group.roundRobinPick n c).1 = m
    · subst hm
      cases (beh (Group.roundRobinPick n c).1).err with
      | none => simp [List.count_cons]; omega
      | some e => simp [List.count_cons]; omega
    · cases (beh (Group.roundRobinPick n c).1).err with
      | none => simp [List.count_cons, hm]
      | some e => simp [List.count_cons, hm]

/-- C92: in a round-robin group of `n`, after any number of queries: the routes to each member are, up to one, the `n`th part of the queries; member number `m`
is counted as failing once for each query that it was given and answered with an error, the queries being given to the members in turn. -/
theorem roundrobin_counts (n : Nat) (hn : 0 < n) (l : List (Nat → Res)) (m : Nat) (hm : m < n) :
    l.length / n ≤ (roundRobinCounts n 0 l).count (.route m) ∧ (roundRobinCounts n 0 l).count (.route m) ≤ (l.length + n - 1) / n ∧
    (roundRobinCounts n 0 l).count (.failure m) = l.zipIdx.countP (fun x => x.2 % n = m && (x.1 m).err.isSome) := by
  obtain ⟨h1, h2⟩ := round_picks n m l 0
  obtain ⟨h3, h4⟩ := Group.roundrobin_fair n hn 0 hn l.length m hm
  refine ⟨by rw [h1]; exact h3, by rw [h1]; exact h4, ?_⟩
  rw [h2]
  have : ∀ (l : List (Nat → Res)) (i : Nat), ((Group.roundRobinPicks n l.length (i % n)).zip l).countP (fun x => x.1 = m && (x.2 m).err.isSome) =
      (l.zipIdx i).countP (fun x => x.2 % n = m && (x.1 m).err.isSome) := by
    intro l
    induction l with
    | nil => intro i; simp
    | cons beh l ih =>
      intro i
      simp only [List.length_cons, Group.roundRobinPicks, Group.roundRobinPick, List.zip_cons_cons, List.countP_cons, List.zipIdx_cons]
      rw [← ih (i + 1), Nat.mod_add_mod]
  have h := this l 0
  rwa [Nat.zero_mod] at h

private theorem balance_log (ok : Res → Bool) (beh : Nat → Res) (choose : Nat → Nat) : ∀ (fuel round : Nat) (remaining : List Nat) (last res : Res) (asked : List Nat),
    Balance.loop ok beh choose fuel round remaining last = some (res, asked) → ∀ m,
    (balanceCounts ok beh choose fuel round remaining).count (.route m) = asked.count m ∧
    (balanceCounts ok beh choose fuel round remaining).count (.failure m) = asked.countP (fun k => k = m && !ok (beh k)) ∧
    (balanceCounts ok beh choose fuel round remaining).count .failover = asked.countP (fun k => !ok (beh k))
  | 0, _, _, _, _, _, h, m => by
    simp only [Balance.loop, Option.some.injEq, Prod.mk.injEq] at h
    obtain ⟨-, rfl⟩ := h
    simp [balanceCounts]
  | fuel + 1, round, remaining, last, res, asked, h, m => by
    unfold Balance.loop at h
    unfold balanceCounts
    cases hi : remaining[choose round]? with
    | none => rw [hi] at h; cases h
    | some idx =>
      rw [hi] at h
      simp only at h ⊢
      cases hok : ok (beh idx) with
      | true =>
        rw [hok, if_pos rfl] at h
        cases h
        simp [List.count_cons, hok]
      | false =>
        rw [hok] at h
        simp only [Bool.false_eq_true, if_false] at h ⊢
        split at h
        · cases h
        · rename_i res' asked' hl
          cases h
          obtain ⟨h1, h2, h3⟩ := balance_log ok beh choose fuel (round + 1) _ _ _ _ hl m
          simp only [List.count_cons, List.countP_cons, h1, h2, h3, hok]
          by_cases hm : idx = m <;> simp [hm]

/-- C92: for every query at a load balancer, each member that is asked is counted as a route, once; those whose reply does not count as success are counted as failures, and each
of these as a failover too, also the last; the routes are the failovers, and one more if the query succeeds. -/
theorem balance_counts (n : Nat) (hn : 0 < n) (servfailErr emptyErr : Bool) (beh : Nat → Res) (choose : Nat → Nat) (hch : ∀ i, i < n → choose i < n - i) :
    let ok := Group.succeeded servfailErr emptyErr
    let cs := balanceCounts ok beh choose n 0 (List.range n)
    ∃ res asked, Balance.resolve n ok beh choose = some (res, asked) ∧
      (∀ m, cs.count (.route m) = if m ∈ asked then 1 else 0) ∧
      (∀ m, cs.count (.failure m) = if m ∈ asked ∧ ok (beh m) = false then 1 else 0) ∧
      asked.length = cs.count .failover + (if ok res then 1 else 0) := by
  intro ok cs
  obtain ⟨res, asked, he, hs⟩ := Balance.loadbalance_each_once n hn servfailErr emptyErr beh choose hch
  have hl := balance_log ok beh choose n 0 (List.range n) Res.drop res asked he
  refine ⟨res, asked, he, fun m => ?_, fun m => ?_, ?_⟩
  · rw [(hl m).1, hs.once.count]
  · rw [(hl m).2.1]
    have : ∀ l : List Nat, l.Nodup → l.countP (fun k => k = m && !ok (beh k)) = if m ∈ l ∧ ok (beh m) = false then 1 else 0 := by
      intro l
      induction l with
      | nil => simp
      | cons k l ih =>
        intro hnd
        obtain ⟨hk, hnd⟩ := List.nodup_cons.mp hnd
        rw [List.countP_cons, ih hnd]
        by_cases hkm : k = m
        · subst hkm
          cases hok : ok (beh k) <;> simp [hok, hk]
        · have : ¬ m = k := fun h => hkm h.symm
          simp [hkm, this]
    exact this asked hs.once
  · rw [(hl 0).2.2]
    have hne : asked ≠ [] := by
      intro h0
      rcases hs.result with ⟨m, hm, -⟩ | ⟨-, m, hm, -⟩ <;> rw [h0] at hm <;> cases hm
    obtain ⟨last, hlast⟩ : ∃ m, asked.getLast? = some m ∧ res = beh m := by
      rcases hs.result with ⟨m, hm, hr, -⟩ | ⟨-, m, hm, hr⟩ <;> exact ⟨m, hm, hr⟩
    obtain ⟨init, rfl⟩ := List.getLast?_eq_some_iff.mp hlast.1
    have hst := hs.stops
    rw [List.dropLast_concat] at hst
    rw [List.countP_append, List.length_append, List.countP_eq_length.mpr fun k hk => by
      have := hst k hk
      simp only [Bool.not_eq_true] at this
      simp only [ok, this, Bool.not_false]]
    rw [hlast.2]
    cases hok : ok (beh last) <;> simp [hok]

/-! ### Examples -/

private def exLib : Lib :=
  { len := fun m => 30 + 100 * m.answer.length
    truncate := fun m _ => m
    pack := fun m => if m.rcode = 9 then none else some [UInt8.ofNat m.id, UInt8.ofNat m.opcode, (m.question.head?.bind (·.name.head?)).getD 0]
    unpack := fun b => match b with
      | [i, op, n] => some { id := i.toNat, opcode := op.toNat, response := true, question := [⟨[n, 46], 1, 1⟩] }
      | [_, _] => some { question := [] }
      | _ => none
    parseIP := fun _ => none }
private def exQ : Msg := { id := 7, question := [⟨str "A.", 1, 1⟩] }
private def pipe (c : Nat) : Pipeline := fun q _ => .ok { q with rcode := c }
private def exNet : Cidr.IPNet := ⟨[10, 0, 0, 0], 8⟩
private def exConns : List Conn := [⟨[10, 0, 0, 1], [], [⟨pipe 3, .complete, true, [0, 3, 1, 0, 65]⟩, ⟨pipe 0, .failed, true, [0, 3, 1, 5, 65]⟩, ⟨pipe 9, .complete, true, [0, 3, 1, 0, 65]⟩,
  ⟨pipe 0, .complete, false, [0, 3, 1, 0, 65]⟩, ⟨pipe 0, .complete, true, [0, 2, 1, 0]⟩, ⟨pipe 0, .complete, true, [0, 5, 1]⟩]⟩, ⟨[11, 0, 0, 1], [], [⟨pipe 3, .complete, true, [0, 3, 1, 0, 65]⟩]⟩]

/-- An answer, an update sent too early, an answer that cannot be encoded, one that cannot be sent, a message without question, a stream that ends early; and a client
that is not allowed -/
example : (∀ x ∈ open' [exNet] exConns, out exLib [] [exNet] x ≠ .crash) ∧ (open' [exNet] exConns).length = 6 ∧
    exConns.flatMap (fun c => connectionCounts exLib [] [exNet] c.peer c.sni c.streams) = [.session, .stream, .query, .response 3, .stream, .query, .error (str "tooearly"),
      .stream, .query, .error (str "encode"), .stream, .query, .error (str "send"), .response 0, .stream, .error (str "noquestion"), .stream, .error (str "read"), .drop] := by
  decide +kernel

private def exT : Clients.Template := { names := [str "dns"], expand := fun v => match v with | some x => some (str "u?dns=" ++ x) | none => some (str "u") }
private def exHttp : List (Msg × (Clients.HttpReq → Option Clients.HttpResp)) := [(exQ, fun _ => some ⟨200, [], some [7, 0, 97]⟩), (exQ, fun _ => some ⟨404, [], some []⟩), (exQ, fun _ => none),
  (exQ, fun _ => some ⟨200, [], some [7, 0, 98]⟩), ({ exQ with rcode := 9 }, fun _ => none)]

/-- Over HTTPS: an answer, another status, no reply, an answer to another question, a query that cannot be packed -/
example : (∀ x ∈ exHttp, (Clients.dohResolve exLib id exT { method := str "POST" } x.2 x.1).2 ≠ .crash) ∧
    exHttp.map (fun x => dohClientCounts exLib id exT { method := str "POST" } x.2 x.1) =
      [[.query, .response 0], [.query, .error (str "http404")], [.query, .error (str "POST")], [.query, .error (str "question")], [.error (str "pack")]] := by
  decide +kernel

/-- Over QUIC: an answer, no stream, half an answer -/
example : doqClientCounts exLib (fun b => .read b) exQ = [.query, .response 0] ∧ doqClientCounts exLib (fun _ => .noStream) exQ = [.query, .error (str "getstream")] ∧
    doqClientCounts exLib (fun _ => .read [0, 3, 1]) exQ = [.query, .error (str "read")] := by decide +kernel

private def exOdoh : Clients.OdohLib :=
  { Key := UInt8, Ctx := UInt8, hex := some, configs := fun b => some b, encrypt := fun k m => some (k :: m, k)
    openAnswer := fun k m => match m with | x :: m => if x = k then some m else none | [] => none }
/-- An answer, one that cannot be decrypted, and one of another content type -/
example : odohCounts exLib exOdoh (fun _ => true) id exT { method := str "POST" } id (fun r => some ⟨200, Clients.odohType, some r.body⟩) (5 : UInt8) exQ = [.response 0] ∧
    odohCounts exLib exOdoh (fun _ => true) id exT { method := str "POST" } id (fun r => some ⟨200, Clients.odohType, some (6 :: r.body)⟩) (5 : UInt8) exQ = [.error (str "decrypt")] ∧
    odohCounts exLib exOdoh (fun _ => true) id exT { method := str "POST" } id (fun r => some ⟨200, str "text/html", some r.body⟩) (5 : UInt8) exQ = [] := by decide +kernel

private def exRoute (names : Str → Bool) : Route.Route := ⟨[], 0, names, none, none, [], none, none, false, fun _ => true, fun _ => true, fun _ => true⟩
/-- Two routes to the same element, which fails, and none for other names -/
example : (routerCounts [exRoute (· = str "B."), exRoute (· = str "A.")] (fun _ => 4) (fun _ _ _ => .fail "x") exQ { sourceIP := [], tlsServerName := [], listener := [] } (fun _ => ⟨0, 0, 0⟩)) =
      some [.route 4, .failure 4] ∧
    (routerCounts [exRoute (· = str "B.")] (fun _ => 4) (fun _ _ _ => .fail "x") exQ { sourceIP := [], tlsServerName := [], listener := [] } (fun _ => ⟨0, 0, 0⟩)) = some [] := by
  decide +kernel

/-- Three queries to two members, of which the second fails; and a load balancer whose first choice fails -/
example : roundRobinCounts 2 0 [fun _ => .ok exQ, fun _ => .fail "x", fun _ => .ok exQ] = [.route 0, .route 1, .failure 1, .route 0] ∧
    balanceCounts (Group.succeeded false false) (fun m => if m = 1 then .fail "x" else .ok exQ) (fun i => 1 - i) 3 0 (List.range 3) = [.route 1, .failure 1, .failover, .route 0] := by
  decide +kernel

end Verif.Props.MoreCounters
