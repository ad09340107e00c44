import Verif.Spec.Listeners
import Verif.Props.Modifiers
import Verif.Props.Route
/-
C53: DNS listeners. C54: the client of an HTTP request. C55 (listeners). C63: drops. C65: reads of a DTLS connection.
-/
set_option linter.unusedVariables false
set_option linter.unusedSimpArgs false
namespace Verif.Props.Listeners
open Verif Verif.Net Verif.Listeners Verif.Spec.Listeners Verif.Edns0

private theorem allowed_iff (nets : List Cidr.IPNet) (ip : Str) (h : WellFormed nets ip) : isAllowed nets ip = true ↔ Admits nets ip := by
  unfold isAllowed Admits
  cases nets with
  | nil => simp
  | cons n ns =>
    rw [if_neg (by simp), List.any_eq_true]
    constructor
    · rintro ⟨m, hm, hc⟩
      exact Or.inr ⟨m, hm, (Route.route_contains m (h.1 m hm) ip h.2).mp hc⟩
    · rintro (h0 | ⟨m, hm, hc⟩)
      · cases h0
      · exact ⟨m, hm, (Route.route_contains m (h.1 m hm) ip h.2).mpr hc⟩

private theorem failure_set (req : Msg) (rc : Nat) : Failure req rc (setRcode req rc) := ⟨rfl, rfl, rfl, rfl, rfl, rfl, rfl, rfl⟩
private theorem failure_serv (req : Msg) : Failure req 2 (servfail req) := ⟨rfl, rfl, rfl, rfl, rfl, rfl, rfl, rfl⟩

private theorem strip_only (a : Msg) : ButPadding a (Modifiers.stripPadding a) ∧ NoPadding (Modifiers.stripPadding a) := by
  unfold Modifiers.stripPadding
  constructor
  · cases h : a.edns? with
    | none => exact Or.inl (mapEdns_none a _ h)
    | some e => exact Or.inr (Or.inl ⟨e, _, h, mapEdns_some a _ e h, by simp [List.filter_filter]⟩)
  · intro e he
    rw [edns_mapEdns] at he
    cases h : a.edns? with
    | none => rw [h] at he; simp at he
    | some e' =>
      rw [h] at he
      obtain rfl := Option.some.inj he
      intro o ho
      simp only [List.mem_filter] at ho
      simpa using ho.2

private theorem pad_only (len : Msg → Nat) (req a : Msg) (h : Decoded a) : ∃ b, Modifiers.padAnswer len req a = some b ∧ ButPadding a b := by
  obtain ⟨b, h1, h2⟩ := Modifiers.pad_answer_other len req a h
  refine ⟨b, h1, ?_⟩
  rcases h2 with h2 | ⟨ea, os, h2, h3⟩ | h2
  · exact Or.inl h2
  · exact Or.inr (Or.inl ⟨ea, os, (replaced_edns h2).1, h2, h3⟩)
  · exact Or.inr (Or.inr h2)

private theorem decoded_failure {req m : Msg} {rc : Nat} (h : Failure req rc m) : Decoded m := by
  intro e he
  unfold Msg.edns? at he
  rw [h.2.2.2.2.2.2.2] at he
  simp at he

/-- UDP listeners restricted to an IP version are told apart -/
private def Restricted : Transport → Prop
  | .udp v => v ≠ 0
  | _ => False

private theorem finish_shown (lib : Lib) (t : Transport) (ht : t.Valid) (hu : ¬ Restricted t) (req a : Msg) (hd : t.Encrypted → Decoded a) :
    Shown lib t req a (finish lib t.protocol req a) := by
  obtain ⟨s1, s2⟩ := strip_only a
  cases t with
  | udp v =>
    have hv : v = 0 := Decidable.not_not.mp hu
    subst hv
    exact ⟨_, s1, s2, rfl⟩
  | tcp v =>
    refine ⟨_, s1, s2, ?_⟩
    rcases ht with rfl | rfl | rfl <;> rfl
  | dot =>
    obtain ⟨b, h1, h2⟩ := pad_only lib.len req a (hd trivial)
    refine ⟨b, h2, ?_⟩
    show finish lib (str "dot") req a = _
    unfold finish
    rw [if_pos (Or.inl rfl), h1]
    rfl
  | dtls =>
    obtain ⟨b, h1, h2⟩ := pad_only lib.len req a (hd trivial)
    refine ⟨b, h2, ?_⟩
    show finish lib (str "dtls") req a = _
    unfold finish
    rw [if_pos (Or.inr rfl), h1]
    rfl

/-- C53: what a UDP, TCP, TLS or DTLS listener does with a query, for all queries, clients, allowed networks and pipelines. A query without a question is dropped. A client that is
not admitted gets REFUSED, and the pipeline is not called. Every other query goes to the pipeline once, unchanged; an error becomes SERVFAIL, no result closes the connection,
and a result is sent back, changed only in its padding, and cut to what the client takes over UDP and DTLS. There is at most one response.
UDP listeners restricted to an IP version are left out (`udp_restricted_not_cut`). -/
theorem dns_listener (lib : Lib) (id : Str) (t : Transport) (ht : t.Valid) (hu : ∀ v, t = .udp v → v = 0) (r : Pipeline) (nets : List Cidr.IPNet) (peer sni : Str)
    (hw : WellFormed nets peer) (req : Msg) :
    let h := listenHandler lib id t.protocol r nets peer sni req
    let ci : ClientInfo := { sourceIP := peer, tlsServerName := sni, listener := id }
    (req.question = [] → h.calls = [] ∧ h.out = .silent) ∧
    (req.question ≠ [] → ¬ Admits nets peer → h.calls = [] ∧ ∃ m, Failure req 5 m ∧ Shown lib t req m h.out) ∧
    (req.question ≠ [] → Admits nets peer → h.calls = [(req, ci)] ∧
      (∀ e, (r req ci).err = some e → ∃ m, Failure req 2 m ∧ Shown lib t req m h.out) ∧
      (r req ci = ⟨none, none⟩ → h.out = .closed) ∧
      (∀ a, r req ci = ⟨some a, none⟩ → (t.Encrypted → Decoded a) → Shown lib t req a h.out)) := by
  intro h ci
  have hr : ¬ Restricted t := by
    cases t with
    | udp v => exact fun h => h (hu v rfl)
    | _ => exact fun h => h
  have hal := allowed_iff nets peer hw
  refine ⟨?_, ?_, ?_⟩
  · intro hq
    have : h = { calls := [], out := .silent } := by
      show listenHandler _ _ _ _ _ _ _ _ = _
      unfold listenHandler; rw [if_pos (by simp [hq])]
    rw [this]; exact ⟨rfl, rfl⟩
  · intro hq hna
    have : h = { calls := [], out := conclude lib t.protocol req (some (setRcode req rcodeRefused)) } := by
      show listenHandler _ _ _ _ _ _ _ _ = _
      unfold listenHandler; rw [if_neg (by simpa using hq), if_neg (by rw [hal]; exact hna)]
    rw [this]
    exact ⟨rfl, _, failure_set req 5, finish_shown lib t ht hr req _ (fun _ => decoded_failure (failure_set req 5))⟩
  · intro hq ha
    have : h = { calls := [(req, ci)], out := conclude lib t.protocol req (answerOr (servfail req) (r req ci)) } := by
      show listenHandler _ _ _ _ _ _ _ _ = _
      unfold listenHandler; rw [if_neg (by simpa using hq), if_pos (hal.mpr ha)]
    rw [this]
    refine ⟨rfl, ?_, ?_, ?_⟩
    · intro e he
      simp only [answerOr, he]
      exact ⟨_, failure_serv req, finish_shown lib t ht hr req _ (fun _ => decoded_failure (failure_serv req))⟩
    · intro he
      simp only [answerOr, he]; rfl
    · intro a he hd
      simp only [answerOr, he]
      exact finish_shown lib t ht hr req a hd

/-- C53: with the documented behaviour of `dns.Msg.Truncate`, a response over UDP or DTLS fits the size the client takes (512 bytes at least), provided that header, question
and OPT record do; it is part of the message, and the client is told if anything was left out. -/
theorem datagram_fits (lib : Lib) (small : Msg → Nat → Prop) (hl : Truncates lib small) (t : Transport) (ht : t = .udp 0 ∨ t = .dtls) (req a : Msg) (w : Wire)
    (h : Shown lib t req a w) : ∃ b m, ButPadding a b ∧ w = .reply m ∧ Cut b m ∧ (small b (max (limit req) 512) → lib.len m ≤ max (limit req) 512) := by
  obtain ⟨b, h1, h2⟩ := h
  rcases ht with rfl | rfl
  · exact ⟨b, _, h1, h2.2, hl.cut b _, hl.fits b _⟩
  · exact ⟨b, _, h1, h2, hl.cut b _, hl.fits b _⟩

/-- Finding (C53): a UDP listener restricted to IPv4 or IPv6 (`ip-version`) never cuts its responses: whatever the client can take, the whole message is sent. -/
theorem udp_restricted_not_cut (lib : Lib) (id : Str) (v : Nat) (hv : v = 4 ∨ v = 6) (r : Pipeline) (peer sni : Str) (req a : Msg) (hq : req.question ≠ [])
    (ha : r req { sourceIP := peer, tlsServerName := sni, listener := id } = ⟨some a, none⟩) :
    ∃ b, ButPadding a b ∧ (listenHandler lib id (Transport.udp v).protocol r [] peer sni req).out = .reply b := by
  refine ⟨Modifiers.stripPadding a, (strip_only a).1, ?_⟩
  unfold listenHandler
  rw [if_neg (by simpa using hq), if_pos (by rfl)]
  simp only [answerOr, ha, conclude]
  rcases hv with rfl | rfl <;> rfl

/-! ### The client of an HTTP request -/

private theorem after_comma (pre e : Str) (h : 44 ∉ e) : afterLastComma (pre ++ 44 :: e) = e := by
  unfold afterLastComma
  have : (pre ++ 44 :: e).reverse = e.reverse ++ 44 :: pre.reverse := by simp
  rw [this, List.takeWhile_append_of_pos (by intro x hx; simp only [List.mem_reverse] at hx; simp only [decide_eq_true_eq]; rintro rfl; exact h hx)]
  simp

private theorem after_none (e : Str) (h : 44 ∉ e) : afterLastComma e = e := by
  unfold afterLastComma
  have : List.takeWhile (fun x => decide (x ≠ 44)) e.reverse = e.reverse := by
    have := List.takeWhile_append_of_pos (p := fun x : UInt8 => decide (x ≠ 44)) (l₁ := e.reverse) (l₂ := []) (by intro x hx; simp only [List.mem_reverse] at hx; simp only [decide_eq_true_eq]; rintro rfl; exact h hx)
    simpa using this
  rw [this]; simp

private theorem split_ne (s : Str) : splitOn 44 s ≠ [] := by
  cases s with
  | nil => simp [splitOn]
  | cons c cs =>
    unfold splitOn
    split
    · simp
    · split <;> simp

private theorem split_last (s : Str) : ∃ e, (splitOn 44 s).getLast? = some e ∧ 44 ∉ e ∧ ((∃ pre, s = pre ++ 44 :: e) ∨ s = e) := by
  induction s with
  | nil => exact ⟨[], rfl, by simp, Or.inr rfl⟩
  | cons c cs ih =>
    obtain ⟨e, h1, h2, h3⟩ := ih
    unfold splitOn
    by_cases hc : c = 44
    · rw [if_pos hc]
      refine ⟨e, ?_, h2, ?_⟩
      · rw [List.getLast?_cons, h1]; rfl
      · rcases h3 with ⟨pre, h3⟩ | h3
        · exact Or.inl ⟨c :: pre, by rw [h3]; rfl⟩
        · exact Or.inl ⟨[], by rw [h3, hc]; rfl⟩
    · rw [if_neg hc]
      cases hs : splitOn 44 cs with
      | nil => exact absurd hs (split_ne cs)
      | cons p ps =>
        rw [hs] at h1
        cases ps with
        | nil =>
          simp only [List.getLast?_singleton, Option.some.injEq] at h1
          subst h1
          have hn : 44 ∉ c :: p := by simp; exact ⟨fun h => hc h.symm, h2⟩
          refine ⟨c :: p, rfl, hn, ?_⟩
          rcases h3 with ⟨pre, h3⟩ | h3
          · exfalso
            have : ∀ (s : Str), 44 ∈ s → ∃ a b l, splitOn 44 s = a :: b :: l := by
              intro s
              induction s with
              | nil => simp
              | cons d ds ih =>
                intro hm
                unfold splitOn
                by_cases hd : d = 44
                · rw [if_pos hd]
                  cases hh : splitOn 44 ds with
                  | nil => exact absurd hh (split_ne ds)
                  | cons x xs => exact ⟨_, _, _, rfl⟩
                · rw [if_neg hd]
                  obtain ⟨a, b, l, hl⟩ := ih (by rcases List.mem_cons.mp hm with h | h; exact absurd h.symm hd; exact h)
                  rw [hl]; exact ⟨_, _, _, rfl⟩
            obtain ⟨a, b, l, hl⟩ := this cs (by rw [h3]; simp)
            rw [hs] at hl; simp at hl
          · exact Or.inr (by rw [h3])
        | cons q qs =>
          refine ⟨e, ?_, h2, ?_⟩
          · rw [← h1]; rfl
          · rcases h3 with ⟨pre, h3⟩ | h3
            · exact Or.inl ⟨c :: pre, by rw [h3]; rfl⟩
            · exfalso
              rw [h3] at hs
              have : ∀ (s : Str), 44 ∉ s → splitOn 44 s = [s] := by
                intro s
                induction s with
                | nil => intro _; rfl
                | cons d ds ih =>
                  intro hm
                  simp only [List.mem_cons, not_or] at hm
                  unfold splitOn
                  rw [if_neg (fun h => hm.1 h.symm), ih hm.2]
              rw [this e h2] at hs; simp at hs

private theorem trim_blank (e : Str) : trimSpace (32 :: e) = trimSpace e := by
  unfold trimSpace
  rw [List.dropWhile_cons_of_pos (by decide)]

/-- The last forwarded address: of the last line that is there, up to a blank in front. -/
private theorem last_forwarded (lines : List Str) (hl : lines ≠ []) :
    ∃ e, (forwarded lines).getLast? = some e ∧ trimSpace (afterLastComma (joinHeader lines)) = trimSpace e := by
  unfold forwarded
  induction lines with
  | nil => exact absurd rfl hl
  | cons p ps ih =>
    cases ps with
    | nil =>
      obtain ⟨e, h1, h2, h3⟩ := split_last p
      refine ⟨e, by simpa using h1, ?_⟩
      show trimSpace (afterLastComma p) = _
      rcases h3 with ⟨pre, h3⟩ | h3
      · rw [h3, after_comma pre e h2]
      · rw [h3, after_none e h2]
    | cons q qs =>
      obtain ⟨e, h1, h2⟩ := ih (by simp)
      refine ⟨e, ?_, ?_⟩
      · rw [List.flatMap_cons, List.getLast?_append, h1]; rfl
      · rw [← h2]
        show trimSpace (afterLastComma (p ++ 44 :: 32 :: joinHeader (q :: qs))) = _
        generalize joinHeader (q :: qs) = j
        by_cases hj : 44 ∈ j
        · obtain ⟨e', _, g2, g3⟩ := split_last j
          rcases g3 with ⟨pre, g3⟩ | g3
          · rw [g3, after_comma pre e' g2]
            have : p ++ 44 :: 32 :: (pre ++ 44 :: e') = (p ++ 44 :: 32 :: pre) ++ 44 :: e' := by simp
            rw [this, after_comma _ e' g2]
          · exact absurd (g3 ▸ hj) g2
        · rw [after_none j hj, after_comma p (32 :: j) (by simp [hj]), trim_blank]

private theorem loopback_iff (ip : Str) : isLoopback ip = true ↔ Loopback ip := by
  unfold isLoopback Loopback
  cases h : to4 ip with
  | none => simp [List.replicate]
  | some ip4 =>
    have hlen : ip4.length = 4 := by
      unfold to4 at h
      split at h
      · obtain rfl := Option.some.inj h; assumption
      · split at h
        · obtain rfl := Option.some.inj h; simp; omega
        · cases h
    have hne : ip ≠ [0, 0, 0, 0, 0, 0, 0, 0, 0, 0, 0, 0, 0, 0, 0, 1] := by
      rintro rfl
      simp [to4, v4Prefix] at h
    obtain _ | ⟨a, _ | ⟨b, _ | ⟨c, _ | ⟨d, _ | ⟨x, l⟩⟩⟩⟩⟩ := ip4 <;> simp at hlen
    simp [hne]

/-- C54: the client address of an HTTP request is the one the specification gives: it is taken from a header only if the peer is a trusted proxy, and then it is the last
address in all header lines. `net.ParseIP` may be any function that refuses the empty text. -/
theorem doh_client (parseIP : Str → Option Str) (h0 : parseIP [] = none) (hp : ∀ s ip, parseIP s = some ip → ip.length = 4 ∨ ip.length = 16) (proxy : Option Cidr.IPNet)
    (hn : ∀ n, proxy = some n → n.ip.length = 4 ∨ n.ip.length = 16) (remoteHost : Str) (lines : List Str) :
    Client parseIP proxy (parseIP remoteHost) lines (extractClientAddress parseIP proxy remoteHost lines) := by
  unfold extractClientAddress
  cases hx : proxy with
  | none => exact Or.inr ⟨rfl, by rintro ⟨n, p, e, f, h, _⟩; simp at h⟩
  | some n =>
    have last : joinHeader lines ≠ [] → ∃ e, (forwarded lines).getLast? = some e ∧ trimSpace (afterLastComma (joinHeader lines)) = trimSpace e :=
      fun hj => last_forwarded lines (by rintro rfl; exact hj rfl)
    by_cases hj : joinHeader lines = []
    · simp only [hj, if_pos]
      refine Or.inr ⟨rfl, ?_⟩
      rintro ⟨n', p, e, f, _, _, _, he, hf, _⟩
      have : e = [] := by
        cases lines with
        | nil => simp [forwarded] at he
        | cons p ps =>
          cases ps with
          | nil =>
            have : p = [] := hj
            subst this
            simp [forwarded, splitOn] at he
            exact he
          | cons q qs => simp [joinHeader] at hj
      subst this
      rw [show trimSpace [] = [] from rfl, h0] at hf
      cases hf
    · obtain ⟨e, l1, l2⟩ := last hj
      simp only [if_neg hj]
      cases hc : parseIP remoteHost with
      | none => exact Or.inr ⟨rfl, by rintro ⟨_, p, _, _, _, h, _⟩; simp at h⟩
      | some ip =>
        have hcon := Route.route_contains n (hn n hx) ip (Or.inr (hp _ _ hc))
        simp only []
        by_cases hin : Verif.Route.contains n ip = true
        · rw [if_pos hin, l2]
          cases hf : parseIP (trimSpace e) with
          | none =>
            refine Or.inr ⟨rfl, ?_⟩
            rintro ⟨n', p, e', f, _, _, _, he, hf', _⟩
            rw [l1] at he
            obtain rfl := Option.some.inj he
            rw [hf] at hf'; cases hf'
          | some fwd =>
            simp only []
            by_cases hlo : isLoopback fwd = true
            · rw [if_pos hlo]
              refine Or.inr ⟨rfl, ?_⟩
              rintro ⟨n', p, e', f, _, _, _, he, hf', hnl⟩
              rw [l1] at he
              obtain rfl := Option.some.inj he
              rw [hf] at hf'
              obtain rfl := Option.some.inj hf'
              exact hnl ((loopback_iff _).mp hlo)
            · rw [if_neg hlo]
              exact Or.inl ⟨n, ip, e, fwd, rfl, rfl, hcon.mp hin, l1, hf, fun h => hlo ((loopback_iff _).mpr h), rfl⟩
        · rw [if_neg hin]
          refine Or.inr ⟨rfl, ?_⟩
          rintro ⟨n', p, _, _, h1, h2, h3, _⟩
          obtain rfl := Option.some.inj h1
          obtain rfl := Option.some.inj h2
          exact hin (hcon.mpr h3)

/-- C54: what a client puts into the header cannot be seen behind what the proxy appends, as a line of its own or after a comma: two requests that differ only in front of
the last entry have the same client. -/
theorem doh_client_prefix (parseIP : Str → Option Str) (proxy : Option Cidr.IPNet) (remoteHost : Str) (l1 l2 : List Str) (e : Str) :
    extractClientAddress parseIP proxy remoteHost (l1 ++ [e]) = extractClientAddress parseIP proxy remoteHost (l2 ++ [e]) ∨ e = [] := by
  by_cases he : e = []
  · exact Or.inr he
  refine Or.inl ?_
  have hne : ∀ l : List Str, joinHeader (l ++ [e]) ≠ [] := by
    intro l
    cases l with
    | nil => exact he
    | cons p ps => cases ps <;> simp [joinHeader]
  have hlast : ∀ l : List Str, trimSpace (afterLastComma (joinHeader (l ++ [e]))) = trimSpace (afterLastComma e) := by
    intro l
    obtain ⟨x, h1, h2⟩ := last_forwarded (l ++ [e]) (by simp)
    obtain ⟨y, h3, h4⟩ := last_forwarded [e] (by simp)
    have : x = y := by
      unfold forwarded at h1 h3
      rw [List.flatMap_append, List.getLast?_append, h3] at h1
      exact (Option.some.inj h1).symm
    rw [h2, this, ← h4]; rfl
  unfold extractClientAddress
  simp only [hne, hlast, if_false]

/-- C54: without a proxy network, and for peers outside of it, no header has any effect. -/
theorem doh_client_peer (parseIP : Str → Option Str) (hp : ∀ s ip, parseIP s = some ip → ip.length = 4 ∨ ip.length = 16) (proxy : Option Cidr.IPNet)
    (hn : ∀ n, proxy = some n → n.ip.length = 4 ∨ n.ip.length = 16) (remoteHost : Str) (lines : List Str)
    (h : ∀ n ip, proxy = some n → parseIP remoteHost = some ip → ¬ Spec.Route.Lies n ip) : extractClientAddress parseIP proxy remoteHost lines = parseIP remoteHost := by
  unfold extractClientAddress
  cases hx : proxy with
  | none => rfl
  | some n =>
    simp only []
    split
    · rfl
    · cases hc : parseIP remoteHost with
      | none => rfl
      | some ip =>
        simp only []
        rw [if_neg (fun h' => h n ip hx hc ((Route.route_contains n (hn n hx) ip (Or.inr (hp _ _ hc))).mp h'))]

/-! ### DNS over HTTPS -/

private theorem shown_http (lib : Lib) (q a : Msg) (hd : Decoded a) : ShownHttp lib a (respond lib q a) := by
  obtain ⟨b, h1, h2⟩ := pad_only lib.len q a hd
  refine ⟨b, h2, ?_⟩
  unfold respond
  rw [h1]
  simp only []
  cases hp : lib.pack b with
  | none => exact Or.inr ⟨rfl, rfl⟩
  | some p => exact Or.inl ⟨p, rfl, rfl⟩

private theorem early_iff (req : Req) : earlyData req = true ↔ Early req := by
  unfold earlyData Early
  cases req.tls with
  | none => simp
  | some t => obtain ⟨c, n⟩ := t; cases c <;> simp

private theorem replay_iff (q : Msg) : isReplayableOpcode q.opcode = true ↔ MayReplay q := by
  unfold isReplayableOpcode MayReplay; simp

private theorem carries_cases (lib : Lib) (opt : DoHOpts) (r : Pipeline) (req : Req) :
    (∃ b, Carries req b ∧ dohHandler lib opt r req = parseAndRespond lib opt r b req) ∨
    ((¬ ∃ b, Carries req b) ∧ (dohHandler lib opt r req).calls = [] ∧ NoAnswer (dohHandler lib opt r req).out) := by
  have hgp : str "POST" ≠ str "GET" := by decide
  unfold dohHandler
  by_cases hg : req.method = str "GET"
  · rw [if_pos hg]
    have hnp : ¬ req.method = str "POST" := by rw [hg]; exact hgp.symm
    unfold getHandler
    cases hd : req.dns with
    | none => exact Or.inr ⟨by rintro ⟨b, ⟨_, m, h⟩ | ⟨h, _⟩⟩; simp [hd] at h; exact hnp h, rfl, 400, by omega, by omega, rfl⟩
    | some l =>
      cases l with
      | nil => exact Or.inr ⟨by rintro ⟨b, ⟨_, m, h⟩ | ⟨h, _⟩⟩; simp [hd] at h; exact hnp h, rfl, 400, by omega, by omega, rfl⟩
      | cons o more =>
        cases o with
        | none => exact Or.inr ⟨by rintro ⟨b, ⟨_, m, h⟩ | ⟨h, _⟩⟩; simp [hd] at h; exact hnp h, rfl, 400, by omega, by omega, rfl⟩
        | some b => exact Or.inl ⟨b, Or.inl ⟨hg, more, hd⟩, rfl⟩
  · rw [if_neg hg]
    by_cases hp : req.method = str "POST"
    · rw [if_pos hp]
      unfold postHandler
      cases hb : req.body with
      | none => exact Or.inr ⟨by rintro ⟨b, ⟨h, _⟩ | ⟨_, h, _⟩⟩; exact hg h; simp [hb] at h, rfl, 400, by omega, by omega, rfl⟩
      | some b =>
        simp only []
        by_cases hl : b.length > maxDoHRequestSize
        · rw [if_pos hl]
          refine Or.inr ⟨?_, rfl, 413, by omega, by omega, rfl⟩
          rintro ⟨b', ⟨h, _⟩ | ⟨_, h, h'⟩⟩
          · exact hg h
          · rw [hb] at h
            obtain rfl := Option.some.inj h
            unfold maxDoHRequestSize at hl; omega
        · rw [if_neg hl]
          exact Or.inl ⟨b, Or.inr ⟨hp, hb, by unfold maxDoHRequestSize at hl; omega⟩, rfl⟩
    · rw [if_neg hp]
      exact Or.inr ⟨by rintro ⟨b, ⟨h, _⟩ | ⟨h, _⟩⟩; exact hg h; exact hp h, rfl, 405, by omega, by omega, rfl⟩

private theorem carries_unique {req : Req} {b b' : Str} (h : Carries req b) (h' : Carries req b') : b = b' := by
  have hgp : str "POST" ≠ str "GET" := by decide
  rcases h with ⟨h1, m, h2⟩ | ⟨h1, h2, _⟩ <;> rcases h' with ⟨h1', m', h2'⟩ | ⟨h1', h2', _⟩
  · rw [h2] at h2'; simp at h2'; exact h2'.1
  · rw [h1] at h1'; exact absurd h1'.symm hgp
  · rw [h1] at h1'; exact absurd h1' hgp
  · rw [h2] at h2'; exact Option.some.inj h2'

/-- C53, DNS over HTTPS. A request that carries no query, or one that does not decode or has no question, gets a 4xx response and the pipeline is not called; neither is it for
an early request that may not be replayed, for a request without client address, and for a client that is not admitted, which gets REFUSED. Every other query goes to the pipeline
once, unchanged, with the client's address; an error becomes SERVFAIL, no result status 403, and a result is sent back, changed only in its padding. -/
theorem doh_listener (lib : Lib) (h0 : lib.parseIP [] = none) (hp : ∀ s ip, lib.parseIP s = some ip → ip.length = 4 ∨ ip.length = 16) (opt : DoHOpts) (r : Pipeline) (req : Req)
    (hn : ∀ n, n ∈ opt.allowed → n.ip.length = 4 ∨ n.ip.length = 16) :
    let h := dohHandler lib opt r req
    let client := extractClientAddress lib.parseIP opt.proxyNet req.remoteHost req.xff
    ((∀ b, Carries req b → lib.unpack b = none) → h.calls = [] ∧ NoAnswer h.out) ∧
    ∀ b q, Carries req b → lib.unpack b = some q →
      (q.question = [] ∨ (Early req ∧ ¬ MayReplay q) ∨ client = none → h.calls = [] ∧ NoAnswer h.out) ∧
      (∀ ip, q.question ≠ [] → (Early req → MayReplay q) → client = some ip →
        (¬ Admits opt.allowed ip → h.calls = [] ∧ ∃ m, Failure q 5 m ∧ ShownHttp lib m h.out) ∧
        (Admits opt.allowed ip → ∃ ci : ClientInfo, ci.sourceIP = ip ∧ ci.dohPath = req.path ∧ ci.listener = opt.id ∧ h.calls = [(q, ci)] ∧
          (∀ e, (r q ci).err = some e → ∃ m, Failure q 2 m ∧ ShownHttp lib m h.out) ∧
          (r q ci = ⟨none, none⟩ → h.out = .status 403) ∧
          (∀ a, r q ci = ⟨some a, none⟩ → Decoded a → ShownHttp lib a h.out))) := by
  intro h client
  have hh : h = dohHandler lib opt r req := rfl
  rw [hh]
  constructor
  · intro hu
    rcases carries_cases lib opt r req with ⟨b, hb, he⟩ | ⟨_, h1, h2⟩
    · rw [he]
      unfold parseAndRespond
      rw [hu b hb]
      exact ⟨rfl, 400, by omega, by omega, rfl⟩
    · exact ⟨h1, h2⟩
  · intro b q hb hq
    have he : dohHandler lib opt r req = parseAndRespond lib opt r b req := by
      rcases carries_cases lib opt r req with ⟨b', hb', he⟩ | ⟨hno, _⟩
      · rw [he, carries_unique hb hb']
      · exact absurd ⟨b, hb⟩ hno
    rw [he]
    unfold parseAndRespond
    rw [hq]
    simp only []
    constructor
    · intro hc
      by_cases h1 : q.question.length = 0
      · rw [if_pos h1]; exact ⟨rfl, 400, by omega, by omega, rfl⟩
      · rw [if_neg h1]
        by_cases h2 : (earlyData req && !isReplayableOpcode q.opcode) = true
        · rw [if_pos h2]; exact ⟨rfl, 425, by omega, by omega, rfl⟩
        · rw [if_neg h2]
          have hcl : client = none := by
            rcases hc with hc | ⟨hc1, hc2⟩ | hc
            · exact absurd (by rw [hc]; rfl) h1
            · exfalso
              apply h2
              rw [Bool.and_eq_true, Bool.not_eq_true', ← Bool.not_eq_true, replay_iff, early_iff]
              exact ⟨hc1, hc2⟩
            · exact hc
          rw [show extractClientAddress lib.parseIP opt.proxyNet req.remoteHost req.xff = none from hcl]
          exact ⟨rfl, 400, by omega, by omega, rfl⟩
    · intro ip h1 h2 hcl
      have hlen : ip.length = 4 ∨ ip.length = 16 := by
        have : ∃ s, lib.parseIP s = some ip := by
          have hcl' : extractClientAddress lib.parseIP opt.proxyNet req.remoteHost req.xff = some ip := hcl
          unfold extractClientAddress at hcl'
          split at hcl'
          · exact ⟨_, hcl'⟩
          · dsimp only at hcl'
            split at hcl'
            · exact ⟨_, hcl'⟩
            · split at hcl'
              · cases hcl'
              · rename_i hx
                split at hcl'
                · split at hcl'
                  · exact ⟨_, hx.trans hcl'⟩
                  · rename_i hf
                    split at hcl'
                    · exact ⟨_, hx.trans hcl'⟩
                    · exact ⟨_, hf.trans hcl'⟩
                · exact ⟨_, hx.trans hcl'⟩
        obtain ⟨s, hs⟩ := this
        exact hp s ip hs
      have hal := allowed_iff opt.allowed ip ⟨hn, Or.inr hlen⟩
      rw [if_neg (by simpa using h1), if_neg (by
        rw [Bool.and_eq_true, Bool.not_eq_true', ← Bool.not_eq_true, replay_iff, early_iff]
        exact fun hc => hc.2 (h2 hc.1)), show extractClientAddress lib.parseIP opt.proxyNet req.remoteHost req.xff = some ip from hcl]
      simp only []
      constructor
      · intro hna
        rw [if_neg (by rw [hal]; exact hna)]
        exact ⟨rfl, _, failure_set q 5, shown_http lib q _ (decoded_failure (failure_set q 5))⟩
      · intro ha
        rw [if_pos (hal.mpr ha)]
        refine ⟨_, rfl, rfl, rfl, rfl, ?_, ?_, ?_⟩
        · intro e he
          simp only [answerOr, he]
          exact ⟨_, failure_set q 2, shown_http lib q _ (decoded_failure (failure_set q 2))⟩
        · intro he
          simp only [answerOr, he]; rfl
        · intro a he hd
          simp only [answerOr, he]
          exact shown_http lib q a hd

/-! ### DNS over QUIC -/

private theorem keepalive_iff (q : Msg) : hasKeepAlive q = true ↔ KeepAlive q := by
  unfold KeepAlive hasKeepAlive
  cases h : q.edns? with
  | none => simp
  | some e => simp [List.any_eq_true]

private theorem frame_read (b : Str) (sent : Str) (h : Framed b sent) : readFrame sent = some b := by
  obtain ⟨x, y, rfl, hl⟩ := h
  show (if b.length < x.toNat * 256 + y.toNat then none else some (b.take (x.toNat * 256 + y.toNat))) = some b
  rw [if_neg (by omega), List.take_of_length_le (by omega)]

private theorem frame_be16 (p : Str) (h : p.length < 65536) : Framed p (be16 p.length ++ p) := by
  refine ⟨_, _, rfl, ?_⟩
  simp only [UInt8.toNat_ofNat']
  omega

private theorem shown_stream (lib : Lib) (a : Msg) : ShownStream lib a (writeStream lib (some a)) := by
  unfold writeStream
  cases hp : lib.pack a with
  | none => exact Or.inr ⟨hp, by simp only [hp]⟩
  | some p => exact Or.inl ⟨p, hp, _, by simp only [hp], frame_be16 p⟩

/-- C53, DNS over QUIC. A client that is not admitted, and a stream with no well-formed query on it, or one with the TCP keep-alive option, gets nothing and the pipeline is not
called. Any other query goes to the pipeline once, unchanged, and if it may not be replayed then only after the end of the handshake, or not at all; an error becomes SERVFAIL, and
a result is sent back as it is. -/
theorem doq_listener (lib : Lib) (id : Str) (nets : List Cidr.IPNet) (r : Pipeline) (peer sni : Str) (hw : WellFormed nets peer) (hs : Handshake) (sent : Str) :
    let h := handleStream lib id nets r peer sni hs sent
    let ci : ClientInfo := { sourceIP := peer, tlsServerName := sni, listener := id }
    (¬ Admits nets peer → h.acts = [] ∧ h.out = .closed) ∧
    ∀ b, Framed b sent →
      (lib.unpack b = none → h.acts = [] ∧ h.out = .closed) ∧
      ∀ q, lib.unpack b = some q →
        (q.question = [] ∨ KeepAlive q ∨ (¬ MayReplay q ∧ hs = .failed) → h.acts = [] ∧ h.out = .closed) ∧
        (Admits nets peer → q.question ≠ [] → ¬ KeepAlive q → (MayReplay q ∨ hs = .complete) →
          h.acts = (if q.opcode = 0 ∨ q.opcode = 4 then [] else [.handshakeDone]) ++ [.resolve q ci] ∧
          (∀ e, (r q ci).err = some e → ∃ m, Failure q 2 m ∧ ShownStream lib m h.out) ∧
          (∀ a, r q ci = ⟨some a, none⟩ → ShownStream lib a h.out)) := by
  intro h ci
  have hal := allowed_iff nets peer hw
  have hh : h = handleStream lib id nets r peer sni hs sent := rfl
  rw [hh]
  unfold handleStream
  by_cases ha : Admits nets peer
  · rw [hal.mpr ha]
    simp only [Bool.not_true, Bool.false_eq_true, if_false]
    refine ⟨fun hna => absurd ha hna, ?_⟩
    intro b hb
    rw [frame_read b sent hb]
    simp only []
    refine ⟨fun hu => by rw [hu]; exact ⟨rfl, rfl⟩, ?_⟩
    intro q hq
    rw [hq]
    simp only []
    have hk := keepalive_iff q
    have hr := replay_iff q
    constructor
    · intro hc
      by_cases h1 : q.question.length = 0
      · rw [if_pos h1]; exact ⟨rfl, rfl⟩
      · rw [if_neg h1]
        by_cases h2 : KeepAlive q
        · rw [if_pos (hk.mpr h2)]; exact ⟨rfl, rfl⟩
        · rw [if_neg (fun h' => h2 (hk.mp h'))]
          rcases hc with hc | hc | ⟨hc1, hc2⟩
          · exact absurd (by rw [hc]; rfl) h1
          · exact absurd hc h2
          · unfold awaitHandshake
            rw [if_neg (fun h' => hc1 (hr.mp h')), hc2]
            exact ⟨rfl, rfl⟩
    · intro _ h1 h2 h3
      rw [if_neg (by simpa using h1), if_neg (fun h' => h2 (hk.mp h'))]
      have hw : awaitHandshake q hs = some (if q.opcode = 0 ∨ q.opcode = 4 then [] else [.handshakeDone]) := by
        unfold awaitHandshake
        by_cases hm : q.opcode = 0 ∨ q.opcode = 4
        · rw [if_pos (hr.mpr hm), if_pos hm]
        · rw [if_neg (fun h' => hm (hr.mp h')), if_neg hm]
          rcases h3 with h3 | h3
          · exact absurd h3 hm
          · rw [h3]
      rw [hw]
      simp only []
      refine ⟨rfl, ?_, ?_⟩
      · intro e he
        have : answerOr (setRcode q rcodeServerFailure) (r q ci) = some (setRcode q rcodeServerFailure) := by simp only [answerOr, he]
        rw [this]
        exact ⟨_, failure_set q 2, shown_stream lib _⟩
      · intro a he
        have : answerOr (setRcode q rcodeServerFailure) (r q ci) = some a := by simp only [answerOr, he]
        rw [this]
        exact shown_stream lib a
  · have : isAllowed nets peer = false := by
      rw [← Bool.not_eq_true, hal]; exact ha
    rw [this]
    simp only [Bool.not_false, if_true]
    exact ⟨fun _ => ⟨by simp, by simp⟩, fun b hb => ⟨fun _ => ⟨by simp, by simp⟩, fun q hq => ⟨fun _ => ⟨by simp, by simp⟩, fun h' => absurd h' ha⟩⟩⟩

/-- Finding: a response that packs to 65536 bytes or more is sent over QUIC with a length that is too small, so that the client reads something else. -/
theorem doq_long_response (lib : Lib) (a : Msg) (p : Str) (hp : lib.pack a = some p) (hl : 65536 ≤ p.length) (hb : p.length < 131072) :
    ∃ sent, writeStream lib (some a) = .written sent ∧ readFrame sent = some (p.take (p.length - 65536)) := by
  simp only [writeStream, hp]
  refine ⟨_, rfl, ?_⟩
  have hlen : (UInt8.ofNat (p.length / 256)).toNat * 256 + (UInt8.ofNat p.length).toNat = p.length - 65536 := by
    simp only [UInt8.toNat_ofNat']; omega
  show (if p.length < (UInt8.ofNat (p.length / 256)).toNat * 256 + (UInt8.ofNat p.length).toNat then none else
    some (p.take ((UInt8.ofNat (p.length / 256)).toNat * 256 + (UInt8.ofNat p.length).toNat))) = _
  rw [hlen, if_neg (by omega)]

/-! ### Early data, drops -/

/-- C55: over HTTPS no query that may not be replayed reaches the pipeline from early data. -/
theorem doh_early_data (lib : Lib) (opt : DoHOpts) (r : Pipeline) (req : Req) (he : Early req) (q : Msg) (ci : ClientInfo) (h : (q, ci) ∈ (dohHandler lib opt r req).calls) : MayReplay q := by
  rcases carries_cases lib opt r req with ⟨b, hb, heq⟩ | ⟨_, h1, _⟩
  · rw [heq] at h
    unfold parseAndRespond at h
    cases hu : lib.unpack b with
    | none => rw [hu] at h; simp at h
    | some q' =>
      rw [hu] at h
      simp only [(early_iff req).mpr he, Bool.true_and] at h
      split at h
      · simp at h
      · split at h
        · simp at h
        · rename_i hr
          have hm : MayReplay q' := by
            rw [Bool.not_eq_true, Bool.not_eq_false'] at hr
            exact (replay_iff q').mp hr
          split at h
          · simp at h
          · split at h
            · simp only [List.mem_singleton, Prod.mk.injEq] at h
              rw [h.1]; exact hm
            · simp at h
  · rw [h1] at h; simp at h

/-- C55: over QUIC no query that may not be replayed reaches the pipeline before the handshake is complete, and none at all if it never completes. -/
theorem doq_early_data (lib : Lib) (id : Str) (nets : List Cidr.IPNet) (r : Pipeline) (peer sni : Str) (hs : Handshake) (sent : Str) (pre : List Act) (q : Msg) (ci : ClientInfo)
    (post : List Act) (h : (handleStream lib id nets r peer sni hs sent).acts = pre ++ .resolve q ci :: post) : MayReplay q ∨ (hs = .complete ∧ .handshakeDone ∈ pre) := by
  unfold handleStream at h
  dsimp only at h
  split at h
  · simp at h
  · split at h
    · simp at h
    · split at h
      · simp at h
      · rename_i q' _
        split at h
        · simp at h
        · split at h
          · simp at h
          · unfold awaitHandshake at h
            by_cases hm : MayReplay q'
            · rw [if_pos ((replay_iff q').mpr hm)] at h
              simp only [List.nil_append] at h
              cases pre with
              | nil => simp at h; exact Or.inl (h.1.1 ▸ hm)
              | cons x xs => simp at h
            · rw [if_neg (fun h' => hm ((replay_iff q').mp h'))] at h
              cases hs with
              | failed => simp at h
              | complete =>
                refine Or.inr ⟨rfl, ?_⟩
                cases pre with
                | nil => simp at h
                | cons x xs => simp at h; rw [← h.1]; simp

/-- C63: a pipeline that drops every query makes every listener but the QUIC one send no DNS answer, without a panic. -/
theorem drop_never_crashes (lib : Lib) (r : Pipeline) (hr : ∀ q ci, r q ci = ⟨none, none⟩) :
    (∀ id t peer sni req, (listenHandler lib id (Transport.protocol t) r [] peer sni req).out = .silent ∨ (listenHandler lib id (Transport.protocol t) r [] peer sni req).out = .closed) ∧
    (∀ opt req, opt.allowed = [] → NoAnswer (dohHandler lib opt r req).out) := by
  constructor
  · intro id t peer sni req
    unfold listenHandler
    dsimp only
    by_cases h : req.question.length = 0
    · rw [if_pos h]; exact Or.inl rfl
    · rw [if_neg h, if_pos (by rfl)]
      simp only [hr, answerOr]
      exact Or.inr rfl
  · intro opt req ha
    rcases carries_cases lib opt r req with ⟨b, hb, heq⟩ | ⟨_, _, h2⟩
    · rw [heq]
      unfold parseAndRespond
      split
      · exact ⟨400, by omega, by omega, rfl⟩
      · split
        · exact ⟨400, by omega, by omega, rfl⟩
        · split
          · exact ⟨425, by omega, by omega, rfl⟩
          · split
            · exact ⟨400, by omega, by omega, rfl⟩
            · dsimp only
              rw [ha, if_pos (by rfl)]
              simp only [hr, answerOr]
              exact ⟨403, by omega, by omega, rfl⟩
    · exact h2

/-- Finding (C63): over QUIC a dropped query ends the process, for every query that reaches the pipeline. -/
theorem doq_drop_crashes (lib : Lib) (id : Str) (nets : List Cidr.IPNet) (r : Pipeline) (hr : ∀ q ci, r q ci = ⟨none, none⟩) (peer sni : Str) (hs : Handshake) (sent : Str)
    (h : (handleStream lib id nets r peer sni hs sent).acts ≠ []) : (handleStream lib id nets r peer sni hs sent).out = .crash := by
  unfold handleStream at h ⊢
  dsimp only at h ⊢
  by_cases h1 : (!isAllowed nets peer) = true
  · rw [if_pos h1] at h; simp at h
  rw [if_neg h1] at h ⊢
  cases h2 : readFrame sent with
  | none => rw [h2] at h; simp at h
  | some b =>
    simp only [h2] at h ⊢
    cases h3 : lib.unpack b with
    | none => rw [h3] at h; simp at h
    | some q =>
      simp only [h3] at h ⊢
      by_cases h4 : q.question.length = 0
      · rw [if_pos h4] at h; simp at h
      rw [if_neg h4] at h ⊢
      by_cases h5 : hasKeepAlive q = true
      · rw [if_pos h5] at h; simp at h
      rw [if_neg h5] at h ⊢
      cases h6 : awaitHandshake q hs with
      | none => rw [h6] at h; simp at h
      | some w =>
        simp only [hr, answerOr]
        rfl

/-! ### Reads of a DTLS connection -/

/-- The bytes that are still to be read -/
def left (c : DtlsConn) : Str := c.buf ++ c.records.flatten

/-- Reads of the given sizes, one after the other -/
def reads (c : DtlsConn) : List Nat → Option (List Str × DtlsConn)
  | [] => some ([], c)
  | n :: ns => match c.read n with
    | none => none
    | some (b, c') => match reads c' ns with
      | none => none
      | some (bs, c'') => some (b :: bs, c'')

private theorem read_left (c c' : DtlsConn) (n : Nat) (b : Str) (h : c.read n = some (b, c')) : left c = b ++ left c' ∧ b.length ≤ n := by
  unfold DtlsConn.read at h
  unfold left
  split at h
  · rename_i hb
    split at h
    · cases h
    · rename_i r rs hr
      simp only [Option.some.injEq, Prod.mk.injEq] at h
      obtain ⟨rfl, rfl⟩ := h
      rw [hb, hr]
      refine ⟨?_, by simp; omega⟩
      simp only [List.nil_append, List.flatten_cons]
      rw [← List.append_assoc, List.take_append_drop]
  · simp only [Option.some.injEq, Prod.mk.injEq] at h
    obtain ⟨rfl, rfl⟩ := h
    refine ⟨?_, by simp; omega⟩
    show c.buf ++ c.records.flatten = List.take n c.buf ++ (List.drop n c.buf ++ c.records.flatten)
    rw [← List.append_assoc, List.take_append_drop]

/-- C65: whatever the sizes of the reads and of the records, no byte of a DTLS connection is lost, repeated or moved. -/
theorem dtls_reads (c : DtlsConn) (sizes : List Nat) (bs : List Str) (c' : DtlsConn) (h : reads c sizes = some (bs, c')) : left c = bs.flatten ++ left c' := by
  induction sizes generalizing c bs with
  | nil =>
    simp only [reads, Option.some.injEq, Prod.mk.injEq] at h
    obtain ⟨rfl, rfl⟩ := h; rfl
  | cons n ns ih =>
    unfold reads at h
    split at h
    · cases h
    · rename_i b c1 h1
      split at h
      · cases h
      · rename_i bs1 c2 h2
        simp only [Option.some.injEq, Prod.mk.injEq] at h
        obtain ⟨rfl, rfl⟩ := h
        rw [(read_left c c1 n b h1).1, ih c1 bs1 h2]
        simp

/-- C65: a read fails only at the end of the connection, and otherwise gives what was asked for, or all that is left of a record. -/
theorem dtls_read_progress (c : DtlsConn) (n : Nat) (hr : ∀ r, r ∈ c.records → r ≠ []) (hn : 0 < n) :
    (c.read n = none ↔ left c = []) ∧ ∀ b c', c.read n = some (b, c') → b ≠ [] ∧ (b.length = n ∨ c'.buf = []) ∧ ∀ r, r ∈ c'.records → r ≠ [] := by
  unfold DtlsConn.read left
  by_cases hb : c.buf = []
  · rw [if_pos hb, hb]
    cases hc : c.records with
    | nil => simp [hc]
    | cons r rs =>
      have hr0 : r ≠ [] := hr r (by rw [hc]; simp)
      refine ⟨by simp [hr0], ?_⟩
      intro b c' h
      simp only [Option.some.injEq, Prod.mk.injEq] at h
      obtain ⟨rfl, rfl⟩ := h
      refine ⟨?_, ?_, fun x hx => hr x (by rw [hc]; exact List.mem_cons_of_mem _ hx)⟩
      · cases r with
        | nil => exact absurd rfl hr0
        | cons x xs => cases n with
          | zero => omega
          | succ k => simp
      · simp only [List.length_take, List.drop_eq_nil_iff]; omega
  · rw [if_neg hb]
    refine ⟨by simp [hb], ?_⟩
    intro b c' h
    simp only [Option.some.injEq, Prod.mk.injEq] at h
    obtain ⟨rfl, rfl⟩ := h
    refine ⟨?_, ?_, hr⟩
    · cases hbuf : c.buf with
      | nil => exact absurd hbuf hb
      | cons x xs => cases n with
        | zero => omega
        | succ k => simp
    · simp only [List.length_take, List.drop_eq_nil_iff]; omega

/-! ### Examples -/

private def exLen (m : Msg) : Nat := 30 + 100 * m.answer.length
private def exCut (m : Msg) (n : Nat) : Msg := if exLen m ≤ max n 512 then m else { m with tc := true, answer := m.answer.take 4 }
private def exLib : Lib :=
  { len := exLen, truncate := exCut
    pack := fun m => some [UInt8.ofNat m.id, UInt8.ofNat m.rcode]
    unpack := fun b => match b with
      | [] => none
      | i :: op => some { id := i.toNat, opcode := (op.map UInt8.toNat).headD 0, question := [⟨str "a.", 1, 1⟩] }
    parseIP := fun s => if s = str "peer" then some [10, 0, 0, 1] else if s = str "fwd" then some [192, 0, 2, 7] else if s = str "local" then some [127, 0, 0, 1] else none }
private def exQ : Msg := { id := 7, rd := true, question := [⟨str "a.", 1, 1⟩] }
private def exRR : RR := ⟨str "a.", 1, 1, 60, .a [1, 2, 3, 4]⟩
private def exA : Msg := { id := 7, response := true, question := exQ.question, answer := List.replicate 9 exRR }
private def exPipe : Pipeline := fun _ _ => ⟨some exA, none⟩
private def exNet : Cidr.IPNet := ⟨[10, 0, 0, 0], 8⟩

/-- A long answer is cut over UDP, whole over TCP, and whole over UDP with `ip-version = 4`. -/
example : (listenHandler exLib [] (Transport.udp 0).protocol exPipe [exNet] [10, 0, 0, 1] [] exQ).out = .reply { exA with tc := true, answer := List.replicate 4 exRR } ∧
    (listenHandler exLib [] (Transport.tcp 0).protocol exPipe [exNet] [10, 0, 0, 1] [] exQ).out = .reply exA ∧
    (listenHandler exLib [] (Transport.udp 4).protocol exPipe [exNet] [10, 0, 0, 1] [] exQ).out = .reply exA ∧ exLen exA > 512 := by decide +kernel
/-- A client outside the allowed networks does not reach the pipeline. -/
example : listenHandler exLib [] (Transport.udp 0).protocol exPipe [exNet] [11, 0, 0, 1] [] exQ =
    { calls := [], out := .reply { id := 7, response := true, rd := true, rcode := 5, question := exQ.question } } := by decide +kernel
example : WellFormed [exNet] [11, 0, 0, 1] ∧ Admits [exNet] [10, 0, 0, 1] := by
  refine ⟨⟨by intro n hn; simp only [List.mem_singleton] at hn; subst hn; exact Or.inl rfl, Or.inr (Or.inl rfl)⟩, Or.inr ⟨exNet, by simp, ?_⟩⟩
  show List.take 8 (bits [10, 0, 0, 0]) = List.take 8 (bits [10, 0, 0, 1])
  decide
/-- The assumptions about `dns.Msg.Truncate` can be met. -/
example : Truncates exLib (fun _ _ => True) := by
  constructor
  · intro m n
    show Cut m (exCut m n)
    unfold exCut
    split
    · exact ⟨rfl, rfl, rfl, rfl, List.prefix_refl _, List.prefix_refl _, List.Sublist.refl _, Or.inr ⟨rfl, rfl, fun r h => h⟩⟩
    · exact ⟨rfl, rfl, rfl, rfl, List.take_prefix _ _, List.prefix_refl _, List.Sublist.refl _, Or.inl rfl⟩
  · intro m n _
    show exLen (exCut m n) ≤ max n 512
    unfold exCut
    split
    · assumption
    · simp only [exLen, List.length_take]; omega

/-- The peer is a proxy: what it appended counts, a line of its own or not, and what the client sent does not; a loopback address does not count; other peers cannot do that. -/
example : extractClientAddress exLib.parseIP (some exNet) (str "peer") [str "local, peer", str "fwd"] = some [192, 0, 2, 7] ∧
    extractClientAddress exLib.parseIP (some exNet) (str "peer") [str "local, peer ,fwd "] = some [192, 0, 2, 7] ∧
    extractClientAddress exLib.parseIP (some exNet) (str "peer") [str "fwd, local"] = some [10, 0, 0, 1] ∧
    extractClientAddress exLib.parseIP (some exNet) (str "fwd") [str "peer"] = some [192, 0, 2, 7] ∧
    extractClientAddress exLib.parseIP none (str "peer") [str "fwd"] = some [10, 0, 0, 1] := by decide +kernel

private def exReq (op : UInt8) (early : Bool) : Req :=
  { method := str "POST", path := str "/dns-query", dns := none, body := some [9, op], remoteHost := str "peer", xff := [], tls := some (!early, []) }
/-- An update in early data is refused, and carried out later; a query goes through. -/
example : dohHandler exLib {} exPipe (exReq 5 true) = { calls := [], out := .status 425 } ∧ (dohHandler exLib {} exPipe (exReq 5 false)).out = .ok [7, 0] ∧
    (dohHandler exLib {} exPipe (exReq 0 true)).calls.length = 1 := by decide +kernel
/-- Over QUIC it waits. -/
example : handleStream exLib [] [] exPipe [10, 0, 0, 1] [] .failed [0, 2, 9, 5] = { acts := [], out := .closed } ∧
    ((handleStream exLib [] [] exPipe [10, 0, 0, 1] [] .complete [0, 2, 9, 5]).acts.head? = some .handshakeDone) ∧
    (handleStream exLib [] [] exPipe [10, 0, 0, 1] [] .failed [0, 2, 9, 0]).out = .written [0, 2, 7, 0] := by decide +kernel
/-- A dropped query ends the process over QUIC. -/
example : (handleStream exLib [] [] (fun _ _ => ⟨none, none⟩) [10, 0, 0, 1] [] .complete [0, 1, 9]).out = .crash ∧
    (dohHandler exLib {} (fun _ _ => ⟨none, none⟩) (exReq 0 false)).out = .status 403 := by decide +kernel
/-- Length first, then the message, in two records. -/
example : reads ⟨[], [[0, 5, 1, 2], [3, 4, 5]]⟩ [2, 5, 3] = some ([[0, 5], [1, 2], [3, 4, 5]], ⟨[], []⟩) := by decide +kernel

end Verif.Props.Listeners
