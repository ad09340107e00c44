import Verif.Model.Counters
import Verif.Spec.Counters
import Verif.Spec.Blocklist
/-
C92: the counters that the program publishes.
-/
set_option linter.unusedSectionVars false
namespace Verif.Props.Counters
open Verif Verif.Counters Verif.Spec.Counters

/-! ### Registration -/

private def makers : List Maker := [.listener, .client, .dohListener, .doqListener, .blocklist, .router, .failRouter, .loadBalance, .rateLimiter, .cache, .redis, .dns64, .dnssec]

private theorem all_makers (m : Maker) : m ∈ makers := by cases m <;> decide

private def allWants : List Want := makers.flatMap Maker.wants

private theorem mem_all {m : Maker} {w : Want} (h : w ∈ m.wants) : w ∈ allWants := List.mem_flatMap.mpr ⟨m, all_makers m, h⟩

private theorem wants_plain : ∀ w ∈ allWants, ¬ (46 : UInt8) ∈ w.base ∧ ¬ (46 : UInt8) ∈ w.name := by decide +kernel

private theorem wants_kind : ∀ w ∈ allWants, ∀ w' ∈ allWants, w.base = w'.base → w.name = w'.name → w.kind = w'.kind := by decide +kernel

private theorem cut_first {a a' r r' : Str} (h : ¬ (46 : UInt8) ∈ a) (h' : ¬ (46 : UInt8) ∈ a') (he : a ++ 46 :: r = a' ++ 46 :: r') : a = a' ∧ r = r' := by
  induction a generalizing a' with
  | nil => cases a' with
    | nil => simpa using he
    | cons b l => simp only [List.nil_append, List.cons_append, List.cons.injEq] at he; exact absurd (by simp [he.1]) h'
  | cons x a ih => cases a' with
    | nil => simp only [List.nil_append, List.cons_append, List.cons.injEq] at he; exact absurd (by simp [he.1]) h
    | cons b l =>
      simp only [List.cons_append, List.cons.injEq] at he
      obtain ⟨rfl, he⟩ := he
      obtain ⟨rfl, rfl⟩ := ih (by simp at h; exact h.2) (by simp at h'; exact h'.2) he
      exact ⟨rfl, rfl⟩

private theorem fullName_inj {w w' : Want} (hw : w ∈ allWants) (hw' : w' ∈ allWants) {id id' : Str} (h : fullName w.base id w.name = fullName w'.base id' w'.name) :
    w.base = w'.base ∧ id = id' ∧ w.name = w'.name := by
  obtain ⟨b, n⟩ := wants_plain w hw
  obtain ⟨b', n'⟩ := wants_plain w' hw'
  have hd : str "." = [46] := by decide
  unfold fullName at h
  simp only [hd, List.append_assoc] at h
  have h := List.append_cancel_left h
  simp only [List.cons_append, List.nil_append] at h
  obtain ⟨h1, h⟩ := cut_first b b' h
  have h := congrArg List.reverse h
  simp only [List.reverse_append, List.reverse_cons, List.append_assoc, List.cons_append, List.nil_append] at h
  obtain ⟨h2, h⟩ := cut_first (by simpa using n) (by simpa using n') h
  exact ⟨h1, List.reverse_inj.mp h, List.reverse_inj.mp h2⟩

/-- Every variable of ours is one that a constructor asks for. -/
private def RegOk (reg : Registry) : Prop := ∀ n k, (n, k) ∈ reg → str "routedns." <+: n → ∃ w ∈ allWants, ∃ id, n = fullName w.base id w.name ∧ k = w.kind

private theorem lookup_mem {reg : Registry} {n : Str} {k : Kind} (h : reg.lookup n = some k) : (n, k) ∈ reg := by
  induction reg with
  | nil => cases h
  | cons x l ih =>
    obtain ⟨a, b⟩ := x
    simp only [List.lookup] at h
    split at h
    · rename_i he
      cases h
      have : n = a := by simpa using he
      simp [this]
    · exact List.mem_cons_of_mem _ (ih h)

private theorem getVar_ok {reg : Registry} (h : RegOk reg) {w : Want} (hw : w ∈ allWants) (id : Str) : ∃ reg', getVar reg (fullName w.base id w.name) w.kind = some reg' ∧ RegOk reg' := by
  unfold getVar
  split
  · rename_i k' hl
    obtain ⟨w', hw', id', h1, h2⟩ := h _ _ (lookup_mem hl) (by unfold fullName; simp only [List.append_assoc]; exact List.prefix_append _ _)
    obtain ⟨e1, -, e2⟩ := fullName_inj hw hw' h1
    rw [if_pos (by rw [h2]; exact (wants_kind w hw w' hw' e1 e2).symm)]
    exact ⟨reg, rfl, h⟩
  · refine ⟨_, rfl, ?_⟩
    intro n k hm hp
    rcases List.mem_cons.mp hm with he | hm
    · cases he
      exact ⟨w, hw, id, rfl, rfl⟩
    · exact h n k hm hp

private theorem make_ok (id : Str) (ws : List Want) : ∀ {reg : Registry}, RegOk reg → (∀ w ∈ ws, w ∈ allWants) → ∃ reg', make id reg ws = some reg' ∧ RegOk reg' := by
  induction ws with
  | nil => intro reg h _; exact ⟨reg, rfl, h⟩
  | cons w ws ih =>
    intro reg h hw
    obtain ⟨r1, h1, h2⟩ := getVar_ok h (hw w (by simp)) id
    obtain ⟨r2, h3, h4⟩ := ih h2 fun x hx => hw x (by simp [hx])
    exact ⟨r2, by simp [make, h1, h3], h4⟩

/-- C92: whatever elements a configuration has and whatever their ids are, registering their counters never crashes. (Other packages may have published variables, with other names.) -/
theorem registers (reg : Registry) (hreg : ∀ n k, (n, k) ∈ reg → ¬ str "routedns." <+: n) (l : List (Maker × Str)) : ∃ reg', makeAll reg l = some reg' := by
  have hr : RegOk reg := fun n k h hp => (hreg n k h hp).elim
  clear hreg
  induction l generalizing reg with
  | nil => exact ⟨reg, rfl⟩
  | cons x l ih =>
    obtain ⟨m, id⟩ := x
    obtain ⟨r1, h1, h2⟩ := make_ok id m.wants hr fun w hw => mem_all hw
    obtain ⟨r2, h3⟩ := ih r1 h2
    exact ⟨r2, by simp [makeAll, h1, h3]⟩

/-- C92: two elements count in the same variable only if they have the same id and the variable has the same base and name; ids may be any texts, also with dots. -/
theorem own_variables (m m' : Maker) (w w' : Want) (hw : w ∈ m.wants) (hw' : w' ∈ m'.wants) (id id' : Str) :
    fullName w.base id w.name = fullName w'.base id' w'.name ↔ w.base = w'.base ∧ id = id' ∧ w.name = w'.name := by
  constructor
  · exact fullName_inj (mem_all hw) (mem_all hw')
  · rintro ⟨h1, rfl, h2⟩
    rw [h1, h2]

/-! ### Listeners -/
open Listeners

private theorem conclude_counts (lib : Lib) (protocol : Str) (req : Msg) (a : Option Msg) :
    (conclude lib protocol req a = .closed ∧ concludeCounts lib protocol req a = [.drop]) ∨
    (∃ m, conclude lib protocol req a = .reply m ∧ concludeCounts lib protocol req a = [.response m.rcode]) ∨ conclude lib protocol req a = .crash := by
  unfold concludeCounts
  cases a with
  | none => exact Or.inl ⟨rfl, rfl⟩
  | some a =>
    have : ∀ w, finish lib protocol req a = w → w ≠ .silent ∧ w ≠ .closed := by
      intro w h
      unfold finish at h
      split at h
      · split at h <;> subst h <;> simp
      · subst h; simp
    cases hc : conclude lib protocol req (some a) with
    | silent => exact ((this _ hc).1 rfl).elim
    | closed => exact ((this _ hc).2 rfl).elim
    | reply m => exact Or.inr (Or.inl ⟨m, rfl, rfl⟩)
    | crash => exact Or.inr (Or.inr rfl)

set_option linter.unusedSimpArgs false

private theorem n1 : ¬ str "noquestion" = str "acl" := by decide
private theorem n2 : ¬ str "noquestion" = str "resolve" := by decide
private theorem n3 : ¬ str "acl" = str "resolve" := by decide

/-- What is counted for each counts in total. -/
private theorem count_total {α : Type} [DecidableEq γ] (f : α → List γ) (p : α → Bool) (a : γ) (l : List α)
    (h : ∀ x ∈ l, (f x).count a = if p x then 1 else 0) : (l.flatMap f).count a = l.countP p := by
  induction l with
  | nil => rfl
  | cons x l ih =>
    rw [List.flatMap_cons, List.count_append, List.countP_cons, ih fun y hy => h y (by simp [hy]), h x (by simp)]
    omega

private theorem flatMap_ind {α γ : Type} {P : List γ → Prop} (f : α → List γ) (l : List α) (h0 : P []) (h1 : ∀ a b, P a → P b → P (a ++ b)) (h : ∀ x ∈ l, P (f x)) :
    P (l.flatMap f) := by
  induction l with
  | nil => exact h0
  | cons x l ih => exact h1 _ _ (h x (by simp)) (ih fun y hy => h y (by simp [hy]))

private theorem countP_total {α : Type} (p q r : α → Bool) (l : List α)
    (h : ∀ x ∈ l, (if p x then 1 else 0) = (if q x then 1 else 0) + if r x then 1 else 0) : l.countP p = l.countP q + l.countP r := by
  induction l with
  | nil => rfl
  | cons x l ih =>
    rw [List.countP_cons, List.countP_cons, List.countP_cons, ih fun y hy => h y (by simp [hy]), h x (by simp)]
    omega

/-- One query to a listener: the pipeline as it is at that time, the address and the TLS name of the client, the message. -/
structure Asked where
  r : Pipeline
  peer : Str
  sni : Str
  req : Msg

/-- The errors that are counted for a message with a question -/
private def ErrsOf (id : Str) (allowed : List Cidr.IPNet) (x : Asked) (es : List Count) : Prop :=
  (isAllowed allowed x.peer = false ∧ es = [.error (str "acl")]) ∨
  (isAllowed allowed x.peer = true ∧ es = if (x.r x.req { sourceIP := x.peer, tlsServerName := x.sni, listener := id }).err.isSome then [.error (str "resolve")] else [])

private theorem errs_of {id : Str} {allowed : List Cidr.IPNet} {x : Asked} {es : List Count} (h : ErrsOf id allowed x es) :
    es.count .query = 0 ∧ es.count .drop = 0 ∧ (∀ c, es.count (.response c) = 0) ∧ es.count (.error (str "noquestion")) = 0 := by
  rcases h with ⟨_, rfl⟩ | ⟨_, rfl⟩
  · simp [List.count_cons, n1, Ne.symm n1]
  · split <;> simp [List.count_cons, n2, Ne.symm n2]

/-- C92: the counters of UDP, TCP, DoT and DTLS listeners are exact: queries are the messages with a question; each has a response counted under its code, or is counted as dropped,
and that is what happened; errors are the messages without question, the queries that failed and the clients that are not allowed. -/
theorem listener_counts (lib : Lib) (id protocol : Str) (allowed : List Cidr.IPNet) (l : List Asked)
    (hok : ∀ x ∈ l, (listenHandler lib id protocol x.r allowed x.peer x.sni x.req).out ≠ .crash) :
    let outs := l.map fun x => (listenHandler lib id protocol x.r allowed x.peer x.sni x.req).out
    let cs := l.flatMap fun x => listenCounts lib id protocol x.r allowed x.peer x.sni x.req
    cs.count .query = l.countP (fun x => x.req.question ≠ []) ∧ (∀ c, cs.count (.response c) = replies c outs) ∧ cs.count .drop = outs.count .closed ∧
    cs.count (.error (str "noquestion")) = l.countP (fun x => x.req.question = []) ∧
    cs.count (.error (str "acl")) = l.countP (fun x => x.req.question ≠ [] && !isAllowed allowed x.peer) ∧
    cs.count (.error (str "resolve")) = l.countP (fun x => x.req.question ≠ [] && isAllowed allowed x.peer &&
      (x.r x.req { sourceIP := x.peer, tlsServerName := x.sni, listener := id }).err.isSome) ∧
    cs.count .query = allReplies outs + cs.count .drop := by
  intro outs cs
  have key : ∀ x ∈ l, ∃ w t, (listenHandler lib id protocol x.r allowed x.peer x.sni x.req).out = w ∧ listenCounts lib id protocol x.r allowed x.peer x.sni x.req = t ∧
      ((x.req.question = [] ∧ w = .silent ∧ t = [.error (str "noquestion")]) ∨
      (x.req.question ≠ [] ∧ ((w = .closed ∧ ∃ es, t = .query :: es ++ [.drop] ∧ ErrsOf id allowed x es) ∨
        (∃ m, w = .reply m ∧ ∃ es, t = .query :: es ++ [.response m.rcode] ∧ ErrsOf id allowed x es)))) := by
    intro x hx
    have hc := hok x hx
    refine ⟨_, _, rfl, rfl, ?_⟩
    by_cases hq : x.req.question.length = 0
    · have hq' : x.req.question = [] := List.length_eq_zero_iff.mp hq
      exact Or.inl ⟨hq', by simp [listenHandler, hq'], by simp [listenCounts, hq']⟩
    · have hq' : x.req.question ≠ [] := fun h => hq (by simp [h])
      refine Or.inr ⟨hq', ?_⟩
      unfold listenHandler at hc ⊢
      unfold listenCounts
      simp only at hc ⊢
      rw [if_neg hq] at hc ⊢
      rw [if_neg hq]
      cases ha : isAllowed allowed x.peer with
      | true =>
        rw [if_pos ha] at hc
        rw [if_pos rfl, if_pos rfl]
        rcases conclude_counts lib protocol x.req (answerOr (servfail x.req) (x.r x.req { sourceIP := x.peer, tlsServerName := x.sni, listener := id })) with ⟨c1, c2⟩ | ⟨m, c1, c2⟩ | c1
        · exact Or.inl ⟨c1, _, by rw [c2], Or.inr ⟨ha, rfl⟩⟩
        · exact Or.inr ⟨m, c1, _, by rw [c2], Or.inr ⟨ha, rfl⟩⟩
        · exact (hc c1).elim
      | false =>
        rw [if_neg (by simp [ha])] at hc
        rw [if_neg (by simp), if_neg (by simp)]
        rcases conclude_counts lib protocol x.req (some (setRcode x.req rcodeRefused)) with ⟨c1, c2⟩ | ⟨m, c1, c2⟩ | c1
        · exact Or.inl ⟨c1, [.error (str "acl")], by rw [c2]; rfl, Or.inl ⟨ha, rfl⟩⟩
        · exact Or.inr ⟨m, c1, [.error (str "acl")], by rw [c2]; rfl, Or.inl ⟨ha, rfl⟩⟩
        · exact (hc c1).elim
  have e1 : cs.count .query = l.countP (fun x => x.req.question ≠ []) := by
    apply count_total
    intro x hx
    obtain ⟨w, t, hw, ht, ⟨hq, rfl, rfl⟩ | ⟨hq, ⟨rfl, es, rfl, he⟩ | ⟨m, rfl, es, rfl, he⟩⟩⟩ := key x hx <;> rw [ht]
    · simp [hq, List.count_cons]
    · have := errs_of he
      simp [hq, List.count_cons, this]
    · have := errs_of he
      simp [hq, List.count_cons, this]
  have e3 : cs.count .drop = outs.count .closed := by
    rw [List.count_eq_countP (l := outs), List.countP_map]
    apply count_total
    intro x hx
    obtain ⟨w, t, hw, ht, ⟨hq, rfl, rfl⟩ | ⟨hq, ⟨rfl, es, rfl, he⟩ | ⟨m, rfl, es, rfl, he⟩⟩⟩ := key x hx <;> rw [ht] <;> simp only [Function.comp, hw]
    · simp [List.count_cons]
    · have := errs_of he
      simp [List.count_cons, this]
    · have := errs_of he
      simp [List.count_cons, this]
  refine ⟨e1, fun c => ?_, e3, ?_, ?_, ?_, ?_⟩
  · unfold replies
    rw [List.countP_map]
    apply count_total
    intro x hx
    obtain ⟨w, t, hw, ht, ⟨hq, rfl, rfl⟩ | ⟨hq, ⟨rfl, es, rfl, he⟩ | ⟨m, rfl, es, rfl, he⟩⟩⟩ := key x hx <;> rw [ht] <;> simp only [Function.comp, hw]
    · simp [List.count_cons]
    · have := errs_of he
      simp [List.count_cons, this]
    · have := errs_of he
      simp [List.count_cons, this]
  · apply count_total
    intro x hx
    obtain ⟨w, t, hw, ht, ⟨hq, rfl, rfl⟩ | ⟨hq, ⟨rfl, es, rfl, he⟩ | ⟨m, rfl, es, rfl, he⟩⟩⟩ := key x hx <;> rw [ht]
    · simp [hq]
    · have := errs_of he
      simp [hq, List.count_cons, this]
    · have := errs_of he
      simp [hq, List.count_cons, this]
  · apply count_total
    intro x hx
    obtain ⟨w, t, hw, ht, ⟨hq, rfl, rfl⟩ | ⟨hq, ⟨rfl, es, rfl, ⟨ha, rfl⟩ | ⟨ha, rfl⟩⟩ | ⟨m, rfl, es, rfl, ⟨ha, rfl⟩ | ⟨ha, rfl⟩⟩⟩⟩ := key x hx <;> rw [ht]
    · simp [hq, List.count_cons, n1]
    · simp [hq, ha, List.count_cons]
    · split <;> simp [hq, ha, List.count_cons, n3, Ne.symm n3]
    · simp [hq, ha, List.count_cons]
    · split <;> simp [hq, ha, List.count_cons, n3, Ne.symm n3]
  · apply count_total
    intro x hx
    obtain ⟨w, t, hw, ht, ⟨hq, rfl, rfl⟩ | ⟨hq, ⟨rfl, es, rfl, ⟨ha, rfl⟩ | ⟨ha, rfl⟩⟩ | ⟨m, rfl, es, rfl, ⟨ha, rfl⟩ | ⟨ha, rfl⟩⟩⟩⟩ := key x hx <;> rw [ht]
    · simp [hq, List.count_cons, n2]
    · simp [hq, ha, List.count_cons, n3]
    · split <;> simp_all [List.count_cons]
    · simp [hq, ha, List.count_cons, n3]
    · split <;> simp_all [List.count_cons]
  · rw [e1, e3, List.count_eq_countP (l := outs)]
    unfold allReplies
    rw [List.countP_map, List.countP_map]
    apply countP_total
    intro x hx
    obtain ⟨w, t, hw, ht, ⟨hq, rfl, rfl⟩ | ⟨hq, ⟨rfl, es, rfl, he⟩ | ⟨m, rfl, es, rfl, he⟩⟩⟩ := key x hx <;> simp [hq, hw]

/-! ### DNS over HTTPS -/

/-- One request to a DoH listener -/
structure HttpAsked where
  r : Pipeline
  req : Req

/-- What happens to a message: the answer to the request, and what is counted for it -/
private inductive Fate (lib : Lib) : Http → List Count → Prop where
  | unpack : Fate lib (.status 400) [.error (str "unpack")]
  | noquestion : Fate lib (.status 400) [.error (str "noquestion")]
  | tooearly : Fate lib (.status 425) [.error (str "tooearly")]
  | remoteaddr : Fate lib (.status 400) [.error (str "remoteaddr")]
  | drop : Fate lib (.status 403) [.drop]
  | response (a : Msg) (b : Str) (h : lib.pack a = some b) : Fate lib (.ok b) [.response a.rcode]
  | pack (c : Nat) : Fate lib (.status 500) [.response c, .error (str "pack")]

private theorem fate_conclude (lib : Lib) (q : Msg) (a : Option Msg) (h : concludeHttp lib q a ≠ .crash) : Fate lib (concludeHttp lib q a) (concludeHttpCounts lib q a) := by
  cases a with
  | none => exact .drop
  | some a =>
    simp only [concludeHttp, respond, concludeHttpCounts] at h ⊢
    cases hp : Modifiers.padAnswer lib.len q a with
    | none => simp [hp] at h
    | some a' =>
      cases hk : lib.pack a' with
      | none => simpa [hk] using Fate.pack a'.rcode
      | some b => simpa [hk] using Fate.response a' b hk

private theorem fate (lib : Lib) (opt : DoHOpts) (r : Pipeline) (b : Str) (req : Req) (h : (parseAndRespond lib opt r b req).out ≠ .crash) :
    ∃ u, parseCounts lib opt r b req = .query :: u ∧ Fate lib (parseAndRespond lib opt r b req).out u := by
  refine ⟨_, rfl, ?_⟩
  unfold parseAndRespond at h ⊢
  cases hu : lib.unpack b with
  | none => exact .unpack
  | some q =>
    simp only [hu] at h ⊢
    by_cases hq : q.question.length = 0
    · simp only [hq, if_true]; exact .noquestion
    · simp only [hq, if_false] at h ⊢
      by_cases he : (earlyData req && !isReplayableOpcode q.opcode) = true
      · simp only [he, if_true]; exact .tooearly
      · rw [if_neg he] at h ⊢
        rw [if_neg he]
        cases hc : extractClientAddress lib.parseIP opt.proxyNet req.remoteHost req.xff with
        | none => exact .remoteaddr
        | some ip =>
          simp only [hc] at h ⊢
          by_cases ha : isAllowed opt.allowed ip = true
          · rw [if_pos ha] at h ⊢
            rw [if_pos ha]
            exact fate_conclude lib q _ h
          · rw [if_neg ha] at h ⊢
            rw [if_neg ha]
            exact fate_conclude lib q (some (setRcode q rcodeRefused)) h

/-- What happens to a request, with what is counted -/
private theorem doh_fate (lib : Lib) (opt : DoHOpts) (r : Pipeline) (req : Req) (h : (dohHandler lib opt r req).out ≠ .crash) :
    (req.method = str "GET" ∧ ¬ HasMessage req ∧ (dohHandler lib opt r req).out = .status 400 ∧ dohCounts lib opt r req = [.get]) ∨
    (req.method = str "POST" ∧ ¬ HasMessage req ∧ (dohHandler lib opt r req).out = .status 400 ∧ dohCounts lib opt r req = [.post]) ∨
    (req.method = str "POST" ∧ ¬ HasMessage req ∧ (dohHandler lib opt r req).out = .status 413 ∧ dohCounts lib opt r req = [.post, .error (str "toolarge")]) ∨
    (req.method ≠ str "GET" ∧ req.method ≠ str "POST" ∧ ¬ HasMessage req ∧ (dohHandler lib opt r req).out = .status 405 ∧ dohCounts lib opt r req = [.error (str "httpmethod")]) ∨
    (req.method = str "GET" ∧ HasMessage req ∧ ∃ u, dohCounts lib opt r req = .get :: .query :: u ∧ Fate lib (dohHandler lib opt r req).out u) ∨
    (req.method = str "POST" ∧ HasMessage req ∧ ∃ u, dohCounts lib opt r req = .post :: .query :: u ∧ Fate lib (dohHandler lib opt r req).out u) := by
  have gp : ¬ str "GET" = str "POST" := by decide
  unfold dohHandler at h ⊢
  unfold dohCounts
  by_cases hg : req.method = str "GET"
  · rw [if_pos hg] at h ⊢
    rw [if_pos hg]
    unfold getHandler at h ⊢
    rcases hd : req.dns with _ | _ | ⟨_ | b, rest⟩
    · exact Or.inl ⟨hg, by simp [HasMessage, hd, hg, gp], rfl, rfl⟩
    · exact Or.inl ⟨hg, by simp [HasMessage, hd, hg, gp], rfl, rfl⟩
    · exact Or.inl ⟨hg, by simp [HasMessage, hd, hg, gp], rfl, rfl⟩
    · simp only [hd] at h ⊢
      obtain ⟨u, h1, h2⟩ := fate lib opt r b req h
      exact Or.inr (Or.inr (Or.inr (Or.inr (Or.inl ⟨hg, Or.inl ⟨hg, b, rest, hd⟩, u, by rw [h1], h2⟩))))
  · rw [if_neg hg] at h ⊢
    rw [if_neg hg]
    by_cases hp : req.method = str "POST"
    · rw [if_pos hp] at h ⊢
      rw [if_pos hp]
      unfold postHandler at h ⊢
      rcases hb : req.body with _ | b
      · exact Or.inr (Or.inl ⟨hp, by simp [HasMessage, hb, hg], rfl, rfl⟩)
      · simp only [hb] at h ⊢
        by_cases hl : b.length > maxDoHRequestSize
        · rw [if_pos hl, if_pos hl]
          exact Or.inr (Or.inr (Or.inl ⟨hp, by simp only [HasMessage, hg, hb, false_and, false_or, not_and]; rintro - ⟨b', hb', hl'⟩; cases hb'; exact absurd hl (by simpa using hl'), rfl, rfl⟩))
        · rw [if_neg hl] at h ⊢
          rw [if_neg hl]
          obtain ⟨u, h1, h2⟩ := fate lib opt r b req h
          exact Or.inr (Or.inr (Or.inr (Or.inr (Or.inr ⟨hp, Or.inr ⟨hp, b, hb, by simpa using hl⟩, u, by rw [h1], h2⟩))))
    · rw [if_neg hp]
      rw [if_neg hp]
      exact Or.inr (Or.inr (Or.inr (Or.inl ⟨hg, hp, by simp [HasMessage, hg, hp], rfl, rfl⟩)))

set_option maxHeartbeats 1000000 in
/-- C92: the counters of DoH listeners are exact: requests by method, messages received, messages dropped (status 403), sent too early (425), too large (413), with another
method (405), answers that cannot be packed (500); and every message that was counted ends in exactly one of a response, a drop and an error. -/
theorem doh_counts (lib : Lib) (opt : DoHOpts) (l : List HttpAsked) (hok : ∀ x ∈ l, (dohHandler lib opt x.r x.req).out ≠ .crash) [DecidablePred HasMessage] :
    let outs := l.map fun x => (dohHandler lib opt x.r x.req).out
    let cs := l.flatMap fun x => dohCounts lib opt x.r x.req
    cs.count .get = l.countP (fun x => x.req.method = str "GET") ∧ cs.count .post = l.countP (fun x => x.req.method = str "POST") ∧
    cs.count .query = l.countP (fun x => HasMessage x.req) ∧
    cs.count .drop = outs.count (.status 403) ∧ cs.count (.error (str "tooearly")) = outs.count (.status 425) ∧ cs.count (.error (str "toolarge")) = outs.count (.status 413) ∧
    cs.count (.error (str "httpmethod")) = outs.count (.status 405) ∧ cs.count (.error (str "pack")) = outs.count (.status 500) ∧
    cs.count .query = cs.countP isResponse + cs.count .drop + cs.count (.error (str "unpack")) + cs.count (.error (str "noquestion")) + cs.count (.error (str "tooearly")) +
      cs.count (.error (str "remoteaddr")) := by
  intro outs cs
  have gp : ¬ str "GET" = str "POST" := by decide
  have gp' : ¬ str "POST" = str "GET" := by decide
  refine ⟨?_, ?_, ?_, ?_, ?_, ?_, ?_, ?_, ?_⟩
  · apply count_total
    intro x hx
    rcases doh_fate lib opt x.r x.req (hok x hx) with ⟨h1, h2, h3, h4⟩ | ⟨h1, h2, h3, h4⟩ | ⟨h1, h2, h3, h4⟩ | ⟨h1, h0, h2, h3, h4⟩ | ⟨h1, h2, u, h3, h4⟩ | ⟨h1, h2, u, h3, h4⟩
    · rw [h4]; simp [h1]
    · rw [h4]; simp [h1, gp', List.count_cons]
    · rw [h4]; simp [h1, gp', List.count_cons]
    · rw [h4]; simp [h1, List.count_cons]
    · rw [h3]; generalize (dohHandler lib opt x.r x.req).out = w at h4; cases h4 <;> simp [h1, List.count_cons]
    · rw [h3]; generalize (dohHandler lib opt x.r x.req).out = w at h4; cases h4 <;> simp [h1, List.count_cons, gp']
  · apply count_total
    intro x hx
    rcases doh_fate lib opt x.r x.req (hok x hx) with ⟨h1, h2, h3, h4⟩ | ⟨h1, h2, h3, h4⟩ | ⟨h1, h2, h3, h4⟩ | ⟨h1, h0, h2, h3, h4⟩ | ⟨h1, h2, u, h3, h4⟩ | ⟨h1, h2, u, h3, h4⟩
    · rw [h4]; simp [h1, gp, List.count_cons]
    · rw [h4]; simp [h1]
    · rw [h4]; simp [h1, List.count_cons]
    · rw [h4]; simp [h0, List.count_cons]
    · rw [h3]; generalize (dohHandler lib opt x.r x.req).out = w at h4; cases h4 <;> simp [h1, List.count_cons, gp]
    · rw [h3]; generalize (dohHandler lib opt x.r x.req).out = w at h4; cases h4 <;> simp [h1, List.count_cons]
  · apply count_total
    intro x hx
    rcases doh_fate lib opt x.r x.req (hok x hx) with ⟨h1, h2, h3, h4⟩ | ⟨h1, h2, h3, h4⟩ | ⟨h1, h2, h3, h4⟩ | ⟨h1, h0, h2, h3, h4⟩ | ⟨h1, h2, u, h3, h4⟩ | ⟨h1, h2, u, h3, h4⟩
    · rw [h4]; simp [h2, List.count_cons]
    · rw [h4]; simp [h2, List.count_cons]
    · rw [h4]; simp [h2, List.count_cons]
    · rw [h4]; simp [h2, List.count_cons]
    · rw [h3]; generalize (dohHandler lib opt x.r x.req).out = w at h4; cases h4 <;> simp [h2, List.count_cons]
    · rw [h3]; generalize (dohHandler lib opt x.r x.req).out = w at h4; cases h4 <;> simp [h2, List.count_cons]
  iterate 5
    · rw [List.count_eq_countP (l := outs), List.countP_map]
      apply count_total
      intro x hx
      change _ = if ((dohHandler lib opt x.r x.req).out == _) = true then 1 else 0
      rcases doh_fate lib opt x.r x.req (hok x hx) with ⟨h1, h2, h3, h4⟩ | ⟨h1, h2, h3, h4⟩ | ⟨h1, h2, h3, h4⟩ | ⟨h1, h0, h2, h3, h4⟩ | ⟨h1, h2, u, h3, h4⟩ | ⟨h1, h2, u, h3, h4⟩
      · rw [h3, h4]; decide
      · rw [h3, h4]; decide
      · rw [h3, h4]; decide
      · rw [h3, h4]; decide
      · rw [h3]; generalize (dohHandler lib opt x.r x.req).out = w at h4 ⊢
        cases h4 <;> simp (decide := true) [List.count_cons]
      · rw [h3]; generalize (dohHandler lib opt x.r x.req).out = w at h4 ⊢
        cases h4 <;> simp (decide := true) [List.count_cons]
  · apply flatMap_ind (P := fun t => t.count .query = t.countP isResponse + t.count .drop + t.count (.error (str "unpack")) + t.count (.error (str "noquestion")) +
      t.count (.error (str "tooearly")) + t.count (.error (str "remoteaddr")))
    · rfl
    · intro a b ha hb
      simp only [List.count_append, List.countP_append, ha, hb]
      omega
    · intro x hx
      rcases doh_fate lib opt x.r x.req (hok x hx) with ⟨h1, h2, h3, h4⟩ | ⟨h1, h2, h3, h4⟩ | ⟨h1, h2, h3, h4⟩ | ⟨h1, h0, h2, h3, h4⟩ | ⟨h1, h2, u, h3, h4⟩ | ⟨h1, h2, u, h3, h4⟩
      · rw [h4]; decide
      · rw [h4]; decide
      · rw [h4]; decide
      · rw [h4]; decide
      · rw [h3]; generalize (dohHandler lib opt x.r x.req).out = w at h4
        cases h4 <;> simp (decide := true) [List.count_cons, List.countP_cons, isResponse]
      · rw [h3]; generalize (dohHandler lib opt x.r x.req).out = w at h4
        cases h4 <;> simp (decide := true) [List.count_cons, List.countP_cons, isResponse]

/-- C92: an answer sent over HTTPS is counted, once, under the code it has. -/
theorem doh_response_code (lib : Lib) (opt : DoHOpts) (r : Pipeline) (req : Req) (b : Str) (h : (dohHandler lib opt r req).out = .ok b) :
    ∃ a, lib.pack a = some b ∧ ∀ c, (dohCounts lib opt r req).count (.response c) = if a.rcode = c then 1 else 0 := by
  rcases doh_fate lib opt r req (by rw [h]; simp) with ⟨h1, h2, h3, h4⟩ | ⟨h1, h2, h3, h4⟩ | ⟨h1, h2, h3, h4⟩ | ⟨h1, h0, h2, h3, h4⟩ | ⟨h1, h2, u, h3, h4⟩ | ⟨h1, h2, u, h3, h4⟩
  · rw [h] at h3; cases h3
  · rw [h] at h3; cases h3
  · rw [h] at h3; cases h3
  · rw [h] at h3; cases h3
  · rw [h] at h4
    cases h4 with
    | response a b hp => exact ⟨a, hp, fun c => by rw [h3]; simp [List.count_cons]⟩
  · rw [h] at h4
    cases h4 with
    | response a b hp => exact ⟨a, hp, fun c => by rw [h3]; simp [List.count_cons]⟩

/-! ### Elements with one decision for each query -/

/-- C92: a blocklist counts each query once: as denied if it is on the blocklist and not on the allowlist, and then the query does not go on upstream; as allowed otherwise,
and then it goes on unchanged. -/
theorem blocklist_counts (o : Blocklist.Options) (q : Msg) (act : Blocklist.Act) (h : Blocklist.resolve o q = some act) :
    (blocklistCounts o q = [.deny] ∧ Spec.Blocklist.On o.blockDB q ∧ (∀ db, o.allowDB = some db → ¬ Spec.Blocklist.On db q) ∧
      act ≠ .forward .upstream q ∧ act ≠ .forward .allow q) ∨
    (blocklistCounts o q = [.allow] ∧ (¬ Spec.Blocklist.On o.blockDB q ∨ ∃ db, o.allowDB = some db ∧ Spec.Blocklist.On db q) ∧
      (act = .forward .upstream q ∨ act = .forward .allow q)) := by
  unfold Blocklist.resolve at h
  unfold blocklistCounts
  cases hq : q.question with
  | nil => simp [hq] at h
  | cons qu rest =>
    simp only [hq] at h
    by_cases ha : (o.allowDB.bind fun db => db q).isSome = true
    · rw [if_pos ha] at h ⊢
      cases h
      refine Or.inr ⟨rfl, Or.inr ?_, ?_⟩
      · cases hd : o.allowDB with
        | none => simp [hd] at ha
        | some db =>
          simp only [hd, Option.bind_some] at ha
          exact ⟨db, rfl, Option.isSome_iff_exists.mp ha⟩
      · split <;> simp
    · rw [if_neg ha] at h ⊢
      cases hb : o.blockDB q with
      | none =>
        simp only [hb] at h
        cases h
        exact Or.inr ⟨by simp, Or.inl (by rintro ⟨x, hx⟩; rw [hb] at hx; cases hx), Or.inl rfl⟩
      | some hit =>
        simp only [hb] at h
        refine Or.inl ⟨by simp, ⟨hit, hb⟩, ?_, ?_⟩
        · rintro db hd ⟨x, hx⟩
          exact ha (by simp [hd, hx])
        · split at h
          · cases h; exact ⟨Blocklist.Act.noConfusion, Blocklist.Act.noConfusion⟩
          · split at h
            · cases h; exact ⟨by simp, by simp⟩
            · split at h <;> cases h <;> exact ⟨by simp, by simp⟩

/-- C92: a client blocklist counts each query once: as denied if the address is on the list, and then the query does not go on upstream; as allowed otherwise. -/
theorem client_blocklist_counts (useECS hasBlockResolver : Bool) (db : Str → Option Lists.Match) (q : Msg) (ci : ClientInfo) :
    (clientBlocklistCounts useECS db q ci = [.deny] ∧ Blocklist.resolveClient useECS hasBlockResolver db q ci ≠ .forward .upstream q) ∨
    (clientBlocklistCounts useECS db q ci = [.allow] ∧ Blocklist.resolveClient useECS hasBlockResolver db q ci = .forward .upstream q) := by
  unfold clientBlocklistCounts Blocklist.resolveClient
  simp only
  by_cases h : Blocklist.clientIP useECS q ci = []
  · rw [if_pos h, if_pos h]; exact Or.inr ⟨rfl, rfl⟩
  · rw [if_neg h, if_neg h]
    cases hd : db (Blocklist.clientIP useECS q ci) with
    | none => exact Or.inr ⟨rfl, rfl⟩
    | some m => exact Or.inl ⟨rfl, by dsimp only; split <;> simp⟩

/-- C92: over any queries, a rate limiter counts each, those above the limit, and of these those that are dropped. -/
theorem rate_counts (o : Rate.Options) (s : Rate.State) (l : List (Int × Str)) (bs : List Bool) (hl : Bool) (h : Rate.run o s l = some bs) :
    let cs := bs.flatMap (rateCounts hl)
    cs.count .query = l.length ∧ cs.count .exceed = bs.count true ∧ cs.count .drop = (bs.map (Rate.dest hl)).count .dropped ∧
    cs.count .exceed = cs.count .drop + (bs.map (Rate.dest hl)).count .limitResolver := by
  induction l generalizing s bs with
  | nil => cases h; exact ⟨rfl, rfl, rfl, rfl⟩
  | cons x l ih =>
    obtain ⟨t, ip⟩ := x
    simp only [Rate.run] at h
    split at h
    · cases h
    · rename_i s' b _
      split at h
      · cases h
      · rename_i bs' hr
        cases h
        obtain ⟨i1, i2, i3, i4⟩ := ih s' bs' hr
        simp only [List.flatMap_cons, List.count_append, List.map_cons, List.count_cons, List.length_cons] at *
        cases b <;> cases hl <;> simp [rateCounts, Rate.dest, List.count_cons] at * <;> omega

private theorem synth_aaaa {ps : List Dns64.Pfx} {a : Msg} {qu : Question} (h : Dns64.synthesizeAAAA ps a qu ≠ []) : ∃ rr ∈ Dns64.synthesizeAAAA ps a qu, rr.rtype = typeAAAA := by
  unfold Dns64.synthesizeAAAA at h ⊢
  simp only at h ⊢
  split at h
  · exact (h rfl).elim
  · rename_i hn
    rw [if_neg hn]
    obtain ⟨rr, hrr⟩ := List.exists_mem_of_ne_nil _ hn
    refine ⟨rr, List.mem_append_right _ hrr, ?_⟩
    obtain ⟨r, _, hr⟩ := List.mem_flatMap.mp hrr
    split at hr
    · split at hr
      · unfold Dns64.synthesizeAll at hr
        obtain ⟨p, _, hp⟩ := List.mem_filterMap.mp hr
        cases hs : Dns64.synthesize p _ with
        | none => rw [hs] at hp; cases hp
        | some ip6 => rw [hs] at hp; cases hp; rfl
      · cases hr
    · cases hr

/-- C92: DNS64 counts a synthesis exactly if the client gets something else than what the upstream resolver said; and at most one of synthesis, pass-through and error. -/
theorem dns64_counts (ps : List Dns64.Pfx) (up : Msg → Res) (q : Msg) (r : Res) (h : Dns64.resolve ps up q = some r) :
    (.synth ∈ dns64Counts ps up q ↔ r ≠ up q) ∧
    (dns64Counts ps up q).count .synth + (dns64Counts ps up q).count .passthru + (dns64Counts ps up q).count .err ≤ 1 ∧
    (.query ∈ dns64Counts ps up q ↔ ∃ qu, q.question.head? = some qu ∧ qu.qtype = typeAAAA ∧ ∀ e, q.edns? = some e → e.dnssecOk = false) := by
  unfold Dns64.resolve at h
  unfold dns64Counts
  cases hq : q.question with
  | nil => simp [hq] at h
  | cons qu rest =>
    simp only [hq] at h ⊢
    by_cases ht : qu.qtype ≠ typeAAAA
    · rw [if_pos ht] at h ⊢
      cases h
      exact ⟨by simp, by simp [List.count_cons], by simp [ht]⟩
    rw [if_neg ht] at h ⊢
    have ht' : qu.qtype = typeAAAA := Decidable.not_not.mp ht
    by_cases hd : (q.edns?.map (·.dnssecOk)).getD false = true
    · rw [if_pos hd] at h ⊢
      cases h
      refine ⟨by simp, by simp [List.count_cons], ?_⟩
      constructor
      · intro hm; simp at hm
      · rintro ⟨_, _, _, h2⟩
        cases he : q.edns? with
        | none => simp [he] at hd
        | some e => simp [he, h2 e he] at hd
    rw [if_neg hd] at h ⊢
    have hdd : ∀ e, q.edns? = some e → e.dnssecOk = false := by
      intro e he
      simpa [he] using hd
    have hc : ∃ qu', (qu :: rest).head? = some qu' ∧ qu'.qtype = typeAAAA ∧ ∀ e, q.edns? = some e → e.dnssecOk = false := ⟨qu, rfl, ht', hdd⟩
    refine ⟨?_, ?_, ⟨fun _ => hc, fun _ => by simp⟩⟩
    · split at h
      · rename_i hb; cases h; rw [if_pos hb]; simp
      · rename_i hb; rw [if_neg hb]
        cases hm : (up q).msg with
        | none => simp only [hm] at h ⊢; cases h; simp
        | some answer =>
          simp only [hm] at h ⊢
          split at h
          · rename_i h1; rw [if_pos h1]; cases h; simp
          · rename_i h1; rw [if_neg h1]
            split at h
            · rename_i h2; rw [if_pos h2]; cases h; simp
            · rename_i h2; rw [if_neg h2]
              split at h
              · rename_i h3; rw [if_pos h3]; cases h; simp
              · rename_i h3; rw [if_neg h3]
                cases ha : (up (Dns64.aQuery q)).msg with
                | none => simp only [ha] at h ⊢; cases h; simp
                | some aAnswer =>
                  simp only [ha] at h ⊢
                  split at h
                  · rename_i h4; rw [if_pos h4]; cases h; simp
                  · rename_i h4; rw [if_neg h4]
                    split at h
                    · rename_i h5; rw [if_pos h5]; cases h; simp
                    · rename_i h5; rw [if_neg h5]
                      cases h
                      refine ⟨fun _ he => ?_, fun _ => by simp⟩
                      have hmm := congrArg Res.msg he
                      rw [hm] at hmm
                      simp only [Res.ok, Option.some.injEq] at hmm
                      obtain ⟨rr, hrr, hty⟩ := synth_aaaa h5
                      apply h2
                      rw [← hmm]
                      simp only [Dns64.hasAAAA, List.any_eq_true]
                      exact ⟨rr, hrr, by simp [hty]⟩
    · rw [List.count_cons, List.count_cons, List.count_cons]
      repeat' split
      all_goals simp_all [List.count_cons]

/-- C92: a cache counts each query with one question, other than the one that flushes it, exactly once: as a miss if the upstream resolver was asked, as a hit if not. -/
theorem cache_counts {H : Type} [DecidableEq H] (env : CacheM.Env H) (o : CacheM.Opts) (c : CacheM.State H) (q : Msg) (up : Res) (clock : Nat → Int) (t : Int)
    (out : CacheM.Outcome H) (h : CacheM.resolve env o c q up clock t = some out) :
    (q.question.length > 1 → cacheCounts env o c q clock = some []) ∧
    ∀ qu, q.question = [qu] → (o.flushQuery ≠ [] ∧ o.flushQuery = qu.name → cacheCounts env o c q clock = some []) ∧
      (¬ (o.flushQuery ≠ [] ∧ o.flushQuery = qu.name) →
        (out.asked = true ∧ cacheCounts env o c q clock = some [.miss]) ∨ (out.asked = false ∧ cacheCounts env o c q clock = some [.hit])) := by
  refine ⟨fun hl => by simp [cacheCounts, hl], fun qu hq => ⟨fun hf => by unfold cacheCounts; rw [if_neg (by simp [hq])]; simp only [hq]; rw [if_pos hf], fun hf => ?_⟩⟩
  unfold CacheM.resolve at h
  unfold cacheCounts
  rw [if_neg (by simp [hq])] at h ⊢
  simp only [hq, List.head?_cons, Option.bind_eq_bind, Option.bind_some] at h ⊢
  rw [if_neg hf] at h ⊢
  cases ha : CacheM.answerFromCache env o c q clock with
  | none => simp [ha] at h
  | some x =>
    obtain ⟨c', r⟩ := x
    simp only [ha, Option.bind_some] at h ⊢
    cases r with
    | some r =>
      obtain ⟨a, pf⟩ := r
      cases h
      exact Or.inr ⟨rfl, rfl⟩
    | none =>
      refine Or.inl ⟨?_, rfl⟩
      simp only at h
      split at h
      · split at h
        · cases h; rfl
        · cases hs : CacheM.storeInCache env o c' q _ t with
          | none => rw [hs] at h; cases h
          | some c'' => rw [hs] at h; cases h; rfl
      · cases h; rfl

private theorem strip_ad (a : Msg) (x y : Bool) (t : Nat) : (DnssecResolver.stripDNSSEC a x y t).ad = a.ad := by
  unfold DnssecResolver.stripDNSSEC
  split
  · rfl
  · simp only
    split
    · rfl
    · rfl

/-- C92: the validator counts a success exactly if an answer was validated, and a failure exactly if one was found bogus: then, unless it only logs, the client gets an error. -/
theorem dnssec_counts (logOnly : Bool) (validate : Msg → DnssecResolver.Verdict) (up : Msg → ClientInfo → Res) (q : Msg) (ci : ClientInfo) (r : Res)
    (h : DnssecResolver.resolve logOnly validate up q ci = some r) :
    (dnssecCounts validate up q ci = [.success] ∧ ∃ a m, up (DnssecResolver.upstreamQuery q) ci = .ok a ∧ validate a = .valid ∧ r = .ok m ∧ m.ad = true) ∨
    (dnssecCounts validate up q ci = [.failure] ∧ (∃ a, up (DnssecResolver.upstreamQuery q) ci = .ok a ∧ validate a = .bogus) ∧ (logOnly = false → r = .ok (servfail q))) ∨
    (dnssecCounts validate up q ci = [] ∧
      ∀ a, up (DnssecResolver.upstreamQuery q) ci = .ok a → validate a = .insecure ∨ (a.rcode ≠ rcodeSuccess ∧ a.rcode ≠ rcodeNameError)) := by
  unfold DnssecResolver.resolve at h
  unfold dnssecCounts
  obtain ⟨u, hu⟩ : ∃ u, up (DnssecResolver.upstreamQuery q) ci = u := ⟨_, rfl⟩
  simp only [hu] at h ⊢
  cases hq : q.question with
  | nil => simp [hq] at h
  | cons qu rest =>
    simp only [hq] at h
    obtain ⟨um, ue⟩ := u
    cases ue with
    | some e => exact Or.inr (Or.inr ⟨by cases um <;> rfl, fun a ha => by simp [Res.ok] at ha⟩)
    | none => cases um with
      | none => exact Or.inr (Or.inr ⟨rfl, fun a ha => by simp [Res.ok] at ha⟩)
      | some a =>
        simp only at h ⊢
        by_cases hr : a.rcode ≠ rcodeSuccess ∧ a.rcode ≠ rcodeNameError
        · rw [if_pos hr]
          exact Or.inr (Or.inr ⟨rfl, fun a' ha => by cases ha; exact Or.inr hr⟩)
        · rw [if_neg hr] at h ⊢
          cases hv : validate a with
          | insecure => exact Or.inr (Or.inr ⟨rfl, fun a' ha => by cases ha; exact Or.inl hv⟩)
          | bogus =>
            simp only [hv] at h
            refine Or.inr (Or.inl ⟨rfl, ⟨a, rfl, hv⟩, fun hl => ?_⟩)
            rw [if_pos hl] at h
            cases h; rfl
          | valid =>
            simp only [hv] at h
            cases h
            exact Or.inl ⟨rfl, a, _, rfl, hv, rfl, by rw [strip_ad]⟩

/-! ### Groups -/
open Group

private theorem countP_set' {α : Type} (p : α → Bool) {l : List α} {k : Nat} {x : α} (y : α) (h : l[k]? = some x) :
    (l.set k y).countP p + (if p x then 1 else 0) = l.countP p + if p y then 1 else 0 := by
  induction l generalizing k with
  | nil => simp at h
  | cons a l ih =>
    cases k with
    | zero =>
      simp only [List.getElem?_cons_zero, Option.some.injEq] at h
      subst h
      simp only [List.set_cons_zero, List.countP_cons]
      omega
    | succ k =>
      simp only [List.getElem?_cons_succ] at h
      simp only [List.set_cons_succ, List.countP_cons]
      have := ih h
      omega

private theorem waiting_next (n i m : Nat) (r : Res) : waiting m [nextAttempt n i r] = 0 := by
  unfold nextAttempt
  split <;> rfl

private theorem waiting_set {qs : List Phase} {k : Nat} {x : Phase} (m : Nat) (y : Phase) (h : qs[k]? = some x) :
    waiting m (qs.set k y) + waiting m [x] = waiting m qs + waiting m [y] := by
  simp only [waiting, List.countP_cons, List.countP_nil, Nat.zero_add]
  exact countP_set' _ y h

private theorem log_add (t : Tally) (c d : GCount) : (t.add c).log.count d = t.log.count d + if c = d then 1 else 0 := by
  simp [Tally.add, List.count_append, List.count_cons]

private theorem rotate_gen (n : Nat) (ok : Res → Bool) (es : List Rotate.Ev) (s s' : Rotate.Sys) (t t' : Tally) (h : rotateRun n ok (s, t) es = some (s', t')) :
    Rotate.run n ok s es = some s' ∧
    (∀ m, t'.log.count (.route m) + waiting m s.queries = t.log.count (.route m) + asked m (rotateReplies n ok s es) + waiting m s'.queries) ∧
    (∀ m, t'.log.count (.failure m) = t.log.count (.failure m) + failed ok m (rotateReplies n ok s es)) ∧
    (∃ f, t'.log.count .failover = t.log.count .failover + f ∧ (s.active < n → s'.active = (s.active + f) % n)) ∧ t'.available = t.available := by
  induction es generalizing s t with
  | nil =>
    cases h
    exact ⟨rfl, fun m => by simp [rotateReplies, asked], fun m => by simp [rotateReplies, failed], ⟨0, rfl, fun h => (Nat.mod_eq_of_lt h).symm⟩, rfl⟩
  | cons e es ih =>
    simp only [rotateRun, Option.bind_eq_bind] at h
    cases hs : Rotate.step n ok s e with
    | none => simp [hs] at h
    | some s1 =>
      simp only [hs, Option.bind_some] at h
      obtain ⟨j1, j2, j3, ⟨f, j4, j5⟩, j6⟩ := ih s1 _ h
      refine ⟨by simp [Rotate.run, hs, j1], ?_⟩
      cases e with
      | start =>
        simp only [Rotate.step, Option.some.injEq] at hs
        subst hs
        simp only [rotateTally] at j2 j3 j4 j6
        refine ⟨fun m => ?_, fun m => ?_, ⟨f, j4, j5⟩, j6⟩
        · have := j2 m
          have hw : waiting m (s.queries ++ [if 0 < n then Phase.idle 0 Res.drop else .done Res.drop]) = waiting m s.queries := by
            unfold waiting; rw [List.countP_append]; split <;> rfl
          rw [hw] at this
          simpa [rotateReplies, Rotate.step] using this
        · simpa [rotateReplies, Rotate.step] using j3 m
      | current k =>
        simp only [Rotate.step] at hs
        split at hs
        · rename_i i r hq
          cases hs
          simp only [rotateTally, log_add, reduceCtorEq, if_false, Nat.add_zero] at j2 j3 j4 j6
          refine ⟨fun m => ?_, fun m => ?_, ⟨f, j4, j5⟩, j6⟩
          · have := j2 m
            have hw := waiting_set m (.calling i s.active) hq
            simp only [waiting, List.countP_cons, List.countP_nil, GCount.route.injEq, decide_eq_true_eq] at hw this ⊢
            simp only [rotateReplies, Rotate.step, hq, List.nil_append]
            simp at hw
            omega
          · simpa [rotateReplies, Rotate.step, hq] using j3 m
        · cases hs
      | reply k r =>
        simp only [Rotate.step] at hs
        split at hs
        · rename_i i m0 hq
          cases hs
          simp only [rotateTally, hq] at j2 j3 j4 j6
          have hrep : rotateReplies n ok s (.reply k r :: es) = (m0, r) ::
              rotateReplies n ok { s with queries := s.queries.set k (if ok r then .done r else .failed i m0 r) } es := by
            simp [rotateReplies, Rotate.step, hq]
          rw [hrep]
          have hw := fun m => waiting_set m (if ok r then .done r else .failed i m0 r) hq
          cases hr : ok r with
          | true =>
            simp only [hr, if_true] at j2 j3 j4 j5 j6 hw ⊢
            refine ⟨fun m => ?_, fun m => ?_, ⟨f, j4, j5⟩, j6⟩
            · have := j2 m
              have hw := hw m
              simp only [waiting, asked, List.countP_cons, List.countP_nil] at hw this ⊢
              simp at hw ⊢
              omega
            · have := j3 m
              simp only [failed, List.countP_cons, hr] at this ⊢
              simpa using this
          | false =>
            simp only [hr, if_false, Bool.false_eq_true, log_add, reduceCtorEq, Nat.add_zero] at j2 j3 j4 j5 j6 hw ⊢
            refine ⟨fun m => ?_, fun m => ?_, ⟨f, j4, j5⟩, j6⟩
            · have := j2 m
              have hw := hw m
              simp only [waiting, asked, List.countP_cons, List.countP_nil] at hw this ⊢
              simp at hw ⊢
              omega
            · have := j3 m
              simp only [failed, List.countP_cons, hr, GCount.failure.injEq] at this ⊢
              simp at this ⊢
              omega
        · cases hs
      | report k =>
        simp only [Rotate.step] at hs
        split at hs
        · rename_i i m0 r hq
          cases hs
          simp only [rotateTally, hq] at j2 j3 j4 j6
          have hrep : rotateReplies n ok s (.report k :: es) =
              rotateReplies n ok { active := if m0 = s.active then (s.active + 1) % n else s.active, queries := s.queries.set k (nextAttempt n i r) } es := by
            simp [rotateReplies, Rotate.step, hq]
          rw [hrep]
          have hw : ∀ m, waiting m (s.queries.set k (nextAttempt n i r)) = waiting m s.queries := by
            intro m
            have := waiting_set m (nextAttempt n i r) hq
            rw [waiting_next] at this
            simpa [waiting] using this
          by_cases hm : m0 = s.active
          · simp only [hm, if_true, log_add, reduceCtorEq, if_false, Nat.add_zero] at j2 j3 j4 j5 j6 ⊢
            refine ⟨fun m => by rw [← hw m]; exact j2 m, j3, ⟨f + 1, by omega, fun hl => ?_⟩, j6⟩
            rw [j5 (Nat.mod_lt _ (by omega)), Nat.mod_add_mod]
            congr 1
            omega
          · simp only [hm, if_false] at j2 j3 j4 j5 j6 ⊢
            exact ⟨fun m => by rw [← hw m]; exact j2 m, j3, ⟨f, j4, j5⟩, j6⟩
        · cases hs

/-- C92: in a fail-rotate group, over all interleavings of any number of queries: for each member, the count of queries routed to it is the number of its replies plus the queries
that wait for it, the count of failures is the number of its replies that failed; the count of fail-overs tells which member is active. The gauge of available members never changes. -/
theorem rotate_counts (n : Nat) (ok : Res → Bool) (es : List Rotate.Ev) (s : Rotate.Sys) (t : Tally) (h : rotateRun n ok (⟨0, []⟩, ⟨[], n⟩) es = some (s, t)) :
    Rotate.run n ok ⟨0, []⟩ es = some s ∧
    (∀ m, t.log.count (.route m) = asked m (rotateReplies n ok ⟨0, []⟩ es) + waiting m s.queries) ∧
    (∀ m, t.log.count (.failure m) = failed ok m (rotateReplies n ok ⟨0, []⟩ es)) ∧
    (0 < n → s.active = t.log.count .failover % n) ∧ t.available = n := by
  obtain ⟨h1, h2, h3, ⟨f, h4, h5⟩, h6⟩ := rotate_gen n ok es _ _ _ _ h
  simp only [List.count_nil, Nat.zero_add] at h2 h3 h4 h5
  exact ⟨h1, fun m => by simpa [waiting] using h2 m, h3, fun hn => by rw [h5 hn, h4], h6⟩

private theorem back_gen (n : Nat) (ok : Res → Bool) (es : List Back.Ev) (s s' : Back.Sys) (t t' : Tally) (h : backRun n ok (s, t) es = some (s', t')) :
    Back.run n ok s es = some s' ∧
    (∀ m, t'.log.count (.route m) + waiting m s.queries = t.log.count (.route m) + asked m (backReplies n ok s es) + waiting m s'.queries) ∧
    (∀ m, t'.log.count (.failure m) = t.log.count (.failure m) + failed ok m (backReplies n ok s es)) ∧
    (s.active < n → t.available = n - s.active → s'.active < n ∧ t'.available = n - s'.active) ∧
    (s.active < n → .fire ∉ es → ∃ f, t'.log.count .failover = t.log.count .failover + f ∧ s'.active = (s.active + f) % n) := by
  induction es generalizing s t with
  | nil =>
    cases h
    exact ⟨rfl, fun m => by simp [backReplies, asked], fun m => by simp [backReplies, failed], fun h h' => ⟨h, h'⟩, fun h _ => ⟨0, rfl, (Nat.mod_eq_of_lt h).symm⟩⟩
  | cons e es ih =>
    simp only [backRun, Option.bind_eq_bind] at h
    cases hs : Back.step n ok s e with
    | none => simp [hs] at h
    | some s1 =>
      simp only [hs, Option.bind_some] at h
      obtain ⟨j1, j2, j3, j4, j5⟩ := ih s1 _ h
      refine ⟨by simp [Back.run, hs, j1], ?_⟩
      have j5' : s1.active < n → ¬ Back.Ev.fire ∈ e :: es → ∃ f, t'.log.count .failover = (backTally n ok s t e).log.count .failover + f ∧ s'.active = (s1.active + f) % n :=
        fun hl hf => j5 hl fun hm => hf (List.mem_cons_of_mem _ hm)
      clear j5
      cases e with
      | start =>
        simp only [Back.step, Option.some.injEq] at hs
        subst hs
        simp only [backTally] at j2 j3 j4 j5'
        refine ⟨fun m => ?_, fun m => ?_, j4, j5'⟩
        · have := j2 m
          have hw : waiting m (s.queries ++ [if 0 < n then Phase.idle 0 Res.drop else .done Res.drop]) = waiting m s.queries := by
            unfold waiting; rw [List.countP_append]; split <;> rfl
          rw [hw] at this
          simpa [backReplies, Back.step] using this
        · simpa [backReplies, Back.step] using j3 m
      | current k =>
        simp only [Back.step] at hs
        split at hs
        · rename_i i r hq
          cases hs
          simp only [backTally, log_add, reduceCtorEq, if_false, Nat.add_zero] at j2 j3 j4 j5'
          refine ⟨fun m => ?_, fun m => ?_, j4, j5'⟩
          · have := j2 m
            have hw := waiting_set m (.calling i s.active) hq
            simp only [waiting, List.countP_cons, List.countP_nil, GCount.route.injEq, decide_eq_true_eq] at hw this ⊢
            simp only [backReplies, Back.step, hq, List.nil_append]
            simp at hw
            omega
          · simpa [backReplies, Back.step, hq] using j3 m
        · cases hs
      | reply k r =>
        simp only [Back.step] at hs
        split at hs
        · rename_i i m0 hq
          cases hs
          simp only [backTally, hq] at j2 j3 j4 j5'
          have hrep : backReplies n ok s (.reply k r :: es) = (m0, r) ::
              backReplies n ok { s with queries := s.queries.set k (if ok r then .done r else .failed i m0 r) } es := by
            simp [backReplies, Back.step, hq]
          rw [hrep]
          have hw := fun m => waiting_set m (if ok r then .done r else .failed i m0 r) hq
          cases hr : ok r with
          | true =>
            simp only [hr, if_true] at j2 j3 j4 j5' hw ⊢
            refine ⟨fun m => ?_, fun m => ?_, j4, j5'⟩
            · have := j2 m
              have hw := hw m
              simp only [waiting, asked, List.countP_cons, List.countP_nil] at hw this ⊢
              simp at hw ⊢
              omega
            · have := j3 m
              simp only [failed, List.countP_cons, hr] at this ⊢
              simpa using this
          | false =>
            simp only [hr, if_false, Bool.false_eq_true, log_add, reduceCtorEq, Nat.add_zero] at j2 j3 j4 j5' hw ⊢
            refine ⟨fun m => ?_, fun m => ?_, j4, j5'⟩
            · have := j2 m
              have hw := hw m
              simp only [waiting, asked, List.countP_cons, List.countP_nil] at hw this ⊢
              simp at hw ⊢
              omega
            · have := j3 m
              simp only [failed, List.countP_cons, hr, GCount.failure.injEq] at this ⊢
              simp at this ⊢
              omega
        · cases hs
      | report k =>
        simp only [Back.step] at hs
        split at hs
        · rename_i i m0 r hq
          by_cases hm : m0 ≠ s.active
          · rw [if_pos hm] at hs
            cases hs
            simp only [backTally, hq, if_pos hm] at j2 j3 j4 j5'
            have hw : ∀ m, waiting m (s.queries.set k (nextAttempt n i r)) = waiting m s.queries := by
              intro m
              have := waiting_set m (nextAttempt n i r) hq
              rw [waiting_next] at this
              simpa [waiting] using this
            refine ⟨fun m => ?_, fun m => ?_, j4, j5'⟩
            · have := j2 m
              rw [hw m] at this
              simpa [backReplies, Back.step, hq, hm] using this
            · simpa [backReplies, Back.step, hq, hm] using j3 m
          · rw [if_neg hm] at hs
            cases hs
            simp only [backTally, hq, if_neg hm, log_add, reduceCtorEq, if_false, Nat.add_zero, if_true] at j2 j3 j4 j5'
            have hw : ∀ m, waiting m (s.queries.set k (.sending i r)) = waiting m s.queries := by
              intro m
              have := waiting_set m (.sending i r) hq
              simpa [waiting] using this
            refine ⟨fun m => ?_, fun m => ?_, fun hl _ => j4 (Nat.mod_lt _ (by omega)) rfl, fun hl hf => ?_⟩
            · have := j2 m
              rw [hw m] at this
              simpa [backReplies, Back.step, hq, hm, Tally.set] using this
            · simpa [backReplies, Back.step, hq, hm, Tally.set] using j3 m
            · obtain ⟨f, f1, f2⟩ := j5' (Nat.mod_lt _ (by omega)) hf
              refine ⟨f + 1, by simp only [Tally.set] at f1; omega, ?_⟩
              rw [f2, Nat.mod_add_mod]
              congr 1
              omega
        · cases hs
      | send k =>
        simp only [Back.step] at hs
        split at hs
        · rename_i i r hq
          split at hs
          · rename_i hb
            cases hs
            simp only [backTally] at j2 j3 j4 j5'
            have hw : ∀ m, waiting m (s.queries.set k (nextAttempt n i r)) = waiting m s.queries := by
              intro m
              have := waiting_set m (nextAttempt n i r) hq
              rw [waiting_next] at this
              simpa [waiting] using this
            refine ⟨fun m => ?_, fun m => ?_, j4, j5'⟩
            · have := j2 m
              rw [hw m] at this
              simpa [backReplies, Back.step, hq, hb] using this
            · simpa [backReplies, Back.step, hq, hb] using j3 m
          · cases hs
        · cases hs
      | recv =>
        have hs0 := hs
        simp only [Back.step] at hs
        split at hs
        · cases hs
          simp only [backTally] at j2 j3 j4 j5'
          refine ⟨fun m => ?_, fun m => ?_, j4, j5'⟩
          · simpa only [backReplies, hs0, List.nil_append] using j2 m
          · simpa only [backReplies, hs0, List.nil_append] using j3 m
        · cases hs
      | fire =>
        have hs0 := hs
        simp only [Back.step] at hs
        split at hs
        · cases hs
          simp only [backTally] at j2 j3 j4 j5'
          refine ⟨fun m => ?_, fun m => ?_, fun hl _ => j4 (by omega) rfl, fun _ hf => by simp at hf⟩
          · simpa only [backReplies, hs0, List.nil_append, Tally.set] using j2 m
          · simpa only [backReplies, hs0, List.nil_append, Tally.set] using j3 m
        · cases hs

/-- C92: in a fail-back group with members, over all interleavings of any number of queries and of the timer: routes and failures are exact for each member, and the gauge of
available members is the number of members from the active one to the last, so it is at least one and at most the number of members. -/
theorem back_counts (n : Nat) (hn : 0 < n) (ok : Res → Bool) (es : List Back.Ev) (s : Back.Sys) (t : Tally) (h : backRun n ok (Back.init, ⟨[], n⟩) es = some (s, t)) :
    Back.run n ok Back.init es = some s ∧
    (∀ m, t.log.count (.route m) = asked m (backReplies n ok Back.init es) + waiting m s.queries) ∧
    (∀ m, t.log.count (.failure m) = failed ok m (backReplies n ok Back.init es)) ∧
    t.available = n - s.active ∧ 1 ≤ t.available ∧ t.available ≤ n := by
  obtain ⟨h1, h2, h3, h4, -⟩ := back_gen n ok es _ _ _ _ h
  simp only [List.count_nil, Nat.zero_add, Back.init] at h2 h3 h4
  obtain ⟨h5, h6⟩ := h4 hn rfl
  exact ⟨h1, fun m => by simpa [waiting, Back.init] using h2 m, h3, h6, by omega, by omega⟩

/-- C92: as long as a fail-back group does not switch back, the count of fail-overs tells how far it moved. -/
theorem back_failovers (n : Nat) (ok : Res → Bool) (es : List Back.Ev) (hf : .fire ∉ es) (s s' : Back.Sys) (hl : s.active < n) (t t' : Tally)
    (h : backRun n ok (s, t) es = some (s', t')) : ∃ f, t'.log.count .failover = t.log.count .failover + f ∧ s'.active = (s.active + f) % n :=
  (back_gen n ok es _ _ _ _ h).2.2.2.2 hl hf

/-! ### Random groups -/

private theorem rwaiting_set {qs : List Random.Phase} {k : Nat} {x : Random.Phase} (m : Nat) (y : Random.Phase) (h : qs[k]? = some x) :
    randomWaiting m (qs.set k y) + randomWaiting m [x] = randomWaiting m qs + randomWaiting m [y] := by
  simp only [randomWaiting, List.countP_cons, List.countP_nil, Nat.zero_add]
  exact countP_set' _ y h

private theorem gave_set {qs : List Random.Phase} {k : Nat} {x : Random.Phase} (y : Random.Phase) (h : qs[k]? = some x) :
    gaveUp (qs.set k y) + gaveUp [x] = gaveUp qs + gaveUp [y] := by
  simp only [gaveUp, List.countP_cons, List.countP_nil, Nat.zero_add]
  exact countP_set' _ y h

private theorem routes_add (t : Tally) (c : GCount) : routes (t.add c).log = routes t.log + routes [c] := by
  simp [Tally.add, routes, List.countP_append]

private theorem random_gen (ok : Res → Bool) (es : List Random.Ev) (s s' : Random.Sys) (t t' : Tally) (h : randomRun ok (s, t) es = some (s', t')) :
    Random.run ok s es = some s' ∧
    (∀ m, t'.log.count (.route m) + randomWaiting m s.queries = t.log.count (.route m) + asked m (randomReplies ok s es) + randomWaiting m s'.queries) ∧
    (∀ m, t'.log.count (.failure m) = t.log.count (.failure m) + failed ok m (randomReplies ok s es)) ∧
    (t'.log.count .failover + routes t.log + gaveUp s.queries = t.log.count .failover + routes t'.log + gaveUp s'.queries) ∧
    (s.active.length ≤ t.available → s'.active.length ≤ t'.available) := by
  induction es generalizing s t with
  | nil =>
    cases h
    exact ⟨rfl, fun m => by simp [randomReplies, asked], fun m => by simp [randomReplies, failed], rfl, fun h => h⟩
  | cons e es ih =>
    simp only [randomRun, Option.bind_eq_bind] at h
    cases hs : Random.step ok s e with
    | none => simp [hs] at h
    | some s1 =>
      simp only [hs, Option.bind_some] at h
      obtain ⟨j1, j2, j3, j4, j5⟩ := ih s1 _ h
      refine ⟨by simp [Random.run, hs, j1], ?_⟩
      have hs0 := hs
      cases e with
      | start =>
        simp only [Random.step, Option.some.injEq] at hs
        subst hs
        simp only [randomTally] at j2 j3 j4 j5
        refine ⟨fun m => ?_, fun m => ?_, ?_, j5⟩
        · have := j2 m
          simp only [randomReplies, hs0, List.nil_append]
          simpa [randomWaiting, List.countP_append] using this
        · simpa only [randomReplies, hs0, List.nil_append, Tally.set] using j3 m
        · simpa [gaveUp, List.countP_append] using j4
      | pick k draw =>
        simp only [Random.step] at hs
        split at hs
        · rename_i hq
          split at hs
          · rename_i ha
            cases hs
            have hd : s.active[draw]? = none := by simp [ha]
            simp only [randomTally, hd, log_add, routes_add, reduceCtorEq, if_false, Nat.add_zero, if_true] at j2 j3 j4 j5
            refine ⟨fun m => ?_, fun m => ?_, ?_, fun _ => j5 (Nat.le_refl _)⟩
            · have := j2 m
              have hw := rwaiting_set m (.done none) hq
              simp only [randomReplies, hs0, List.nil_append]
              simp [randomWaiting, Tally.set] at this hw ⊢
              omega
            · simpa only [randomReplies, hs0, List.nil_append, Tally.set] using j3 m
            · have hg := gave_set (.done none) hq
              simp [gaveUp, routes, Tally.set] at j4 hg ⊢
              omega
          · rename_i ha
            split at hs
            · rename_i m0 hd
              cases hs
              simp only [randomTally, hd, log_add, routes_add, reduceCtorEq, if_false, Nat.add_zero, if_true] at j2 j3 j4 j5
              refine ⟨fun m => ?_, fun m => ?_, ?_, fun _ => j5 (Nat.le_refl _)⟩
              · have := j2 m
                have hw := rwaiting_set m (.calling m0) hq
                simp only [randomReplies, hs0, List.nil_append]
                simp [randomWaiting, Tally.set] at this hw ⊢
                omega
              · simpa only [randomReplies, hs0, List.nil_append, Tally.set] using j3 m
              · have hg := gave_set (.calling m0) hq
                simp [gaveUp, routes, Tally.set] at j4 hg ⊢
                omega
            · cases hs
        · cases hs
      | reply k r =>
        simp only [Random.step] at hs
        split at hs
        · rename_i m0 hq
          cases hs
          simp only [randomTally, hq] at j2 j3 j4 j5
          have hrep : randomReplies ok s (.reply k r :: es) = (m0, r) ::
              randomReplies ok { s with queries := s.queries.set k (if ok r then .done (some r) else .failed m0) } es := by
            simp [randomReplies, Random.step, hq]
          rw [hrep]
          have hw := fun m => rwaiting_set m (if ok r then .done (some r) else .failed m0) hq
          have hg := gave_set (if ok r then .done (some r) else .failed m0) hq
          cases hr : ok r with
          | true =>
            simp only [hr, if_true] at j2 j3 j4 j5 hw hg ⊢
            refine ⟨fun m => ?_, fun m => ?_, ?_, j5⟩
            · have := j2 m
              have hw := hw m
              simp only [randomWaiting, asked, List.countP_cons, List.countP_nil] at hw this ⊢
              simp at hw ⊢
              omega
            · have := j3 m
              simp only [failed, List.countP_cons, hr] at this ⊢
              simpa using this
            · simp [gaveUp] at hg j4 ⊢
              omega
          | false =>
            simp only [hr, if_false, Bool.false_eq_true, log_add, routes_add, reduceCtorEq, Nat.add_zero] at j2 j3 j4 j5 hw hg ⊢
            refine ⟨fun m => ?_, fun m => ?_, ?_, j5⟩
            · have := j2 m
              have hw := hw m
              simp only [randomWaiting, asked, List.countP_cons, List.countP_nil] at hw this ⊢
              simp at hw ⊢
              omega
            · have := j3 m
              simp only [failed, List.countP_cons, hr, GCount.failure.injEq] at this ⊢
              simp at this ⊢
              omega
            · simp [gaveUp, routes] at hg j4 ⊢
              omega
        · cases hs
      | deactivate k =>
        simp only [Random.step] at hs
        split at hs
        · rename_i m0 hq
          cases hs
          simp only [randomTally] at j2 j3 j4 j5
          refine ⟨fun m => ?_, fun m => ?_, ?_, fun hl => j5 (Nat.le_trans (List.length_filter_le _ _) hl)⟩
          · have := j2 m
            have hw := rwaiting_set m .idle hq
            simp only [randomReplies, hs0, List.nil_append]
            simp [randomWaiting] at this hw ⊢
            omega
          · simpa only [randomReplies, hs0, List.nil_append, Tally.set] using j3 m
          · have hg := gave_set .idle hq
            simp [gaveUp] at j4 hg ⊢
            omega
        · cases hs
      | reactivate m0 =>
        simp only [Random.step] at hs
        split at hs
        · cases hs
          simp only [randomTally] at j2 j3 j4 j5
          refine ⟨fun m => ?_, fun m => ?_, by simpa only [Tally.set] using j4, fun _ => j5 (Nat.le_refl _)⟩
          · simpa only [randomReplies, hs0, List.nil_append, Tally.set] using j2 m
          · simpa only [randomReplies, hs0, List.nil_append, Tally.set] using j3 m
        · cases hs

/-- C92: in a random group, over all interleavings: routes and failures are exact for each member. What is counted as fail-over is every attempt, also the first: the routes, and the
queries that found no member. The gauge of available members is never too low. -/
theorem random_counts (ok : Res → Bool) (n : Nat) (es : List Random.Ev) (s : Random.Sys) (t : Tally)
    (h : randomRun ok (⟨List.range n, [], []⟩, ⟨[], n⟩) es = some (s, t)) :
    Random.run ok ⟨List.range n, [], []⟩ es = some s ∧
    (∀ m, t.log.count (.route m) = asked m (randomReplies ok ⟨List.range n, [], []⟩ es) + randomWaiting m s.queries) ∧
    (∀ m, t.log.count (.failure m) = failed ok m (randomReplies ok ⟨List.range n, [], []⟩ es)) ∧
    t.log.count .failover = routes t.log + gaveUp s.queries ∧ s.active.length ≤ t.available := by
  obtain ⟨h1, h2, h3, h4, h5⟩ := random_gen ok es _ _ _ _ h
  simp only [List.count_nil, Nat.zero_add] at h2 h3 h4
  exact ⟨h1, fun m => by simpa [randomWaiting] using h2 m, h3, by simpa [routes, gaveUp] using h4, h5 (by simp)⟩

/-- C92: when a random group picks a member and when a member comes back, the gauge is set to the number of active members. -/
theorem random_gauge (ok : Res → Bool) (s s' : Random.Sys) (t t' : Tally) (e : Random.Ev) (he : (∃ k d, e = .pick k d) ∨ ∃ m, e = .reactivate m)
    (h : randomRun ok (s, t) [e] = some (s', t')) : t'.available = s'.active.length := by
  simp only [randomRun, Option.bind_eq_bind] at h
  cases hs : Random.step ok s e with
  | none => simp [hs] at h
  | some s1 =>
    simp only [hs, Option.bind_some, Option.some.injEq, Prod.mk.injEq] at h
    obtain ⟨rfl, rfl⟩ := h
    rcases he with ⟨k, d, rfl⟩ | ⟨m, rfl⟩
    · simp only [Random.step] at hs
      split at hs
      · split at hs
        · cases hs
          simp only [randomTally]
          split <;> rfl
        · split at hs
          · rename_i hd
            cases hs
            simp only [randomTally, hd]
            rfl
          · cases hs
      · cases hs
    · simp only [Random.step] at hs
      split at hs
      · cases hs; rfl
      · cases hs

section Examples

/-- Elements of different kinds with the same id, one with a dot -/
example : (makeAll [(str "cmdline", .map)] [(.listener, str "a"), (.dohListener, str "a"), (.loadBalance, str "a.b"), (.failRouter, str "a.b"), (.rateLimiter, str "a")]).map List.length =
    some 16 := by decide +kernel

example : fullName (str "cache") (str "a.b") (str "hit") = str "routedns.cache.a.b.hit" := by decide +kernel

private def exLib : Lib where
  len m := 30 + 100 * m.answer.length
  truncate m _ := m
  pack m := if m.rcode = 9 then none else some [UInt8.ofNat m.id, UInt8.ofNat m.rcode]
  unpack b := match b with
    | [] => none
    | i :: op => some { id := i.toNat, opcode := (op.map UInt8.toNat).headD 0, question := [⟨str "a.", 1, 1⟩] }
  parseIP s := if s = str "peer" then some [10, 0, 0, 1] else none
private def exQ : Msg := { id := 7, rd := true, question := [⟨str "a.", 1, 1⟩] }
private def exA (c : Nat) : Msg := { id := 7, response := true, rcode := c, question := exQ.question }
private def pipe (r : Res) : Pipeline := fun _ _ => r
private def exNet : Cidr.IPNet := ⟨[10, 0, 0, 0], 8⟩
private def exAsked : List Asked := [⟨pipe (.ok (exA 3)), [10, 0, 0, 1], [], exQ⟩, ⟨pipe ⟨none, none⟩, [10, 0, 0, 1], [], exQ⟩, ⟨pipe ⟨none, some "x"⟩, [10, 0, 0, 1], [], exQ⟩,
  ⟨pipe (.ok (exA 0)), [11, 0, 0, 1], [], exQ⟩, ⟨pipe (.ok (exA 0)), [10, 0, 0, 1], [], { exQ with question := [] }⟩]

/-- An answer, a drop, a failure, a client that is not allowed, a message without question -/
example : (∀ x ∈ exAsked, (listenHandler exLib [] (str "udp") x.r [exNet] x.peer x.sni x.req).out ≠ .crash) ∧
    exAsked.flatMap (fun x => listenCounts exLib [] (str "udp") x.r [exNet] x.peer x.sni x.req) =
      [.query, .response 3, .query, .drop, .query, .error (str "resolve"), .response 2, .query, .error (str "acl"), .response 5, .error (str "noquestion")] := by
  decide +kernel

private def exPost (b : Str) (early : Bool) : Req :=
  { method := str "POST", path := str "/dns-query", dns := none, body := some b, remoteHost := str "peer", xff := [], tls := some (!early, []) }
private def exHttp : List HttpAsked := [⟨pipe (.ok (exA 0)), exPost [9, 0] false⟩, ⟨pipe (.ok (exA 9)), exPost [9, 0] false⟩, ⟨pipe ⟨none, none⟩, exPost [9, 0] false⟩,
  ⟨pipe (.ok (exA 0)), exPost [9, 5] true⟩, ⟨pipe (.ok (exA 0)), exPost [] false⟩, ⟨pipe (.ok (exA 0)), { exPost [] false with method := str "PUT" }⟩]

example : (∀ x ∈ exHttp, (dohHandler exLib {} x.r x.req).out ≠ .crash) ∧
    exHttp.map (fun x => dohCounts exLib {} x.r x.req) = [[.post, .query, .response 0], [.post, .query, .response 9, .error (str "pack")], [.post, .query, .drop],
      [.post, .query, .error (str "tooearly")], [.post, .query, .error (str "unpack")], [.error (str "httpmethod")]] ∧
    exHttp.map (fun x => (dohHandler exLib {} x.r x.req).out) = [.ok [7, 0], .status 500, .status 403, .status 425, .status 400, .status 405] := by
  decide +kernel

private def exList (n : Str) : Msg → Option Lists.Hit := fun q => if (q.question.map (·.name)) = [n] then some { rule := ⟨[], []⟩ } else none

/-- A query that is on both lists, and one that is on the blocklist only -/
example : blocklistCounts { allowDB := some (exList (str "a.")), blockDB := fun _ => some { rule := ⟨[], []⟩ } } exQ = [.allow] ∧
    blocklistCounts { allowDB := some (exList (str "b.")), blockDB := exList (str "a.") } exQ = [.deny] ∧
    (Blocklist.resolve { allowDB := some (exList (str "b.")), blockDB := exList (str "a.") } exQ).isSome := by decide +kernel

example : clientBlocklistCounts false (fun ip => if ip = [10, 0, 0, 1] then some ⟨[], []⟩ else none) exQ { sourceIP := [10, 0, 0, 1], tlsServerName := [], listener := [] } = [.deny] := by
  decide +kernel

private def exRate : Rate.Options := Rate.Options.withDefaults ⟨1, 0, 0, 0⟩
example : ∃ bs, Rate.run exRate {} [(60, [10, 0, 0, 1]), (61, [10, 0, 0, 2]), (62, [10, 0, 1, 1])] = some bs ∧
    bs.flatMap (rateCounts false) = [.query, .query, .exceed, .drop, .query] ∧ bs.flatMap (rateCounts true) = [.query, .query, .exceed, .query] :=
  ⟨[false, true, false], by decide +kernel, by decide, by decide⟩

private def ex6 : Msg := { id := 7, question := [⟨str "a.", typeAAAA, 1⟩] }
private def exUp : Msg → Res := fun q => .ok { setReply q with answer := if (q.question.map (·.qtype)) = [typeA] then [⟨str "a.", typeA, 1, 60, .a [1, 2, 3, 4]⟩] else [] }
example : (Dns64.resolve [⟨[0, 100, 255, 155, 0, 0, 0, 0, 0, 0, 0, 0, 0, 0, 0, 0], 96⟩] exUp ex6).isSome ∧
    dns64Counts [⟨[0, 100, 255, 155, 0, 0, 0, 0, 0, 0, 0, 0, 0, 0, 0, 0], 96⟩] exUp ex6 = [.query, .synth] ∧
    dns64Counts [⟨[0, 100, 255, 155, 0, 0, 0, 0, 0, 0, 0, 0, 0, 0, 0, 0], 96⟩] exUp exQ = [.passthru] := by decide +kernel

private def exEnv : CacheM.Env Nat where
  ipStr a := 49 :: a
  hash _ := 7
  encode m := some [m.rcode.toUInt8]
  decode w := match w with
    | [r] => some { rcode := r.toNat, response := true }
    | _ => none
/-- A miss, and then a hit -/
example : ∃ out, CacheM.resolve exEnv {} (Lru.new 10) exQ (.ok (exA 3)) (fun _ => 0) 0 = some out ∧
    cacheCounts exEnv {} (Lru.new 10) exQ (fun _ => 0) = some [.miss] ∧ cacheCounts exEnv {} out.state exQ (fun _ => 1000000000) = some [.hit] := by
  refine ⟨_, rfl, ?_, ?_⟩ <;> decide +kernel

example : let up : Msg → ClientInfo → Res := fun _ _ => .ok (exA 0)
    dnssecCounts (fun _ => .valid) up exQ { sourceIP := [], tlsServerName := [], listener := [] } = [.success] ∧
    dnssecCounts (fun _ => .bogus) up exQ { sourceIP := [], tlsServerName := [], listener := [] } = [.failure] ∧
    (DnssecResolver.resolve false (fun _ => .bogus) up exQ { sourceIP := [], tlsServerName := [], listener := [] }).isSome := by decide +kernel

/-- Two queries fail at the first of two members: one fail-over. -/
example : ∃ s t, rotateRun 2 (fun r => r.err.isNone) (⟨0, []⟩, ⟨[], 2⟩) [.start, .start, .current 0, .current 1, .reply 0 ⟨none, some "x"⟩, .reply 1 ⟨none, some "x"⟩,
      .report 0, .report 1, .current 0] = some (s, t) ∧ s.active = 1 ∧ t.log = [.route 0, .route 0, .failure 0, .failure 0, .failover, .route 1] ∧ waiting 1 s.queries = 1 := by
  refine ⟨_, _, rfl, ?_, ?_, ?_⟩ <;> decide +kernel

/-- A fail-over and the way back -/
example : ∃ s t, backRun 3 (fun r => r.err.isNone) (Back.init, ⟨[], 3⟩) [.start, .current 0, .reply 0 ⟨none, some "x"⟩, .report 0] = some (s, t) ∧ t.available = 2 ∧
    ∃ s' t', backRun 3 (fun r => r.err.isNone) (s, t) [.send 0, .recv, .fire] = some (s', t') ∧ t'.available = 3 ∧ t'.log.count .failover = 1 := by
  refine ⟨_, _, rfl, ?_, _, _, rfl, ?_, ?_⟩ <;> decide +kernel

/-- A member failed and was taken out: until the next pick the gauge is too high. -/
example : ∃ s t, randomRun (fun r => r.err.isNone) (⟨List.range 2, [], []⟩, ⟨[], 2⟩) [.start, .pick 0 1, .reply 0 ⟨none, some "x"⟩, .deactivate 0] = some (s, t) ∧
    s.active = [0] ∧ t.available = 2 ∧ t.log = [.failover, .route 1, .failure 1] ∧
    ∃ s' t', randomRun (fun r => r.err.isNone) (s, t) [.pick 0 0] = some (s', t') ∧ t'.available = 1 := by
  refine ⟨_, _, rfl, ?_, ?_, ?_, _, _, rfl, ?_⟩ <;> decide +kernel

end Examples

end Verif.Props.Counters
