/-
C25 (TTL modifier), C26 (truncate-retry), C27 (collapse, minimise).
-/
import Verif.Model.Elements
import Verif.Spec.Elements
set_option linter.unusedSimpArgs false
namespace Verif.Props.Elements
open Verif Verif.Elements Verif.Spec.Elements

private theorem retimed_map (f : Nat → Nat) (P : Nat → Nat → Prop) (m : Msg)
    (h : ∀ r, r ∈ m.records → r.isOpt = false → P r.ttl (f r.ttl)) : Retimed P m (mapTTL f m) := by
  have sec : ∀ l : List RR, (∀ r, r ∈ l → r ∈ m.records) →
      l.length = (l.map fun (r : RR) => if r.isOpt then r else { r with ttl := f r.ttl }).length ∧
      ∀ (i : Nat) (r r' : RR), l[i]? = some r → (l.map fun (r : RR) => if r.isOpt then r else { r with ttl := f r.ttl })[i]? = some r' →
        if r.isOpt then r' = r else r' = { r with ttl := r'.ttl } ∧ P r.ttl r'.ttl := by
    intro l hl
    refine ⟨by simp, ?_⟩
    intro i r r' h1 h2
    rw [List.getElem?_map, h1] at h2
    simp only [Option.map_some, Option.some.injEq] at h2
    cases ho : r.isOpt with
    | true => rw [ho] at h2; simp only [if_true] at h2 ⊢; exact h2.symm
    | false =>
      rw [ho] at h2
      simp only [Bool.false_eq_true, if_false] at h2 ⊢
      subst h2
      exact ⟨rfl, h r (hl r (List.mem_of_getElem? h1)) ho⟩
  exact ⟨sec _ (by intro r hr; simp [Msg.records, hr]), sec _ (by intro r hr; simp [Msg.records, hr]),
    sec _ (by intro r hr; simp [Msg.records, hr]), rfl⟩

private theorem limit_within (o : TTLOptions) (v : Nat) : Within o.minTTL o.maxTTL v (limit o v) := by
  unfold limit Within
  by_cases h1 : v < o.minTTL
  · rw [if_pos h1]
    simp only
    by_cases h2 : o.minTTL > o.maxTTL
    · rw [if_pos h2]; omega
    · rw [if_neg h2]; omega
  · rw [if_neg h1]
    simp only
    by_cases h2 : v > o.maxTTL
    · rw [if_pos h2]; omega
    · rw [if_neg h2]; omega

private theorem mapTTL_mapTTL (f g : Nat → Nat) (m : Msg) : mapTTL f (mapTTL g m) = mapTTL (fun t => f (g t)) m := by
  have : ∀ r : RR, (fun (r : RR) => if r.isOpt then r else { r with ttl := f r.ttl })
      ((fun (r : RR) => if r.isOpt then r else { r with ttl := g r.ttl }) r) = if r.isOpt then r else { r with ttl := f (g r.ttl) } := by
    intro r
    cases ho : r.isOpt with
    | true => simp [ho]
    | false =>
      have : RR.isOpt { r with ttl := g r.ttl } = false := ho
      simp [ho, this]
  have hm : ∀ l : List RR, (l.map fun (r : RR) => if r.isOpt then r else { r with ttl := g r.ttl }).map
      (fun (r : RR) => if r.isOpt then r else { r with ttl := f r.ttl }) = l.map fun (r : RR) => if r.isOpt then r else { r with ttl := f (g r.ttl) } := by
    intro l
    rw [List.map_map]
    apply List.map_congr_left
    intro r _
    exact this r
  simp only [mapTTL, hm]

/-- C25 without a select function: each record's TTL is brought within the limits, and nothing else changes. -/
theorem ttl_limits (o : TTLOptions) (a : Msg) (h : o.select = .none) :
    ∃ b, ttlResolve o (.ok a) = .ok b ∧ Retimed (Within o.minTTL o.maxTTL) a b := by
  refine ⟨mapTTL (limit o) a, ?_, retimed_map _ _ _ fun r _ _ => limit_within o r.ttl⟩
  simp [ttlResolve, Res.ok, selected, h]

private theorem foldl_low : ∀ (l : List Nat) (x : Nat), let v := l.foldl (fun lo t => if t < lo then t else lo) x
    v ≤ x ∧ (∀ t, t ∈ l → v ≤ t) ∧ (v = x ∨ v ∈ l)
  | [], x => by simp
  | y :: l, x => by
    have := foldl_low l (if y < x then y else x)
    simp only [List.foldl_cons]
    obtain ⟨h1, h2, h3⟩ := this
    generalize hv : List.foldl _ _ l = v at *
    refine ⟨by split at h1 <;> omega, ?_, ?_⟩
    · intro t ht
      rcases List.mem_cons.mp ht with rfl | ht
      · split at h1 <;> omega
      · exact h2 t ht
    · rcases h3 with h3 | h3
      · split at h3
        · exact .inr (by rw [h3]; simp)
        · exact .inl h3
      · exact .inr (List.mem_cons_of_mem _ h3)

private theorem foldl_high : ∀ (l : List Nat) (x : Nat), let v := l.foldl (fun hi t => if t > hi then t else hi) x
    x ≤ v ∧ (∀ t, t ∈ l → t ≤ v) ∧ (v = x ∨ v ∈ l)
  | [], x => by simp
  | y :: l, x => by
    have := foldl_high l (if y > x then y else x)
    simp only [List.foldl_cons]
    obtain ⟨h1, h2, h3⟩ := this
    generalize hv : List.foldl _ _ l = v at *
    refine ⟨by split at h1 <;> omega, ?_, ?_⟩
    · intro t ht
      rcases List.mem_cons.mp ht with rfl | ht
      · split at h1 <;> omega
      · exact h2 t ht
    · rcases h3 with h3 | h3
      · split at h3
        · exact .inr (by rw [h3]; simp)
        · exact .inl h3
      · exact .inr (List.mem_cons_of_mem _ h3)

private theorem foldl_count : ∀ (l : List Nat) (n : Nat), l.foldl (fun n _ => n + 1) n = n + l.length
  | [], n => rfl
  | _ :: l, n => by rw [List.foldl_cons, foldl_count l]; simp; omega

private theorem foldl_sum : ∀ (l : List Nat) (n : Nat), l.foldl (· + ·) n = n + l.sum
  | [], n => by simp
  | x :: l, n => by rw [List.foldl_cons, foldl_sum l]; simp; omega

private theorem foldl_last : ∀ (l : List Nat) (n : Nat), l ≠ [] → l.getLast? = some (l.foldl (fun _ t => t) n)
  | [], _, h => absurd rfl h
  | [x], n, _ => rfl
  | x :: y :: l, n, _ => by
    rw [List.getLast?_cons_cons, foldl_last (y :: l) n (by simp)]; rfl

private theorem sum_le : ∀ (l : List Nat) (b : Nat), (∀ t, t ∈ l → t ≤ b) → l.sum ≤ b * l.length
  | [], _, _ => by simp
  | x :: l, b, h => by
    have h1 := sum_le l b (fun t ht => h t (List.mem_cons_of_mem _ ht))
    have h2 := h x List.mem_cons_self
    simp only [List.sum_cons, List.length_cons, Nat.mul_succ]
    omega

/-- C25 with a select function: there is one value, the one the function stands for, and every record gets that value brought
within the limits; nothing else changes. TTLs are 32-bit numbers, and the random draw is below `max - min`. -/
theorem ttl_select (o : TTLOptions) (a : Msg) (hs : o.select ≠ .none) (h32 : ∀ t, t ∈ values a → t ≤ maxUint32)
    (hne : values a ≠ []) (hdraw : ∀ d, o.select = .random d → o.minTTL < o.maxTTL → d < o.maxTTL - o.minTTL) :
    ∃ v b, Chosen o.minTTL o.maxTTL (values a) o.select v ∧ ttlResolve o (.ok a) = .ok b ∧
      Retimed (fun _ => Within o.minTTL o.maxTTL v) a b := by
  have main : ∀ v, selected o a = some v → ∃ b, ttlResolve o (.ok a) = .ok b ∧ Retimed (fun _ => Within o.minTTL o.maxTTL v) a b := by
    intro v hv
    refine ⟨mapTTL (fun _ => limit o v) a, ?_, retimed_map _ _ _ fun _ _ _ => limit_within o v⟩
    simp only [ttlResolve, Res.ok, hv, mapTTL_mapTTL]
  have ht : ttls a = values a := rfl
  generalize values a = vs at *
  have fin : ∀ v, Chosen o.minTTL o.maxTTL vs o.select v → selected o a = some v →
      ∃ v b, Chosen o.minTTL o.maxTTL vs o.select v ∧ ttlResolve o (.ok a) = .ok b ∧ Retimed (fun _ => Within o.minTTL o.maxTTL v) a b := by
    intro v h1 h2
    obtain ⟨b, h3, h4⟩ := main v h2
    exact ⟨v, b, h1, h3, h4⟩
  unfold selected at fin
  rw [ht] at fin
  cases hsel : o.select with
  | none => exact absurd hsel hs
  | lowest =>
    rw [hsel] at fin
    refine fin _ ?_ rfl
    obtain ⟨h1, h2, h3⟩ := foldl_low vs maxUint32
    refine ⟨?_, h2⟩
    rcases h3 with h3 | h3
    · cases vs with
      | nil => exact absurd rfl hne
      | cons x l =>
        have h4 := h2 x List.mem_cons_self
        have h5 := h32 x List.mem_cons_self
        rw [h3] at h4 ⊢
        have : maxUint32 = x := by omega
        rw [this]; simp
    · exact h3
  | highest =>
    rw [hsel] at fin
    refine fin _ ?_ rfl
    obtain ⟨h1, h2, h3⟩ := foldl_high vs 0
    refine ⟨?_, h2⟩
    rcases h3 with h3 | h3
    · cases vs with
      | nil => exact absurd rfl hne
      | cons x l =>
        have h4 := h2 x List.mem_cons_self
        rw [h3] at h4 ⊢
        have : x = 0 := by omega
        rw [this]; simp
    · exact h3
  | average =>
    rw [hsel] at fin
    refine fin _ ?_ rfl
    have hl : 0 < vs.length := List.length_pos_iff.mpr hne
    have hsum := sum_le vs _ h32
    simp only [foldl_count, foldl_sum, Nat.zero_add]
    rw [if_neg (by omega)]
    have hdiv : vs.sum / vs.length ≤ maxUint32 := by
      apply Nat.div_le_of_le_mul; rw [Nat.mul_comm]; exact hsum
    rw [Nat.mod_eq_of_lt (by have : maxUint32 = 4294967295 := rfl; omega)]
    refine ⟨Nat.div_mul_le_self _ _, ?_⟩
    rw [Nat.mul_comm]
    exact Nat.lt_mul_div_succ _ hl
  | first =>
    rw [hsel] at fin
    refine fin _ ?_ rfl
    cases vs with
    | nil => exact absurd rfl hne
    | cons x l => rfl
  | last =>
    rw [hsel] at fin
    exact fin _ (foldl_last vs 0 hne) rfl
  | random d =>
    rw [hsel] at fin
    refine fin _ ?_ rfl
    by_cases hlt : o.minTTL < o.maxTTL
    · rw [if_pos hlt]
      have := hdraw d hsel hlt
      exact .inl ⟨hlt, rfl, by omega, by omega⟩
    · rw [if_neg hlt]; exact .inr ⟨by omega, rfl⟩

/-- C25: with limits in order, every non-OPT record of a response ends up within them, whatever the select function. -/
theorem ttl_within (o : TTLOptions) (a b : Msg) (h : ttlResolve o (.ok a) = .ok b) (r : RR) (hr : r ∈ b.records) (ho : r.isOpt = false) :
    r.ttl ≤ o.maxTTL ∧ (o.minTTL ≤ o.maxTTL → o.minTTL ≤ r.ttl) := by
  have hb : ∃ m, b = mapTTL (limit o) m := by
    simp only [ttlResolve, Res.ok, Res.mk.injEq, Option.some.injEq, and_true] at h
    exact ⟨_, h.symm⟩
  obtain ⟨m, rfl⟩ := hb
  have : ∃ r0 : RR, r = if r0.isOpt then r0 else { r0 with ttl := limit o r0.ttl } := by
    simp only [Msg.records, mapTTL, List.mem_append, List.mem_map] at hr
    rcases hr with (⟨r0, _, h⟩ | ⟨r0, _, h⟩) | ⟨r0, _, h⟩ <;> exact ⟨r0, h.symm⟩
  obtain ⟨r0, rfl⟩ := this
  cases h0 : r0.isOpt with
  | true => rw [h0] at ho; simp only [if_true] at ho; rw [h0] at ho; cases ho
  | false =>
    simp only [Bool.false_eq_true, if_false]
    have := limit_within o r0.ttl
    unfold Within at this
    omega

/-- C25: a response without records other than OPT is returned as it is. -/
theorem ttl_no_records (o : TTLOptions) (a : Msg) (h : values a = []) : ttlResolve o (.ok a) = .ok a := by
  have hopt : ∀ r, r ∈ a.answer ++ a.ns ++ a.extra → r.isOpt = true := by
    intro r hr
    simp only [values, List.map_eq_nil_iff, List.filter_eq_nil_iff] at h
    simpa using h r hr
  have hid : ∀ f, mapTTL f a = a := by
    intro f
    have : ∀ l : List RR, (∀ r, r ∈ l → r.isOpt = true) → (l.map fun (r : RR) => if r.isOpt then r else { r with ttl := f r.ttl }) = l := by
      intro l hl
      conv => rhs; rw [← List.map_id l]
      apply List.map_congr_left
      intro r hr
      simp [hl r hr]
    simp only [mapTTL]
    rw [this a.answer (fun r hr => hopt r (by simp [hr])), this a.ns (fun r hr => hopt r (by simp [hr])),
      this a.extra (fun r hr => hopt r (by simp [hr]))]
  simp only [ttlResolve, Res.ok]
  cases selected o a with
  | none => simp only [hid]
  | some v => simp only [hid]

/-- C25: errors and dropped queries pass through. -/
theorem ttl_passthrough (o : TTLOptions) (up : Res) (h : up.err ≠ none ∨ up.msg = none) : ttlResolve o up = up := by
  obtain ⟨m, e⟩ := up
  cases e with
  | some e => rfl
  | none =>
    cases m with
    | none => rfl
    | some a => simp at h

/-- C25: a maximum of zero means no maximum. -/
theorem ttl_no_maximum (o : TTLOptions) (h : o.maxTTL = 0) (a b : Msg) (hs : o.select = .none) (h32 : ∀ r, r ∈ a.records → r.ttl ≤ maxUint32)
    (hmin : o.minTTL ≤ maxUint32) (hb : ttlResolve o.withDefaults (.ok a) = .ok b) : Retimed (fun t t' => t' = max t o.minTTL) a b := by
  have : b = mapTTL (limit o.withDefaults) a := by
    simp only [ttlResolve, Res.ok, selected, TTLOptions.withDefaults, hs, Res.mk.injEq, Option.some.injEq, and_true] at hb
    exact hb.symm
  subst this
  apply retimed_map
  intro r hr _
  have := h32 r hr
  simp only [limit, TTLOptions.withDefaults, h, if_true]
  split <;> split <;> omega

private def rr (ttl : Nat) : RR := { name := str "a.", rtype := 1, cls := 1, ttl := ttl, data := .a [1, 2, 3, 4] }
private def optRR : RR := { name := str ".", rtype := 41, cls := 1232, ttl := 7, data := .opt 1232 false [] }

example : ttlResolve ⟨.average, 0, 100⟩ (.ok { answer := [rr 10, rr 400], extra := [optRR, rr 30] })
    = .ok { answer := [rr 100, rr 100], extra := [optRR, rr 100] } := by decide
example : ttlResolve ⟨.none, 20, 100⟩ (.ok { answer := [rr 10, rr 400], ns := [rr 50] }) = .ok { answer := [rr 20, rr 100], ns := [rr 50] } := by decide

/-! ### C26 -/

/-- C26: the retry resolver is asked exactly if the first answer was truncated, and then its result, whatever it is, is the result; otherwise the
first result is. -/
theorem truncate_retry_exact (up retry : Res) :
    let truncated := up.err = none ∧ ∃ a, up.msg = some a ∧ a.tc = true
    ((truncateRetry up retry).2 = true ↔ truncated) ∧
    (truncated → (truncateRetry up retry).1 = retry) ∧ (¬ truncated → (truncateRetry up retry).1 = up) := by
  obtain ⟨m, e⟩ := up
  cases e with
  | some e => simp [truncateRetry]
  | none =>
    cases m with
    | none => simp [truncateRetry]
    | some a => cases h : a.tc <;> simp [truncateRetry, h]

example : truncateRetry (.ok { tc := true }) (.fail "down") = (.fail "down", true) := by decide

/-! ### C27 -/

/-- C27: a NOERROR answer is collapsed to the records of the asked type and class, in their order and with the asked name; header and other sections are kept. -/
theorem collapse_keeps (nullRCode : Nat) (q a : Msg) (qu : Question) (hq : q.question.head? = some qu) (hr : a.rcode = 0)
    (hne : ∃ r, r ∈ a.answer ∧ r.rtype = qu.qtype ∧ r.cls = qu.qclass) :
    ∃ b, collapse nullRCode q (.ok a) = some (.ok b) ∧ b = { a with answer := b.answer } ∧
      b.answer = (a.answer.filter fun r => r.rtype = qu.qtype ∧ r.cls = qu.qclass).map fun r => { r with name := qu.name } := by
  cases hqq : q.question with
  | nil => rw [hqq] at hq; cases hq
  | cons x xs =>
    rw [hqq] at hq; simp only [List.head?_cons, Option.some.injEq] at hq; subst hq
    have hfm : ∀ l : List RR, (l.filterMap fun r => if r.rtype = x.qtype ∧ r.cls = x.qclass then some { r with name := x.name } else none)
        = (l.filter fun r => r.rtype = x.qtype ∧ r.cls = x.qclass).map fun r => { r with name := x.name } := by
      intro l
      induction l with
      | nil => rfl
      | cons r l ih =>
        by_cases h : r.rtype = x.qtype ∧ r.cls = x.qclass
        · rw [List.filterMap_cons, List.filter_cons]; simp only [h, and_self, if_true, decide_true, List.map_cons]; rw [← ih]
        · rw [List.filterMap_cons, List.filter_cons]; simp only [h, if_false, decide_false, Bool.false_eq_true]; exact ih
    refine ⟨{ a with answer := (a.answer.filter fun r => r.rtype = x.qtype ∧ r.cls = x.qclass).map fun r => { r with name := x.name } }, ?_, rfl, rfl⟩
    simp only [collapse, Res.ok, hr, hqq, ne_eq, not_true_eq_false, if_false]
    rw [hfm, if_neg]
    obtain ⟨r, h1, h2⟩ := hne
    have : r ∈ a.answer.filter fun r => r.rtype = x.qtype ∧ r.cls = x.qclass := List.mem_filter.mpr ⟨h1, by simpa using h2⟩
    simp only [List.length_map]
    exact Nat.ne_of_gt (List.length_pos_of_mem this)

/-- C27: with nothing of the asked type and class, the reply has the configured code and no records. -/
theorem collapse_empty (nullRCode : Nat) (q a : Msg) (qu : Question) (hq : q.question.head? = some qu) (hr : a.rcode = 0)
    (hne : ∀ r, r ∈ a.answer → ¬ (r.rtype = qu.qtype ∧ r.cls = qu.qclass)) :
    ∃ b, collapse nullRCode q (.ok a) = some (.ok b) ∧ b.rcode = nullRCode ∧ b.records = [] ∧ b.id = q.id ∧ b.question = [qu] ∧ b.response = true := by
  cases hqq : q.question with
  | nil => rw [hqq] at hq; cases hq
  | cons x xs =>
    rw [hqq] at hq; simp only [List.head?_cons, Option.some.injEq] at hq; subst hq
    refine ⟨responseWithCode q nullRCode, ?_, rfl, rfl, rfl, ?_, rfl⟩
    · simp only [collapse, Res.ok, hr, hqq, ne_eq, not_true_eq_false, if_false]
      rw [if_pos]
      rw [List.length_eq_zero_iff, List.filterMap_eq_nil_iff]
      intro r h
      rw [if_neg (hne r h)]
    · simp [responseWithCode, setReply, hqq]

/-- C27: everything but a NOERROR answer passes through collapse unchanged. -/
theorem collapse_passthrough (nullRCode : Nat) (q : Msg) (up : Res) (h : up.err ≠ none ∨ up.msg = none ∨ ∃ a, up.msg = some a ∧ a.rcode ≠ 0) :
    collapse nullRCode q up = some up := by
  obtain ⟨m, e⟩ := up
  cases e with
  | some e => rfl
  | none =>
    cases m with
    | none => rfl
    | some a =>
      simp at h
      simp [collapse, h]

/-- C27: minimise keeps header, question and answer and drops everything else. -/
theorem minimize_exact (a : Msg) : ∃ b, minimize (.ok a) = .ok b ∧ b.answer = a.answer ∧ b.ns = [] ∧ b.extra = [] ∧
    b = { a with ns := [], extra := [] } := ⟨_, rfl, rfl, rfl, rfl, rfl⟩

/-- C27 -/
theorem minimize_passthrough (up : Res) (h : up.err ≠ none ∨ up.msg = none) : minimize up = up := by
  obtain ⟨m, e⟩ := up
  cases e with
  | some e => rfl
  | none =>
    cases m with
    | none => rfl
    | some a => simp at h

/-- Finding: the EDNS record is dropped with the other additional records, so extended errors and the DO bit are lost. -/
theorem minimize_drops_edns : ∃ a b : Msg, a.edns? ≠ none ∧ minimize (.ok a) = .ok b ∧ b.edns? = none :=
  ⟨{ extra := [optRR] }, {}, by decide, by decide, by decide⟩

private def cn : RR := { name := str "w.", rtype := 5, cls := 1, ttl := 60, data := .cname (str "a.") }

/-- A CNAME chain is collapsed to its address under the asked name. -/
example : collapse 3 { question := [⟨str "w.", 1, 1⟩] } (.ok { answer := [cn, rr 60] }) = some (.ok { answer := [{ rr 60 with name := str "w." }] }) := by decide

/-- Finding: an ANY query never matches a record type, so its answer is always replaced by the configured code. -/
theorem collapse_any_query (nullRCode : Nat) (q a : Msg) (qu : Question) (hq : q.question.head? = some qu) (hany : qu.qtype = typeANY)
    (hr : a.rcode = 0) (hreal : ∀ r, r ∈ a.answer → r.rtype ≠ typeANY) :
    ∃ b, collapse nullRCode q (.ok a) = some (.ok b) ∧ b.rcode = nullRCode ∧ b.records = [] := by
  obtain ⟨b, h1, h2, h3, _⟩ := collapse_empty nullRCode q a qu hq hr (fun r h => by rw [hany]; exact fun h' => hreal r h h'.1)
  exact ⟨b, h1, h2, h3⟩

end Verif.Props.Elements
