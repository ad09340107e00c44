/-
C33-C36: blocklists for queries, clients and responses.
-/
import Verif.Spec.Blocklist
import Verif.Props.Domain
import Verif.Props.Lists
set_option linter.unusedVariables false
set_option linter.unusedSimpArgs false
namespace Verif.Props.Blocklist
open Verif Verif.Net Verif.Lists Verif.Blocklist Verif.Spec.Blocklist

/-! ### Extended errors -/

private theorem applyEde_spec (t : Option Ede) (msg q : Msg) (m : Option Match) (he : msg.extra = []) :
    ∃ ex, applyEde t msg q m = { msg with extra := ex } ∧
      (ex = [] ∨ ∃ (code : Nat) (text : Str) (r : RR), ex = [r] ∧ r.data = .opt 4096 false [.ede code text]) := by
  unfold applyEde
  cases t with
  | none => exact ⟨[], by rw [← he], .inl rfl⟩
  | some t =>
    simp only []
    split
    · exact ⟨[], by rw [← he], .inl rfl⟩
    · rename_i text _
      refine ⟨_, rfl, .inr ⟨t.infoCode, text, { name := str ".", rtype := typeOPT, cls := 4096, ttl := 0, data := .opt 4096 false [.ede t.infoCode text] }, ?_, rfl⟩⟩
      simp only [Msg.setEdns0, he, List.nil_append]
      rfl

private theorem denial_of (t : Option Ede) (msg q : Msg) (m : Option Match) (he : msg.extra = []) (hr : RepliesTo q msg) (ha : msg.answer = []) (hn : msg.ns = []) :
    Denial q { applyEde t msg q m with rcode := rcodeNameError } := by
  obtain ⟨ex, h1, h2⟩ := applyEde_spec t msg q m he
  rw [h1]
  exact ⟨hr, rfl, ha, hn, h2⟩

private theorem setReply_replies (q : Msg) : RepliesTo q { setReply q with ra := true } := ⟨rfl, rfl, rfl, rfl, rfl⟩

private theorem nxdomain_denial (t : Option Ede) (q : Msg) (m : Option Match) : Denial q (applyEde t (nxdomain q) q m) := by
  obtain ⟨ex, h1, h2⟩ := applyEde_spec t (nxdomain q) q m rfl
  rw [h1]
  exact ⟨⟨rfl, rfl, rfl, rfl, rfl⟩, rfl, rfl, rfl, h2⟩

/-- C33: the extended error of a blocked query carries the code configured and the text made from the query and the rule that matched. -/
theorem ede_content (t : Ede) (msg q : Msg) (m : Match) (qu : Question) (qs : List Question) (hq : q.question = qu :: qs) (he : msg.extra = []) (text : Str)
    (ht : t.text ⟨q.id, qu.name, qu.qclass, qu.qtype, m.list, m.rule⟩ = some text) :
    (applyEde (some t) msg q (some m)).edns? = some ⟨4096, false, [.ede t.infoCode text]⟩ := by
  unfold applyEde
  simp only [hq, List.head?_cons, Option.getD_some, ht]
  simp only [Msg.setEdns0, he, List.nil_append]
  rfl

/-! ### Blocklist -/

/-- C33: a query on the allowlist is passed on unchanged, even if it is on the blocklist. -/
theorem blocklist_allow (o : Options) (q : Msg) (qu : Question) (hq : q.question.head? = some qu) (db : Msg → Option Hit) (hdb : o.allowDB = some db) (h : On db q) :
    resolve o q = some (.forward (if o.hasAllowResolver then .allow else .upstream) q) := by
  obtain ⟨x, hx⟩ := h
  unfold resolve
  cases hqq : q.question with
  | nil => rw [hqq] at hq; simp at hq
  | cons a b => simp [hdb, hx]

/-- C33: a query on neither list is passed on unchanged. -/
theorem blocklist_pass (o : Options) (q : Msg) (qu : Question) (hq : q.question.head? = some qu) (ha : ∀ db, o.allowDB = some db → ¬ On db q) (hb : ¬ On o.blockDB q) :
    resolve o q = some (.forward .upstream q) := by
  have h1 : (o.allowDB.bind fun db => db q).isSome = false := by
    cases hdb : o.allowDB with
    | none => rfl
    | some db =>
      have := ha db hdb
      cases hx : db q with
      | none => simp [hx]
      | some x => exact absurd ⟨x, hx⟩ this
  have h2 : o.blockDB q = none := by
    cases hx : o.blockDB q with
    | none => rfl
    | some x => exact absurd ⟨x, hx⟩ hb
  unfold resolve
  cases hqq : q.question with
  | nil => rw [hqq] at hq; simp at hq
  | cons a b => simp [h1, h2]

private theorem spoof_mem (qu : Question) (ips : List Str) (r : RR) : r ∈ spoof qu ips ↔ ∃ ip, ip ∈ ips ∧ SpoofRecord qu ip r := by
  unfold spoof
  rw [List.mem_filterMap]
  constructor
  · rintro ⟨ip, hip, h⟩
    refine ⟨ip, hip, ?_⟩
    split at h
    · rename_i hc
      simp only [Option.some.injEq] at h
      subst h
      exact ⟨rfl, rfl, hc.2.symm, rfl, .inl ⟨hc.2, hc.1, rfl⟩⟩
    · split at h
      · rename_i hc
        simp only [Option.some.injEq] at h
        subst h
        exact ⟨rfl, rfl, hc.2.symm, rfl, .inr ⟨hc.2, hc.1, rfl⟩⟩
      · exact absurd h (by simp)
  · rintro ⟨ip, hip, h1, h2, h3, h4, h5⟩
    refine ⟨ip, hip, ?_⟩
    obtain ⟨n, rt, c, t, d⟩ := r
    simp only [] at h1 h2 h3 h4 h5
    rcases h5 with ⟨ht, hv, hd⟩ | ⟨ht, hl, hd⟩
    · rw [if_pos ⟨hv, ht⟩]
      subst h1 h2 h3 h4 hd; rw [ht]
    · rw [if_neg (by rintro ⟨_, h⟩; rw [ht] at h; exact absurd h (by decide)), if_pos ⟨hl, ht⟩]
      subst h1 h2 h3 h4 hd; rw [ht]

/-- C33: a query on the blocklist and not on the allowlist never gets to the upstream resolver. It is handed to the blocklist resolver, answered
with what the list holds for it, or denied. -/
theorem blocklist_block (o : Options) (q : Msg) (qu : Question) (hq : q.question.head? = some qu) (ha : ∀ db, o.allowDB = some db → ¬ On db q) (hit : Hit)
    (hb : o.blockDB q = some hit) :
    ∃ act, resolve o q = some act ∧
      ((qu.qtype = typePTR ∧ hit.names ≠ [] ∧ ∃ m, act = .done (.ok m) ∧ RepliesTo q m ∧ m.rcode = rcodeSuccess ∧ m.ns = [] ∧ m.extra = [] ∧
          m.answer = (hit.names.take 10).map fun n => ⟨qu.name, typePTR, classINET, 3600, .ptr (fqdn n)⟩) ∨
       (¬ (qu.qtype = typePTR ∧ hit.names ≠ []) ∧ o.hasBlockResolver = true ∧ act = .forward .block q) ∨
       (¬ (qu.qtype = typePTR ∧ hit.names ≠ []) ∧ o.hasBlockResolver = false ∧ ∃ m, act = .done (.ok m) ∧
          ((m.answer ≠ [] ∧ RepliesTo q m ∧ m.rcode = rcodeSuccess ∧ m.ns = [] ∧ m.extra = [] ∧ (∀ r, r ∈ m.answer ↔ ∃ ip, ip ∈ hit.ips ∧ SpoofRecord qu ip r) ∧
              m.answer = spoof qu hit.ips) ∨
           ((¬ ∃ ip r, ip ∈ hit.ips ∧ SpoofRecord qu ip r) ∧ Denial q m)))) := by
  have h1 : (o.allowDB.bind fun db => db q).isSome = false := by
    cases hdb : o.allowDB with
    | none => rfl
    | some db =>
      have := ha db hdb
      cases hx : db q with
      | none => simp [hx]
      | some x => exact absurd ⟨x, hx⟩ this
  unfold resolve
  cases hqq : q.question with
  | nil => rw [hqq] at hq; simp at hq
  | cons a b =>
    rw [hqq] at hq
    simp only [List.head?_cons, Option.some.injEq] at hq
    subst hq
    simp only [h1, Bool.false_eq_true, if_false, hb]
    by_cases hp : a.qtype = typePTR ∧ hit.names.length > 0
    · rw [if_pos hp]
      have hne : hit.names ≠ [] := by intro h; rw [h] at hp; exact absurd hp.2 (by simp)
      refine ⟨_, rfl, .inl ⟨hp.1, hne, _, rfl, ⟨rfl, rfl, rfl, rfl, rfl⟩, rfl, rfl, rfl, ?_⟩⟩
      have : (if hit.names.length > maxPTRResponses then hit.names.take maxPTRResponses else hit.names) = hit.names.take 10 := by
        have h10 : maxPTRResponses = 10 := rfl
        rw [h10]
        split
        · rfl
        · rw [List.take_of_length_le (by omega)]
      rw [this]; rfl
    · rw [if_neg hp]
      have hp' : ¬ (a.qtype = typePTR ∧ hit.names ≠ []) := by
        rintro ⟨h2, h3⟩
        exact hp ⟨h2, List.length_pos_iff.mpr h3⟩
      cases hbr : o.hasBlockResolver
      · simp only [Bool.false_eq_true, if_false]
        by_cases hs : (spoof a hit.ips).length > 0
        · rw [if_pos hs]
          refine ⟨_, rfl, .inr (.inr ⟨hp', trivial, _, rfl, .inl ⟨?_, ⟨rfl, rfl, rfl, rfl, rfl⟩, rfl, rfl, rfl, fun r => spoof_mem a hit.ips r, rfl⟩⟩)⟩
          exact List.length_pos_iff.mp hs
        · rw [if_neg hs]
          refine ⟨_, rfl, .inr (.inr ⟨hp', trivial, _, rfl, .inr ⟨?_, ?_⟩⟩)⟩
          · rintro ⟨ip, r, h⟩
            exact hs (List.length_pos_iff.mpr (List.ne_nil_of_mem ((spoof_mem a hit.ips r).mpr ⟨ip, h⟩)))
          · exact denial_of o.ede _ q _ rfl (setReply_replies q) rfl rfl
      · simp only [if_true]
        exact ⟨_, rfl, .inr (.inl ⟨hp', trivial, rfl⟩)⟩

/-- C33: the records made from a list's addresses keep their order. -/
theorem blocklist_spoof_order (qu : Question) (a b : List Str) : spoof qu (a ++ b) = spoof qu a ++ spoof qu b := List.filterMap_append

/-- C33: only queries not on the blocklist, or on the allowlist, reach the upstream resolver. -/
theorem blocklist_upstream_iff (o : Options) (q : Msg) (qu : Question) (hq : q.question.head? = some qu) :
    resolve o q = some (.forward .upstream q) ↔
      ((∃ db, o.allowDB = some db ∧ On db q) ∧ o.hasAllowResolver = false) ∨ ((∀ db, o.allowDB = some db → ¬ On db q) ∧ ¬ On o.blockDB q) := by
  by_cases ha : ∃ db, o.allowDB = some db ∧ On db q
  · obtain ⟨db, h1, h2⟩ := ha
    rw [blocklist_allow o q qu hq db h1 h2]
    cases hr : o.hasAllowResolver
    · simp only [Bool.false_eq_true, if_false, true_iff]
      exact .inl ⟨⟨db, h1, h2⟩, trivial⟩
    · constructor
      · intro h; simp at h
      · rintro (⟨_, h⟩ | ⟨h, _⟩)
        · simp at h
        · exact absurd h2 (h db h1)
  · have ha' : ∀ db, o.allowDB = some db → ¬ On db q := fun db h1 h2 => ha ⟨db, h1, h2⟩
    by_cases hb : On o.blockDB q
    · obtain ⟨hit, hh⟩ := hb
      obtain ⟨act, h1, h2⟩ := blocklist_block o q qu hq ha' hit hh
      rw [h1]
      constructor
      · intro h
        simp only [Option.some.injEq] at h
        subst h
        rcases h2 with ⟨_, _, m, h, _⟩ | ⟨_, _, h⟩ | ⟨_, _, m, h, _⟩
        · simp at h
        · simp at h
        · simp at h
      · rintro (⟨h, _⟩ | ⟨_, h⟩)
        · exact absurd h ha
        · exact absurd ⟨hit, hh⟩ h
    · rw [blocklist_pass o q qu hq ha' hb]
      exact ⟨fun _ => .inr ⟨ha', hb⟩, fun _ => rfl⟩

/-- C33, C28: with domain lists: a query reaches the upstream resolver exactly if no line of the blocklist covers its name or some line of the allowlist does. -/
theorem blocklist_domains (inclA inclB : Bool) (linesA linesB : List Str) (hA hB : Domain.Heap) (lA : Domain.load inclA linesA Domain.initial = some hA)
    (lB : Domain.load inclB linesB Domain.initial = some hB) (nA : ∀ line, line ∈ linesA → Spec.Domain.NoHole line) (nB : ∀ line, line ∈ linesB → Spec.Domain.NoHole line)
    (ede : Option Ede) (hasBlockResolver : Bool) (q : Msg) (qu : Question) (hq : q.question.head? = some qu) :
    resolve { allowDB := some (domainMatch hA []), blockDB := domainMatch hB [], ede := ede, hasBlockResolver := hasBlockResolver } q = some (.forward .upstream q) ↔
      (∃ line, line ∈ linesA ∧ (Spec.Domain.ruleOf inclA line).Matches (Spec.Domain.labels qu.name)) ∨
      ¬ ∃ line, line ∈ linesB ∧ (Spec.Domain.ruleOf inclB line).Matches (Spec.Domain.labels qu.name) := by
  have on : ∀ (incl : Bool) (lines : List Str) (h : Domain.Heap), Domain.load incl lines Domain.initial = some h → (∀ line, line ∈ lines → Spec.Domain.NoHole line) →
      (On (domainMatch h []) q ↔ ∃ line, line ∈ lines ∧ (Spec.Domain.ruleOf incl line).Matches (Spec.Domain.labels qu.name)) := by
    intro incl lines h l n
    rw [← Domain.domain_match_iff incl lines h l n qu.name]
    unfold On domainMatch
    rw [hq]
    simp only [Option.bind_some]
    rw [← Option.isSome_iff_exists, Option.isSome_map]
  rw [blocklist_upstream_iff _ q qu hq]
  simp only [Option.some.injEq]
  rw [← on inclA linesA hA lA nA, ← on inclB linesB hB lB nB]
  constructor
  · rintro (⟨⟨db, rfl, h⟩, _⟩ | ⟨_, h⟩)
    · exact .inl h
    · exact .inr h
  · intro h
    by_cases ha : On (domainMatch hA []) q
    · exact .inl ⟨⟨_, rfl, ha⟩, trivial⟩
    · exact .inr ⟨fun db hd => hd ▸ ha, h.resolve_left ha⟩

private def exQ (n : String) (t : Nat) : Msg := { id := 7, rd := true, question := [⟨str n, t, 1⟩] }
private def exDB (q : Msg) : Option Hit := match q.question with
  | ⟨n, _, _⟩ :: _ => if n = str "ads.com." then some { ips := [v4Prefix ++ [1, 2, 3, 4], List.replicate 16 9], names := [str "a.lan"], rule := ⟨str "l", str "ads.com"⟩ } else none
  | [] => none
private def exEde : Ede := ⟨15, fun i => some i.rule⟩

example : resolve { blockDB := exDB } (exQ "x.com." 1) = some (.forward .upstream (exQ "x.com." 1)) ∧
    resolve { blockDB := exDB, allowDB := some exDB, hasAllowResolver := true } (exQ "ads.com." 1) = some (.forward .allow (exQ "ads.com." 1)) ∧
    resolve { blockDB := exDB } (exQ "ads.com." 1) =
      some (.done (.ok { id := 7, response := true, rd := true, ra := true, question := [⟨str "ads.com.", 1, 1⟩], answer := [⟨str "ads.com.", 1, 1, 3600, .a (v4Prefix ++ [1, 2, 3, 4])⟩] })) ∧
    resolve { blockDB := exDB } (exQ "ads.com." 12) =
      some (.done (.ok { id := 7, response := true, rd := true, ra := true, question := [⟨str "ads.com.", 12, 1⟩], answer := [⟨str "ads.com.", 12, 1, 3600, .ptr (str "a.lan.")⟩] })) ∧
    resolve { blockDB := exDB, ede := some exEde } (exQ "ads.com." 16) =
      some (.done (.ok { id := 7, response := true, rd := true, ra := true, rcode := 3, question := [⟨str "ads.com.", 16, 1⟩],
                         extra := [⟨str ".", 41, 4096, 0, .opt 4096 false [.ede 15 (str "ads.com")]⟩] })) := by decide +kernel

/-! ### Client blocklist -/

/-- C34: the address checked: the client's, or the one of the first client-subnet option of the query if that is to be used. -/
theorem client_address (q : Msg) (ci : ClientInfo) :
    clientIP false q ci = ci.sourceIP ∧
    (∀ e pre post f m s addr, q.edns? = some e → e.options = pre ++ .ecs f m s addr :: post → (∀ f' m' s' a', EOpt.ecs f' m' s' a' ∉ pre) → clientIP true q ci = addr) ∧
    ((∀ e, q.edns? = some e → ∀ f m s addr, EOpt.ecs f m s addr ∉ e.options) → clientIP true q ci = ci.sourceIP) := by
  refine ⟨rfl, ?_, ?_⟩
  · intro e pre post f m s addr he ho hpre
    unfold clientIP
    simp only [if_true, he, ho, List.findSome?_append, List.findSome?_cons]
    have hn : ∀ (g : EOpt → Option Str), (∀ x, x ∈ pre → g x = none) → pre.findSome? g = none := fun g => List.findSome?_eq_none_iff.mpr
    rw [hn _ ?_]
    · rfl
    · intro x hx
      cases x with
      | ecs f' m' s' a' => exact absurd hx (hpre f' m' s' a')
      | _ => rfl
  · intro h
    unfold clientIP
    simp only [if_true]
    cases he : q.edns? with
    | none => rfl
    | some e =>
      simp only []
      have hn : ∀ (g : EOpt → Option Str), (∀ x, x ∈ e.options → g x = none) → e.options.findSome? g = none := fun g => List.findSome?_eq_none_iff.mpr
      rw [hn _ ?_]
      · rfl
      · intro x hx
        cases x with
        | ecs f' m' s' a' => exact absurd hx (h e he f' m' s' a')
        | _ => rfl

/-- C34: a query reaches the upstream resolver exactly if its client address is unknown or not on the list; otherwise it goes to the blocklist resolver,
or is refused. -/
theorem client_blocklist (useECS hasBlockResolver : Bool) (db : Str → Option Match) (q : Msg) (ci : ClientInfo) :
    let listed := clientIP useECS q ci ≠ [] ∧ ∃ m, db (clientIP useECS q ci) = some m
    (¬ listed → resolveClient useECS hasBlockResolver db q ci = .forward .upstream q) ∧
    (listed → hasBlockResolver = true → resolveClient useECS hasBlockResolver db q ci = .forward .block q) ∧
    (listed → hasBlockResolver = false → ∃ m, resolveClient useECS hasBlockResolver db q ci = .done (.ok m) ∧ RepliesTo q m ∧ m.rcode = rcodeRefused ∧
      m.answer = [] ∧ m.ns = [] ∧ m.extra = []) := by
  simp only []
  unfold resolveClient
  simp only []
  by_cases hip : clientIP useECS q ci = []
  · simp [hip]
  · rw [if_neg hip]
    cases hd : db (clientIP useECS q ci) with
    | none => simp
    | some m =>
      refine ⟨fun h => absurd ⟨hip, m, rfl⟩ h, ?_, ?_⟩
      · intro _ h; simp [h]
      · intro _ h
        simp only [h, Bool.false_eq_true, if_false]
        exact ⟨_, rfl, ⟨rfl, rfl, rfl, rfl, rfl⟩, rfl, rfl, rfl, rfl⟩

private def exIP (ip : Str) : Option Match := if ip = [10, 0, 0, 1] then some ⟨[], str "10.0.0.1/32"⟩ else none
private def exEcs : Msg := { (exQ "x." 1) with extra := [⟨str ".", 41, 0, 0, .opt 1232 false [.padding 1, .ecs 1 32 0 [9, 9, 9, 9]]⟩] }
example : resolveClient false false exIP exEcs { sourceIP := [10, 0, 0, 1] } = .done (.ok (refused exEcs)) ∧
    resolveClient true false exIP exEcs { sourceIP := [10, 0, 0, 1] } = .forward .upstream exEcs ∧
    resolveClient false true exIP exEcs {} = .forward .upstream exEcs := by decide +kernel

/-! ### Response blocklist for addresses -/

private theorem firstBad_none {κ : Type} (key : RR → Option κ) (db : κ → Option Match) (inv : Bool) : ∀ (l : List RR),
    firstBad key db inv l = none ↔ ∀ r, r ∈ l → ∀ k, key r = some k → (db k).isSome = inv
  | [] => by simp [firstBad]
  | r :: rs => by
    simp only [firstBad, List.forall_mem_cons]
    rw [← firstBad_none key db inv rs]
    cases hk : key r with
    | none => simp
    | some k =>
      simp only [Option.some.injEq, forall_eq']
      by_cases h : (db k).isSome = inv
      · rw [if_neg (by simp [h])]; simp [h]
      · rw [if_pos h]; simp [h]

private theorem badAddress_iff (db : Str → Option Match) (inv : Bool) (r : RR) : BadAddress db inv r ↔ ∃ ip, addressOf r = some ip ∧ (db ip).isSome ≠ inv := by
  have hx : ∀ ip, (if inv then db ip = none else ∃ m, db ip = some m) ↔ (db ip).isSome ≠ inv := by
    intro ip
    cases inv <;> cases h : db ip <;> simp
  unfold BadAddress addressOf
  constructor
  · rintro ⟨ip, h | h, hd⟩
    · exact ⟨ip, by rw [h], (hx ip).mp hd⟩
    · exact ⟨ip, by rw [h], (hx ip).mp hd⟩
  · rintro ⟨ip, h, hd⟩
    refine ⟨ip, ?_, (hx ip).mpr hd⟩
    cases hr : r.data with
    | a x => rw [hr] at h; simp at h; exact .inl (by rw [h])
    | aaaa x => rw [hr] at h; simp at h; exact .inr (by rw [h])
    | _ => rw [hr] at h; simp at h

private theorem filterRR_eq (o : IpOptions) : ∀ (l : List RR), ∀ r, r ∈ filterRR o l ↔ r ∈ l ∧ ¬ BadAddress o.db o.inverted r
  | [], r => by simp [filterRR]
  | x :: xs, r => by
    simp only [filterRR]
    have ih := filterRR_eq o xs r
    cases hk : addressOf x with
    | none =>
      have : ¬ BadAddress o.db o.inverted x := by rw [badAddress_iff]; rintro ⟨ip, h, _⟩; rw [hk] at h; simp at h
      simp only [List.mem_cons, ih]
      constructor
      · rintro (rfl | h)
        · exact ⟨.inl rfl, this⟩
        · exact ⟨.inr h.1, h.2⟩
      · rintro ⟨rfl | h, h2⟩
        · exact .inl rfl
        · exact .inr ⟨h, h2⟩
    | some ip =>
      simp only []
      by_cases h : (o.db ip).isSome ≠ o.inverted
      · rw [if_pos h, ih]
        have : BadAddress o.db o.inverted x := (badAddress_iff _ _ _).mpr ⟨ip, hk, h⟩
        constructor
        · rintro ⟨h1, h2⟩; exact ⟨by simp [h1], h2⟩
        · rintro ⟨h1, h2⟩
          rcases List.mem_cons.mp h1 with rfl | h1
          · exact absurd this h2
          · exact ⟨h1, h2⟩
      · rw [if_neg h]
        have : ¬ BadAddress o.db o.inverted x := by
          rw [badAddress_iff]; rintro ⟨ip', h1, h2⟩; rw [hk] at h1
          simp only [Option.some.injEq] at h1; subst h1; exact h h2
        simp only [List.mem_cons, ih]
        constructor
        · rintro (rfl | h)
          · exact ⟨.inl rfl, this⟩
          · exact ⟨.inr h.1, h.2⟩
        · rintro ⟨rfl | h, h2⟩
          · exact .inl rfl
          · exact .inr ⟨h, h2⟩

private theorem filterRR_sublist (o : IpOptions) : ∀ (l : List RR), List.Sublist (filterRR o l) l
  | [] => .slnil
  | x :: xs => by
    simp only [filterRR]
    have ih := filterRR_sublist o xs
    cases addressOf x with
    | none => exact ih.cons_cons x
    | some ip =>
      simp only []
      split
      · exact ih.cons x
      · exact ih.cons_cons x

/-- C35: no response to a successful lookup that is delivered holds an address the list objects to, in any section, whether responses are blocked or filtered. -/
theorem response_ip_clean (o : IpOptions) (up : Res) (q m : Msg) (h : resolveIp o up q = .done (.ok m)) (hs : m.rcode = rcodeSuccess) :
    ∀ r, r ∈ m.records → ¬ BadAddress o.db o.inverted r := by
  intro r hr
  unfold resolveIp at h
  obtain ⟨msg, err⟩ := up
  cases msg with
  | none => simp [Res.ok] at h
  | some a =>
    cases err with
    | some e => simp [Res.ok] at h
    | none =>
      simp only [] at h
      by_cases hc : a.rcode ≠ rcodeSuccess
      · rw [if_pos hc] at h
        simp only [Res.ok, Act.done.injEq, Res.mk.injEq, Option.some.injEq, and_true] at h
        subst h; exact absurd hs hc
      · rw [if_neg hc] at h
        have nx : ∀ (x : Msg), x.rcode = rcodeNameError → m = x → False := by
          rintro x hx rfl; rw [hs] at hx; exact absurd hx (by decide)
        cases hf : o.filter
        · simp only [hf, Bool.false_eq_true, if_false] at h
          unfold blockIfMatch at h
          cases hb : firstBad addressOf o.db o.inverted (a.answer ++ a.ns ++ a.extra) with
          | none =>
            rw [hb] at h
            simp only [Res.ok, Act.done.injEq, Res.mk.injEq, Option.some.injEq, and_true] at h
            subst h
            rw [badAddress_iff]
            rintro ⟨ip, h1, h2⟩
            exact h2 ((firstBad_none _ _ _ _).mp hb r hr ip h1)
          | some x =>
            rw [hb] at h
            simp only [] at h
            split at h
            · simp at h
            · simp only [Res.ok, Act.done.injEq, Res.mk.injEq, Option.some.injEq, and_true] at h
              exact (nx _ (nxdomain_denial o.ede q x).2.1 h.symm).elim
        · simp only [hf, if_true] at h
          unfold filterMatch at h
          split at h
          · split at h
            · simp at h
            · simp only [Res.ok, Act.done.injEq, Res.mk.injEq, Option.some.injEq, and_true] at h
              exact (nx (nxdomain q) rfl h.symm).elim
          · simp only [Res.ok, Act.done.injEq, Res.mk.injEq, Option.some.injEq, and_true] at h
            subst h
            unfold Msg.records at hr
            simp only [List.mem_append] at hr
            rcases hr with (hr | hr) | hr <;> exact ((filterRR_eq o _ r).mp hr).2

/-- C35: in blocking mode, a successful response without such an address is delivered unchanged; one with such an address is not delivered: the query goes to the
blocklist resolver, or is denied. -/
theorem response_ip_block (o : IpOptions) (a q : Msg) (hs : a.rcode = rcodeSuccess) (hf : o.filter = false) :
    ((∀ r, r ∈ a.records → ¬ BadAddress o.db o.inverted r) → resolveIp o (.ok a) q = .done (.ok a)) ∧
    ((∃ r, r ∈ a.records ∧ BadAddress o.db o.inverted r) →
      (o.hasBlockResolver = true → resolveIp o (.ok a) q = .forward .block q) ∧
      (o.hasBlockResolver = false → ∃ m, resolveIp o (.ok a) q = .done (.ok m) ∧ Denial q m)) := by
  have hr : resolveIp o (.ok a) q = blockIfMatch addressOf o.db o.inverted o.hasBlockResolver o.ede q a := by
    unfold resolveIp Res.ok
    simp only []
    rw [if_neg (by simpa using hs), hf]; rfl
  rw [hr]
  unfold blockIfMatch
  constructor
  · intro h
    have : firstBad addressOf o.db o.inverted (a.answer ++ a.ns ++ a.extra) = none := by
      rw [firstBad_none]
      intro r hr k hk
      have := h r hr
      rw [badAddress_iff] at this
      cases hx : decide ((o.db k).isSome = o.inverted) with
      | true => simpa using hx
      | false => exact absurd ⟨k, hk, by simpa using hx⟩ this
    rw [this]
  · rintro ⟨r, h1, h2⟩
    cases hb : firstBad addressOf o.db o.inverted (a.answer ++ a.ns ++ a.extra) with
    | none =>
      obtain ⟨ip, h3, h4⟩ := (badAddress_iff _ _ _).mp h2
      exact absurd ((firstBad_none _ _ _ _).mp hb r h1 ip h3) h4
    | some x =>
      simp only []
      constructor
      · intro h; simp [h]
      · intro h
        simp only [h, Bool.false_eq_true, if_false]
        exact ⟨_, rfl, nxdomain_denial o.ede q x⟩

/-- C35: in filter mode, exactly the records with such an address are taken out of each section, the others stay in order and nothing else changes; if that leaves no
answer, the query goes to the blocklist resolver, or is denied. -/
theorem response_ip_filter (o : IpOptions) (a q : Msg) (hs : a.rcode = rcodeSuccess) (hf : o.filter = true) :
    ((∃ r, r ∈ a.answer ∧ ¬ BadAddress o.db o.inverted r) →
      ∃ x y z, resolveIp o (.ok a) q = .done (.ok { a with answer := x, ns := y, extra := z }) ∧ List.Sublist x a.answer ∧ List.Sublist y a.ns ∧ List.Sublist z a.extra ∧
        (∀ r, r ∈ x ↔ r ∈ a.answer ∧ ¬ BadAddress o.db o.inverted r) ∧ (∀ r, r ∈ y ↔ r ∈ a.ns ∧ ¬ BadAddress o.db o.inverted r) ∧
        (∀ r, r ∈ z ↔ r ∈ a.extra ∧ ¬ BadAddress o.db o.inverted r)) ∧
    ((∀ r, r ∈ a.answer → BadAddress o.db o.inverted r) →
      (o.hasBlockResolver = true → resolveIp o (.ok a) q = .forward .block q) ∧
      (o.hasBlockResolver = false → ∃ m, resolveIp o (.ok a) q = .done (.ok m) ∧ Denial q m)) := by
  have hr : resolveIp o (.ok a) q = filterMatch o q a := by
    unfold resolveIp Res.ok
    simp only []
    rw [if_neg (by simpa using hs), hf]; rfl
  rw [hr]
  unfold filterMatch
  constructor
  · rintro ⟨r, h1, h2⟩
    rw [if_neg (List.ne_nil_of_mem ((filterRR_eq o a.answer r).mpr ⟨h1, h2⟩))]
    exact ⟨_, _, _, rfl, filterRR_sublist o _, filterRR_sublist o _, filterRR_sublist o _, filterRR_eq o _, filterRR_eq o _, filterRR_eq o _⟩
  · intro h
    have : filterRR o a.answer = [] := by
      cases hl : filterRR o a.answer with
      | nil => rfl
      | cons x xs =>
        have := (filterRR_eq o a.answer x).mp (by rw [hl]; simp)
        exact absurd (h x this.1) this.2
    rw [if_pos this]
    constructor
    · intro h; simp [h]
    · intro h
      simp only [h, Bool.false_eq_true, if_false]
      exact ⟨_, rfl, nxdomain_denial none q none⟩

/-- C35: failures, dropped queries and unsuccessful responses are passed on as they are. -/
theorem response_ip_passthrough (o : IpOptions) (up : Res) (q : Msg) (h : up.err ≠ none ∨ up.msg = none ∨ ∃ a, up.msg = some a ∧ a.rcode ≠ rcodeSuccess) :
    resolveIp o up q = .done up := by
  unfold resolveIp
  obtain ⟨msg, err⟩ := up
  cases msg with
  | none => rfl
  | some a =>
    cases err with
    | some e => rfl
    | none =>
      simp only []
      rcases h with h | h | ⟨a', h1, h2⟩
      · exact absurd rfl h
      · simp at h
      · simp only [Option.some.injEq] at h1
        subst h1
        rw [if_pos h2]

/-- Finding: addresses in responses with another code than success are never checked. -/
theorem response_ip_unchecked_codes (o : IpOptions) (q : Msg) (ip : Str) (name : Str) :
    ∃ a : Msg, a.answer = [⟨name, typeA, 1, 60, .a ip⟩] ∧ resolveIp o (.ok a) q = .done (.ok a) :=
  ⟨{ rcode := rcodeNameError, answer := [⟨name, typeA, 1, 60, .a ip⟩] }, rfl,
    response_ip_passthrough o _ q (.inr (.inr ⟨_, rfl, by simp⟩))⟩

/-- Finding: in filter mode, a response that says "the name exists, but has no such records" becomes "the name does not exist". -/
theorem response_ip_nodata_denied (o : IpOptions) (a q : Msg) (hs : a.rcode = rcodeSuccess) (hf : o.filter = true) (hb : o.hasBlockResolver = false) (ha : a.answer = []) :
    ∃ m, resolveIp o (.ok a) q = .done (.ok m) ∧ Denial q m :=
  ((response_ip_filter o a q hs hf).2 (by simp [ha])).2 hb

private def exAns : Msg := { id := 7, response := true, question := [⟨str "x.", 1, 1⟩], answer := [⟨str "x.", 1, 1, 60, .a [10, 0, 0, 1]⟩, ⟨str "x.", 1, 1, 60, .a [8, 8, 8, 8]⟩],
                             extra := [⟨str "ns.", 1, 1, 60, .a [10, 0, 0, 1]⟩, ⟨str ".", 41, 0, 0, .opt 1232 false []⟩] }
example : resolveIp { db := exIP } (.ok exAns) (exQ "x." 1) = .done (.ok (nxdomain (exQ "x." 1))) ∧
    resolveIp { db := exIP, filter := true } (.ok exAns) (exQ "x." 1) =
      .done (.ok { exAns with answer := [⟨str "x.", 1, 1, 60, .a [8, 8, 8, 8]⟩], extra := [⟨str ".", 41, 0, 0, .opt 1232 false []⟩] }) ∧
    resolveIp { db := exIP, filter := true, inverted := true } (.ok exAns) (exQ "x." 1) = .done (.ok { exAns with answer := [⟨str "x.", 1, 1, 60, .a [10, 0, 0, 1]⟩] }) := by
  decide +kernel

/-! ### Response blocklist for names -/

private theorem nameOf_iff (r : RR) (n : Str) : nameOf r = some n ↔ Text r.data n := by
  unfold nameOf
  constructor
  · intro h
    cases hd : r.data <;> rw [hd] at h <;> simp at h <;> subst h <;> constructor
  · intro h
    cases hd : r.data <;> rw [hd] at h <;> cases h <;> rfl

private theorem badName_iff (db : Str → Option Match) (inv : Bool) (r : RR) : BadName db inv r ↔ ∃ n, nameOf r = some n ∧ (db n).isSome ≠ inv := by
  have hx : ∀ ip, (if inv then db ip = none else ∃ m, db ip = some m) ↔ (db ip).isSome ≠ inv := by
    intro ip
    cases inv <;> cases h : db ip <;> simp
  unfold BadName
  simp only [hx, nameOf_iff]

/-- C36: a response in which no record names something the list objects to is delivered unchanged; any other is not delivered: the query goes to the blocklist
resolver, or is denied. -/
theorem response_name (o : NameOptions) (a q : Msg) :
    ((∀ r, r ∈ a.records → ¬ BadName (nameRule o.db) o.inverted r) → resolveName o (.ok a) q = .done (.ok a)) ∧
    ((∃ r, r ∈ a.records ∧ BadName (nameRule o.db) o.inverted r) →
      (o.hasBlockResolver = true → resolveName o (.ok a) q = .forward .block q) ∧
      (o.hasBlockResolver = false → ∃ m, resolveName o (.ok a) q = .done (.ok m) ∧ Denial q m)) := by
  have hr : resolveName o (.ok a) q = blockIfMatch nameOf (nameRule o.db) o.inverted o.hasBlockResolver o.ede q a := rfl
  rw [hr]
  unfold blockIfMatch
  constructor
  · intro h
    have : firstBad nameOf (nameRule o.db) o.inverted (a.answer ++ a.ns ++ a.extra) = none := by
      rw [firstBad_none]
      intro r hr k hk
      have := h r hr
      rw [badName_iff] at this
      cases hx : decide ((nameRule o.db k).isSome = o.inverted) with
      | true => simpa using hx
      | false => exact absurd ⟨k, hk, by simpa using hx⟩ this
    rw [this]
  · rintro ⟨r, h1, h2⟩
    cases hb : firstBad nameOf (nameRule o.db) o.inverted (a.answer ++ a.ns ++ a.extra) with
    | none =>
      obtain ⟨ip, h3, h4⟩ := (badName_iff _ _ _).mp h2
      exact absurd ((firstBad_none _ _ _ _).mp hb r h1 ip h3) h4
    | some x =>
      simp only []
      constructor
      · intro h; simp [h]
      · intro h
        simp only [h, Bool.false_eq_true, if_false]
        exact ⟨_, rfl, nxdomain_denial o.ede q x⟩

/-- C36: failures and dropped queries are passed on as they are. -/
theorem response_name_passthrough (o : NameOptions) (up : Res) (q : Msg) (h : up.err ≠ none ∨ up.msg = none) : resolveName o up q = .done up := by
  unfold resolveName
  obtain ⟨msg, err⟩ := up
  cases msg with
  | none => rfl
  | some a =>
    cases err with
    | some e => rfl
    | none => simp at h

/-- C36, C28: with a domain list: nothing that leads to a covered name is delivered. -/
theorem response_name_domains (incl : Bool) (lines : List Str) (h : Domain.Heap) (l : Domain.load incl lines Domain.initial = some h) (ede : Option Ede) (b : Bool)
    (a q m : Msg) (hd : resolveName { db := domainMatch h [], ede := ede, hasBlockResolver := b } (.ok a) q = .done (.ok m)) (hs : m.rcode = rcodeSuccess)
    (r : RR) (hr : r ∈ m.answer) (t : Str) (ht : r.data = .cname t ∨ r.data = .mx t ∨ r.data = .ns t ∨ r.data = .srv t) (line : Str) (hl : line ∈ lines) :
    ¬ (Spec.Domain.ruleOf incl line).Matches (Spec.Domain.labels t) := by
  intro hm
  have hon := Domain.domain_complete incl lines h l t line hl hm
  by_cases hbad : ∃ r, r ∈ a.records ∧ BadName (nameRule (domainMatch h [])) false r
  · have h1 := (response_name { db := domainMatch h [], ede := ede, hasBlockResolver := b } a q).2 hbad
    cases b with
    | true => rw [h1.1 rfl] at hd; simp at hd
    | false =>
      obtain ⟨m', h2, h3⟩ := h1.2 rfl
      rw [h2] at hd
      simp only [Res.ok, Act.done.injEq, Res.mk.injEq, Option.some.injEq, and_true] at hd
      subst hd
      rw [h3.2.1] at hs
      exact absurd hs (by decide)
  · have h1 := (response_name { db := domainMatch h [], ede := ede, hasBlockResolver := b } a q).1 (fun r hr hb => hbad ⟨r, hr, hb⟩)
    rw [h1] at hd
    simp only [Res.ok, Act.done.injEq, Res.mk.injEq, Option.some.injEq, and_true] at hd
    subst hd
    refine hbad ⟨r, by unfold Msg.records; simp [hr], t, ?_, ?_⟩
    · rcases ht with e | e | e | e <;> rw [e] <;> constructor
    · obtain ⟨x, hx⟩ := Option.isSome_iff_exists.mp hon
      refine ⟨⟨[], x⟩, ?_⟩
      simp [nameRule, domainMatch, hx]

private def exNames : NameOptions := { db := fun q => if q.question.map (·.name) = [str "bad.com."] ∨ q.question.map (·.name) = [str ". alpn=h2"] then some { rule := ⟨[], []⟩ } else none }
example : resolveName exNames (.ok { exAns with ns := [⟨str "x.", 2, 1, 60, .ns (str "bad.com.")⟩] }) (exQ "x." 1) = .done (.ok (nxdomain (exQ "x." 1))) ∧
    resolveName exNames (.ok { exAns with ns := [⟨str "x.", 65, 1, 60, .svcb true (str ".") [(str "alpn", str "h2")]⟩] }) (exQ "x." 1) = .done (.ok (nxdomain (exQ "x." 1))) ∧
    resolveName exNames (.ok { exAns with ns := [⟨str "x.", 2, 1, 60, .ns (str "ok.com.")⟩] }) (exQ "x." 1) =
      .done (.ok { exAns with ns := [⟨str "x.", 2, 1, 60, .ns (str "ok.com.")⟩] }) := by decide +kernel

end Verif.Props.Blocklist
