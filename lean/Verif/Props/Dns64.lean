/-
C42 (DNS64).
-/
import Verif.Spec.Dns64
import Verif.Lemmas.Net
set_option linter.unusedVariables false
set_option linter.unusedSimpArgs false
namespace Verif.Props.Dns64
open Verif Verif.Net Verif.Dns64 Verif.Cidr Verif.Spec.Dns64

/-- A prefix as the configuration gives it: 16 bytes, an allowed length, no bits behind the prefix. -/
def Good (p : Pfx) : Prop := p.ip.length = 16 ∧ p.len ∈ [32, 40, 48, 56, 64, 96] ∧ p.ip.drop (p.len / 8) = List.replicate (16 - p.len / 8) 0

private theorem bits_append : ∀ (a b : Str), bits (a ++ b) = bits a ++ bits b
  | [], b => rfl
  | x :: a, b => by simp [bits, bits_append a b]

private theorem bits_take8 (a b : Str) (k : Nat) (h : a.take k = b.take k) (ha : k ≤ a.length) (hb : k ≤ b.length) : (bits a).take (8 * k) = (bits b).take (8 * k) := by
  have e : ∀ (x : Str), k ≤ x.length → (bits x).take (8 * k) = bits (x.take k) := by
    intro x hx
    have h1 : bits x = bits (x.take k) ++ bits (x.drop k) := by rw [← bits_append, List.take_append_drop]
    rw [h1, List.take_append_of_le_length (by rw [bits_length, List.length_take]; omega)]
    apply List.take_of_length_le
    rw [bits_length, List.length_take]; omega
  rw [e a ha, e b hb, h]

private theorem list16 (l : Str) (h : l.length = 16) : ∃ b0 b1 b2 b3 b4 b5 b6 b7 b8 b9 b10 b11 b12 b13 b14 b15, l = [b0, b1, b2, b3, b4, b5, b6, b7, b8, b9, b10, b11, b12, b13, b14, b15] := by
  match l, h with
  | [b0, b1, b2, b3, b4, b5, b6, b7, b8, b9, b10, b11, b12, b13, b14, b15], _ => exact ⟨b0, b1, b2, b3, b4, b5, b6, b7, b8, b9, b10, b11, b12, b13, b14, b15, rfl⟩

/-- C42: every synthesised address has the format of RFC 6052. -/
theorem dns64_embeds (p : Pfx) (hp : Good p) (ip v4 : Str) (h4 : v4.length = 4) (hip : ip = v4 ∨ ip = v4Prefix ++ v4) : ∃ addr, synthesize p ip = some addr ∧ Embeds p.ip p.len v4 addr := by
  obtain ⟨h1, h2, h3⟩ := hp
  have ht : to4 ip = some v4 := by
    rcases hip with rfl | rfl
    · unfold to4; rw [if_pos h4]
    · unfold to4
      rw [if_neg (by simp [v4Prefix, h4]), if_pos ⟨by simp [v4Prefix, h4], by simp [v4Prefix]⟩]
      simp [v4Prefix]
  match v4, h4 with
  | [a, b, c, d], _ =>
    have hcopy : copy16 p.ip = p.ip := by unfold copy16; rw [h1]; simp [List.take_of_length_le (Nat.le_of_eq h1)]
    unfold synthesize
    rw [ht]
    simp only [hcopy]
    refine ⟨_, rfl, ?_⟩
    obtain ⟨b0, b1, b2, b3, b4, b5, b6, b7, b8, b9, b10, b11, b12, b13, b14, b15, hb⟩ := list16 p.ip h1
    rw [hb] at h3 ⊢
    unfold Embeds
    simp only [List.mem_cons, List.not_mem_nil, or_false] at h2
    rcases h2 with h2 | h2 | h2 | h2 | h2 | h2 <;> rw [h2] at h3 ⊢ <;> simp [List.replicate] at h3 <;>
      simp only [if_pos, if_neg, reduceIte, Nat.reduceEqDiff, List.set_cons_zero, List.set_cons_succ]
    · refine ⟨rfl, bits_take8 _ _ 4 rfl (by simp) (by simp), by simp, fun _ => ⟨rfl, ?_⟩⟩
      simp [List.replicate, h3]
    · refine ⟨rfl, bits_take8 _ _ 5 rfl (by simp) (by simp), by simp, fun _ => ⟨rfl, ?_⟩⟩
      simp [List.replicate, h3]
    · refine ⟨rfl, bits_take8 _ _ 6 rfl (by simp) (by simp), by simp, fun _ => ⟨rfl, ?_⟩⟩
      simp [List.replicate, h3]
    · refine ⟨rfl, bits_take8 _ _ 7 rfl (by simp) (by simp), by simp, fun _ => ⟨rfl, ?_⟩⟩
      simp [List.replicate, h3]
    · refine ⟨rfl, bits_take8 _ _ 8 rfl (by simp) (by simp), by simp, fun _ => ⟨rfl, ?_⟩⟩
      simp [List.replicate, h3]
    · exact ⟨rfl, bits_take8 _ _ 12 rfl (by simp) (by simp), by simp, by simp⟩

/-- C42: the IPv4 address can be recovered: different IPv4 addresses have different synthetic addresses under the same prefix. -/
theorem dns64_recover (p : Pfx) (v4 v4' addr : Str) (h4 : v4.length = 4) (h4' : v4'.length = 4) (hp : p.len ∈ [32, 40, 48, 56, 64, 96]) (hl : p.ip.length = 16)
    (h : Embeds p.ip p.len v4 addr) (h' : Embeds p.ip p.len v4' addr) : v4 = v4' := by
  obtain ⟨_, _, h1, h2⟩ := h
  obtain ⟨_, _, h1', h2'⟩ := h'
  by_cases h96 : p.len = 96
  · rw [← h1 h96, ← h1' h96]
  · have hlt : p.len < 96 := by simp at hp; omega
    have e := (h2 hlt).2.symm.trans (h2' hlt).2
    rw [List.append_assoc, List.append_assoc] at e
    have e2 := List.append_cancel_left e
    exact (List.append_inj e2 (by rw [h4, h4'])).1

private theorem forAddress (ps : List Pfx) (hg : ∀ p, p ∈ ps → Good p) (qu : Question) (ttl : Nat) (v4 : Str) (h4 : v4.length = 4) : ForAddress qu ttl v4 ps (synthesizeAll ps qu ttl v4) := by
  induction ps with
  | nil => exact .nil
  | cons p ps ih =>
    obtain ⟨addr, h1, h2⟩ := dns64_embeds p (hg p (by simp)) v4 v4 h4 (.inl rfl)
    unfold synthesizeAll
    rw [List.filterMap_cons, h1]
    exact .cons ⟨addr, h2, rfl⟩ (ih (fun x hx => hg x (by simp [hx])))

private def oneRR (ps : List Pfx) (qu : Question) (rr : RR) : List RR := match rr.data with
  | .a ip => match to4 ip with
    | some ip4 => synthesizeAll ps qu rr.ttl ip4
    | none => []
  | _ => []

private theorem forAll (ps : List Pfx) (hg : ∀ p, p ∈ ps → Good p) (qu : Question) : ∀ (rrs : List RR), ForAll ps qu rrs (rrs.flatMap (oneRR ps qu))
  | [] => .nil
  | rr :: rrs => by
    rw [List.flatMap_cons]
    have ih := forAll ps hg qu rrs
    by_cases h : ∃ ip v4, rr.data = .a ip ∧ to4 ip = some v4
    · obtain ⟨ip, v4, h1, h2⟩ := h
      have hv : (ip = v4 ∨ ip = v4Prefix ++ v4) ∧ v4.length = 4 := by
        unfold to4 at h2
        split at h2
        · rename_i hl; simp only [Option.some.injEq] at h2; subst h2; exact ⟨.inl rfl, hl⟩
        · split at h2
          · rename_i hl; simp only [Option.some.injEq] at h2; subst h2
            refine ⟨.inr ?_, by simp [hl.1]⟩
            rw [← hl.2]; simp
          · simp at h2
      have e : oneRR ps qu rr = synthesizeAll ps qu rr.ttl v4 := by unfold oneRR; rw [h1]; simp only [h2]
      rw [e]
      exact .addr h1 hv.1 hv.2 (forAddress ps hg qu rr.ttl v4 hv.2) ih
    · have e : oneRR ps qu rr = [] := by
        unfold oneRR
        cases hd : rr.data <;> simp only []
        rename_i ip
        cases ht : to4 ip with
        | none => rfl
        | some v4 => exact absurd ⟨ip, v4, hd, ht⟩ h
      rw [e]
      refine .other ?_ ih
      intro ip hd
      cases ht : to4 ip with
      | none => rfl
      | some v4 => exact absurd ⟨ip, v4, hd, ht⟩ h

/-- C42: a query that is not for AAAA, or asks for DNSSEC, is only passed on. -/
theorem dns64_passes (ps : List Pfx) (up : Msg → Res) (q : Msg) (qu : Question) (rest : List Question) (hq : q.question = qu :: rest)
    (h : qu.qtype ≠ typeAAAA ∨ ∃ e, q.edns? = some e ∧ e.dnssecOk = true) : resolve ps up q = some (up q) := by
  unfold resolve
  rw [hq]
  simp only []
  split
  · rfl
  · rename_i hn
    rcases h with h | ⟨e, h1, h2⟩
    · exact absurd h hn
    · rw [if_pos (by rw [h1]; simp [h2])]

/-- C42: what the resolver says about AAAA is returned as it is unless it is a success without any AAAA record. -/
theorem dns64_keeps (ps : List Pfx) (up : Msg → Res) (q : Msg) (qu : Question) (rest : List Question) (hq : q.question = qu :: rest)
    (h : ∀ m, Success (up q) m → ∃ rr, rr ∈ m.answer ∧ rr.rtype = typeAAAA) : resolve ps up q = some (up q) := by
  unfold resolve
  rw [hq]
  simp only []
  split
  · rfl
  split
  · rfl
  split
  · rfl
  rename_i he
  cases hm : (up q).msg with
  | none => rfl
  | some m =>
    simp only []
    split
    · rfl
    rename_i hr
    have hs : Success (up q) m := by
      refine ⟨?_, by simpa using hr⟩
      cases hu : up q with
      | mk a b =>
        rw [hu] at hm he
        simp at hm he
        subst hm; subst he; rfl
    obtain ⟨rr, h1, h2⟩ := h m hs
    rw [if_pos]
    unfold hasAAAA
    rw [List.any_eq_true]
    exact ⟨rr, h1, by simp [h2]⟩

/-- C42: in the remaining case the resolver is asked for A. If that gives no success with an IPv4 address, the first response is returned as it is. Otherwise the answers are
the CNAME records of the second response followed by one AAAA record per IPv4 address and prefix, in the format of RFC 6052, for the name, class and with the TTL; the id and question are
those of the query. -/
theorem dns64_synthesizes (ps : List Pfx) (hg : ∀ p, p ∈ ps → Good p) (hne : ps ≠ []) (up : Msg → Res) (q : Msg) (qu : Question) (rest : List Question) (hq : q.question = qu :: rest)
    (ht : qu.qtype = typeAAAA) (hd : ∀ e, q.edns? = some e → e.dnssecOk = false) (m : Msg) (hm : Success (up q) m) (hno : ∀ rr, rr ∈ m.answer → rr.rtype ≠ typeAAAA) :
    ((∀ m2, Success (up { q with question := { qu with qtype := typeA } :: rest }) m2 → ∀ rr ip, rr ∈ m2.answer → rr.data = .a ip → to4 ip = none) →
      resolve ps up q = some (up q)) ∧
    (∀ m2, Success (up { q with question := { qu with qtype := typeA } :: rest }) m2 → (∃ rr ip, rr ∈ m2.answer ∧ rr.data = .a ip ∧ (to4 ip).isSome) →
      ∃ a out, resolve ps up q = some (.ok a) ∧ a.answer = m2.answer.filter (fun rr => match rr.data with | .cname _ => true | _ => false) ++ out ∧ ForAll ps qu m2.answer out ∧
        a.id = q.id ∧ a.question = [qu] ∧ a.response = true ∧ a.rcode = rcodeSuccess ∧ a.ns = m2.ns ∧ a.extra = m2.extra ∧ a.ra = m.ra) := by
  have ha : aQuery q = { q with question := { qu with qtype := typeA } :: rest } := by unfold aQuery; rw [hq]
  have hs : ∀ m2, synthesizeAAAA ps m2 qu = if m2.answer.flatMap (oneRR ps qu) = [] then [] else m2.answer.filter (fun rr => match rr.data with | .cname _ => true | _ => false) ++ m2.answer.flatMap (oneRR ps qu) := by
    intro m2; rfl
  have hdo : ¬ (q.edns?.map (·.dnssecOk)).getD false = true := by
    cases he : q.edns? with
    | none => simp
    | some e => simp [hd e he]
  have hno' : ¬ hasAAAA m = true := by
    unfold hasAAAA
    rw [List.any_eq_true]
    rintro ⟨rr, h1, h2⟩
    exact hno rr h1 (by simpa using h2)
  have hstep : resolve ps up q = (if (up (aQuery q)).err.isSome then some (up q) else match (up (aQuery q)).msg with
      | none => some (up q)
      | some aAnswer =>
        if aAnswer.rcode ≠ rcodeSuccess then some (up q)
        else if synthesizeAAAA ps aAnswer qu = [] then some (up q)
        else some (.ok { setReply q with ra := m.ra, answer := synthesizeAAAA ps aAnswer qu, ns := aAnswer.ns, extra := aAnswer.extra })) := by
    unfold resolve
    rw [hq]
    simp only []
    rw [if_neg (by simp [ht]), if_neg hdo, hm.1]
    simp only [Res.ok, Option.isSome_none, Bool.false_eq_true, if_false]
    rw [if_neg (by simp [hm.2]), if_neg hno']
    rfl
  rw [hstep, ha]
  generalize { q with question := { qu with qtype := typeA } :: rest } = q2
  constructor
  · intro h
    split
    · rfl
    rename_i he
    cases hm2 : (up q2).msg with
    | none => rfl
    | some m2 =>
      simp only []
      split
      · rfl
      rename_i hr
      have hs2 : Success (up q2) m2 := by
        refine ⟨?_, by simpa using hr⟩
        cases hu : up q2 with
        | mk a b =>
          rw [hu] at hm2 he
          simp at hm2 he
          subst hm2; subst he; rfl
      rw [if_pos]
      rw [hs m2, if_pos]
      rw [List.flatMap_eq_nil_iff]
      intro rr hrr
      unfold oneRR
      cases hdat : rr.data <;> simp only []
      rw [h m2 hs2 rr _ hrr hdat]
  · rintro m2 hs2 ⟨rr, ip, h1, h2, h3⟩
    rw [hs2.1]
    simp only [Res.ok, Option.isSome_none, Bool.false_eq_true, if_false]
    rw [if_neg (by simp [hs2.2])]
    have hne' : m2.answer.flatMap (oneRR ps qu) ≠ [] := by
      intro hnil
      have := List.flatMap_eq_nil_iff.mp hnil rr h1
      unfold oneRR at this
      rw [h2] at this
      obtain ⟨v4, hv4⟩ := Option.isSome_iff_exists.mp h3
      simp only [hv4] at this
      have hl : v4.length = 4 := by
        unfold to4 at hv4
        split at hv4
        · rename_i hl; simp only [Option.some.injEq] at hv4; rw [← hv4]; exact hl
        · split at hv4
          · rename_i hl; simp only [Option.some.injEq] at hv4; rw [← hv4]; simp [hl.1]
          · simp at hv4
      have hf := forAddress ps hg qu rr.ttl v4 hl
      rw [this] at hf
      cases hf
      exact hne rfl
    have hsy : synthesizeAAAA ps m2 qu = m2.answer.filter (fun rr => match rr.data with | .cname _ => true | _ => false) ++ m2.answer.flatMap (oneRR ps qu) := by
      rw [hs m2, if_neg hne']
    rw [if_neg (by rw [hsy]; simp [hne'])]
    refine ⟨_, m2.answer.flatMap (oneRR ps qu), rfl, hsy, forAll ps hg qu m2.answer, ?_⟩
    simp [setReply, hq]

/-- C42: only prefixes for IPv6 of the six allowed lengths are accepted; without a configured one it is 64:ff9b::/96. -/
theorem dns64_prefixes (parseCIDR : Str → Option (Str × IPNet)) (hp : ∀ s e, parseCIDR s = some e → e.2.ip.length = 16 → e.2.ones % 8 = 0 → e.2.ip.drop (e.2.ones / 8) = List.replicate (16 - e.2.ones / 8) 0)
    (ps : List Str) (l : List Pfx) (h : newDns64 parseCIDR ps = some l) : l ≠ [] ∧ (∀ p, p ∈ l → Good p) ∧
    l.length = (if ps = [] then [str "64:ff9b::/96"] else ps).length ∧
    ∀ (i : Nat) (s : Str) (p : Pfx), (if ps = [] then [str "64:ff9b::/96"] else ps)[i]? = some s → l[i]? = some p → ∃ e, parseCIDR s = some e ∧ p = ⟨e.2.ip, e.2.ones⟩ := by
  have key : ∀ (ps : List Str) (l : List Pfx), parsePrefixes parseCIDR ps = some l → (∀ p, p ∈ l → Good p) ∧ l.length = ps.length ∧
      ∀ (i : Nat) (s : Str) (p : Pfx), ps[i]? = some s → l[i]? = some p → ∃ e, parseCIDR s = some e ∧ p = ⟨e.2.ip, e.2.ones⟩ := by
    intro ps
    induction ps with
    | nil => intro l h; simp only [parsePrefixes, Option.some.injEq] at h; subst h; simp
    | cons s ss ih =>
      intro l h
      unfold parsePrefixes at h
      cases hc : parseCIDR s with
      | none => rw [hc] at h; simp at h
      | some e =>
        rw [hc] at h
        cases e with
        | mk x n =>
          simp only [] at h
          split at h
          · simp at h
          split at h
          · simp at h
          rename_i h1 h2
          obtain ⟨l', h3, rfl⟩ := Option.map_eq_some_iff.mp h
          obtain ⟨i1, i2, i3⟩ := ih l' h3
          have h1 : n.ip.length = 16 := by simpa using h1
          have h2 : n.ones ∈ [32, 40, 48, 56, 64, 96] := Decidable.not_not.mp h2
          refine ⟨?_, by simp [i2], ?_⟩
          · intro p hp'
            rcases List.mem_cons.mp hp' with rfl | hp'
            · exact ⟨h1, h2, hp s (x, n) hc h1 (by show n.ones % 8 = 0; simp at h2; omega)⟩
            · exact i1 p hp'
          · intro i s' p hs hpp
            cases i with
            | zero => simp at hs hpp; subst hs; subst hpp; exact ⟨_, hc, rfl⟩
            | succ i => simp at hs hpp; exact i3 i s' p hs hpp
  unfold newDns64 at h
  obtain ⟨k1, k2, k3⟩ := key _ _ h
  refine ⟨?_, k1, k2, k3⟩
  rintro rfl
  split at k2
  · simp at k2
  · rename_i hne
    exact hne (List.length_eq_zero_iff.mp (by simpa using k2.symm))

/-- Finding: a prefix of 96 bits whose bits 64 to 71 are not zero is accepted, although the format demands zero there. -/
theorem dns64_96_nonzero_u : ∃ p addr, Good p ∧ p.len = 96 ∧ synthesize p [192, 0, 2, 1] = some addr ∧ addr[8]? = some 255 :=
  ⟨⟨[0, 100, 0, 1, 0, 0, 0, 0, 255, 0, 0, 0, 0, 0, 0, 0], 96⟩, [0, 100, 0, 1, 0, 0, 0, 0, 255, 0, 0, 0, 192, 0, 2, 1], by unfold Good; decide +kernel, by decide +kernel, by decide +kernel, by decide +kernel⟩

private def exP : Pfx := ⟨[0x20, 1, 13, 184, 1, 2, 0, 0, 0, 0, 0, 0, 0, 0, 0, 0], 48⟩
private def exUp : Msg → Res := fun m => if m.question.any (fun q => q.qtype = typeA) then
    .ok { answer := [⟨str "x.", 5, 1, 9, .cname (str "y.")⟩, ⟨str "y.", 1, 1, 7, .a (v4Prefix ++ [192, 0, 2, 33])⟩] } else .ok { answer := [⟨str "x.", 5, 1, 9, .cname (str "y.")⟩], ra := true }
private def exQ : Msg := { id := 3, question := [⟨str "x.", 28, 1⟩] }
example : Good exP ∧ Success (exUp exQ) { answer := [⟨str "x.", 5, 1, 9, .cname (str "y.")⟩], ra := true } ∧
    resolve [exP] exUp exQ = some (.ok { id := 3, response := true, ra := true, question := [⟨str "x.", 28, 1⟩], answer := [⟨str "x.", 5, 1, 9, .cname (str "y.")⟩,
      ⟨str "x.", 28, 1, 7, .aaaa [0x20, 1, 13, 184, 1, 2, 192, 0, 0, 2, 33, 0, 0, 0, 0, 0]⟩] }) := by unfold Good Success; decide +kernel

end Verif.Props.Dns64
