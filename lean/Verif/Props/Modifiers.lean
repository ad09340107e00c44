/-
C39 (client subnet), C40 (EDNS0 options), C41 (padding).
-/
import Verif.Model.Modifiers
import Verif.Spec.Modifiers
import Verif.Lemmas.Edns
import Verif.Lemmas.Net
set_option linter.unusedVariables false
set_option linter.unusedSimpArgs false
namespace Verif.Props.Modifiers
open Verif Verif.Net Verif.Modifiers Verif.Spec.Modifiers Verif.Edns0

/-! ### Helpers -/

private theorem kept_filter (p : EOpt → Prop) (f : EOpt → Bool) (h : ∀ o, f o = true ↔ p o) : ∀ (os : List EOpt), Kept p os (os.filter f)
  | [] => .nil
  | o :: os => by
    by_cases hf : f o = true
    · rw [List.filter_cons_of_pos hf]; exact .keep ((h o).mp hf) (kept_filter p f h os)
    · rw [List.filter_cons_of_neg hf]; exact .drop (fun hp => hf ((h o).mpr hp)) (kept_filter p f h os)

private theorem isEcs_iff (o : EOpt) : (! isEcs o) = true ↔ ¬ IsSubnet o := by
  unfold IsSubnet
  cases o <;> simp [isEcs]

private theorem replaced_self (m : Msg) (e : Edns) (h : m.edns? = some e) : Replaced m m e e := by
  have h1 := mapEdns_some m id e h
  obtain ⟨pre, r, post, h2, h3, h4, h5⟩ := h1
  refine ⟨pre, r, post, h2, h3, h4, ?_⟩
  have hr : { r with data := RData.opt e.udpSize e.dnssecOk e.options } = r := by
    cases r with
    | mk n t c ttl d =>
      cases d <;> simp [RR.edns?] at h3
      subst h3; rfl
  rw [hr, ← h2]

/-- C39: after deletion no client-subnet option is left; the other options, in their order, and everything else stay. -/
theorem ecs_delete (q : Msg) : (∀ e, q.edns? = some e → ∃ os, Replaced q (ecsDelete q) e { e with options := os } ∧ Kept (fun o => ¬ IsSubnet o) e.options os) ∧
    (q.edns? = none → ecsDelete q = q) := by
  constructor
  · intro e he
    exact ⟨_, mapEdns_some q _ e he, kept_filter _ _ isEcs_iff _⟩
  · intro h; exact mapEdns_none q _ h

private theorem kept_mem {p : EOpt → Prop} {a b : List EOpt} (h : Kept p a b) : ∀ o, o ∈ b → p o := by
  induction h with
  | nil => intro o ho; simp at ho
  | keep hp _ ih => intro x hx; rcases List.mem_cons.mp hx with rfl | hx; exact hp; exact ih x hx
  | drop _ _ ih => exact ih

theorem masked_mask (ip : Str) (n : Nat) (hl : ip.length = 4 ∨ ip.length = 16) (hn : n ≤ 8 * ip.length) : Masked ip n (ipMask ip (cidrMask n ip.length)) := by
  have e : ipMask ip (cidrMask n ip.length) = List.zipWith (· &&& ·) ip (cidrMaskBytes ip.length n) := by
    unfold cidrMask
    rw [if_neg (by omega)]
    unfold ipMask
    have : (cidrMaskBytes ip.length n).length = ip.length := cidrMaskBytes_length _ _
    have c1 : ¬ ((cidrMaskBytes ip.length n).length = 16 ∧ ip.length = 4 ∧ (cidrMaskBytes ip.length n).take 12 = List.replicate 12 255) := by
      rintro ⟨h1, h2, _⟩; omega
    have c2 : ¬ ((cidrMaskBytes ip.length n).length = 4 ∧ ip.length = 16 ∧ ip.take 12 = v4Prefix) := by
      rintro ⟨h1, h2, _⟩; omega
    simp only []
    rw [if_neg c1, if_neg c2, if_neg (fun h => h this.symm)]
  rw [e]
  have hb := bits_mask ip n
  refine ⟨by simp [cidrMaskBytes_length], ?_, ?_⟩
  · rw [hb, List.take_append_of_le_length (by simp; omega), List.take_take, Nat.min_self]
  · intro i h1 h2
    have hl : ((bits ip).take n).length = n := by rw [List.length_take, bits_length]; omega
    rw [hb, List.getElem?_append_right (by omega), hl, List.getElem?_replicate, if_pos (by omega)]

private theorem to4_cases (ip : Str) (h : ip.length = 4 ∨ ip.length = 16) :
    (∃ a, to4 ip = some a ∧ (ip = a ∨ ip = v4Prefix ++ a) ∧ a.length = 4) ∨ (to4 ip = none ∧ ip.length = 16 ∧ ip.take 12 ≠ v4Prefix) := by
  unfold to4
  by_cases h4 : ip.length = 4
  · rw [if_pos h4]; exact .inl ⟨ip, rfl, .inl rfl, h4⟩
  · rw [if_neg h4]
    have h16 : ip.length = 16 := by omega
    by_cases hp : ip.take 12 = v4Prefix
    · rw [if_pos ⟨h16, hp⟩]
      refine .inl ⟨_, rfl, .inr ?_, by simp [h16]⟩
      rw [← hp]; simp
    · rw [if_neg (fun h => hp h.2)]; exact .inr ⟨rfl, h16, hp⟩

theorem subnet_of (addr : Str) (prefix4 prefix6 : Nat) (ci : ClientInfo) (h4 : prefix4 ≤ 32) (h6 : prefix6 ≤ 128)
    (hs : (if addr = [] then ci.sourceIP else addr).length = 4 ∨ (if addr = [] then ci.sourceIP else addr).length = 16) :
    SubnetOf (if addr = [] then ci.sourceIP else addr) prefix4 prefix6 (ecsSubnet addr prefix4 prefix6 ci) := by
  unfold ecsSubnet
  simp only []
  generalize (if addr = [] then ci.sourceIP else addr) = src at hs ⊢
  rcases to4_cases src hs with ⟨a, h1, h2, h3⟩ | ⟨h1, h2, h3⟩
  · rw [h1]
    refine .inl ⟨a, _, h2, h3, rfl, ?_⟩
    have := masked_mask a prefix4 (.inl h3) (by omega)
    rw [h3] at this; exact this
  · rw [h1]
    refine .inr ⟨h2, h3, _, rfl, ?_⟩
    have := masked_mask src prefix6 (.inr h2) (by omega)
    rw [h2] at this; exact this

/-- C39: adding leaves exactly one client-subnet option, at the end: the network of the configured address, or else of the client, with the configured length.
The other options, in their order, stay; the OPT record is added if there is none; everything else stays. -/
theorem ecs_add (addr : Str) (prefix4 prefix6 : Nat) (q : Msg) (ci : ClientInfo) (h4 : prefix4 ≤ 32) (h6 : prefix6 ≤ 128)
    (hs : (if addr = [] then ci.sourceIP else addr).length = 4 ∨ (if addr = [] then ci.sourceIP else addr).length = 16) :
    ∃ o, SubnetOf (if addr = [] then ci.sourceIP else addr) prefix4 prefix6 o ∧
      (∀ e, q.edns? = some e → ∃ os, Kept (fun o => ¬ IsSubnet o) e.options os ∧ Replaced q (ecsAdd addr prefix4 prefix6 q ci) e { e with options := os ++ [o] }) ∧
      (q.edns? = none → Added q (ecsAdd addr prefix4 prefix6 q ci) ⟨4096, false, [o]⟩) := by
  refine ⟨ecsSubnet addr prefix4 prefix6 ci, subnet_of addr prefix4 prefix6 ci h4 h6 hs, ?_, ?_⟩
  · intro e he
    obtain ⟨os, h1, h2⟩ := (ecs_delete q).1 e he
    refine ⟨os, h2, ?_⟩
    have h3 := (replaced_edns h1).2
    unfold ecsAdd withEdns
    rw [if_neg (by rw [h3]; simp)]
    exact replaced_trans h1 (mapEdns_some (ecsDelete q) _ _ h3)
  · intro h
    unfold ecsAdd
    rw [(ecs_delete q).2 h]
    unfold withEdns
    rw [if_pos h]
    refine ⟨h, ?_⟩
    unfold Msg.mapEdns Msg.setEdns0
    simp only []
    rw [setLast_append _ q.extra _ [] ⟨4096, false, []⟩ (by simp) rfl]
    simp

/-- C39: with the variant "if missing" a query with a client-subnet option is not changed at all; any other is treated as by "add". -/
theorem ecs_add_if_missing (addr : Str) (prefix4 prefix6 : Nat) (q : Msg) (ci : ClientInfo) :
    ((∃ e o, q.edns? = some e ∧ o ∈ e.options ∧ IsSubnet o) → ecsAddIfMissing addr prefix4 prefix6 q ci = q) ∧
    ((∀ e o, q.edns? = some e → o ∈ e.options → ¬ IsSubnet o) → ecsAddIfMissing addr prefix4 prefix6 q ci = ecsAdd addr prefix4 prefix6 q ci) := by
  have hi : ∀ o, isEcs o = true ↔ IsSubnet o := by intro o; unfold IsSubnet; cases o <;> simp [isEcs]
  unfold ecsAddIfMissing
  constructor
  · rintro ⟨e, o, h1, h2, h3⟩
    rw [if_pos]
    rw [h1]
    simp only [Option.map_some, Option.getD_some, List.any_eq_true]
    exact ⟨o, h2, (hi o).mpr h3⟩
  · intro h
    rw [if_neg]
    intro h'
    cases he : q.edns? with
    | none => rw [he] at h'; simp at h'
    | some e =>
      rw [he] at h'
      simp only [Option.map_some, Option.getD_some, List.any_eq_true] at h'
      obtain ⟨o, h1, h2⟩ := h'
      exact h e o he h1 ((hi o).mp h2)

/-- C39: "privacy" leaves no address bits beyond the configured length in any client-subnet option of IP version 4 or 6; the number and order of the options
and everything but the subnets stays. -/
theorem ecs_privacy (prefix4 prefix6 : Nat) (q : Msg) (h4 : prefix4 ≤ 32) (h6 : prefix6 ≤ 128) :
    (q.edns? = none → ecsPrivacy prefix4 prefix6 q = q) ∧
    ∀ e, q.edns? = some e → ∃ os, Replaced q (ecsPrivacy prefix4 prefix6 q) e { e with options := os } ∧ os.length = e.options.length ∧
      ∀ (i : Nat) (o : EOpt), e.options[i]? = some o →
        (∀ m s a, o = .ecs 1 m s a → a.length = 4 → ∃ a', os[i]? = some (.ecs 1 prefix4 s a') ∧ Masked a prefix4 a') ∧
        (∀ m s a, o = .ecs 2 m s a → a.length = 16 → ∃ a', os[i]? = some (.ecs 2 prefix6 s a') ∧ Masked a prefix6 a') ∧
        ((∀ f m s a, o = .ecs f m s a → f ≠ 1 ∧ f ≠ 2) → os[i]? = some o) := by
  refine ⟨fun h => mapEdns_none q _ h, ?_⟩
  intro e he
  refine ⟨_, mapEdns_some q _ e he, by simp, ?_⟩
  intro i o ho
  simp only [List.getElem?_map, ho, Option.map_some]
  refine ⟨?_, ?_, ?_⟩
  · rintro m s a rfl ha
    refine ⟨_, rfl, ?_⟩
    have ht : to4 a = some a := by unfold to4; rw [if_pos ha]
    have := masked_mask a prefix4 (.inl ha) (by omega)
    rw [ha] at this
    rw [ht]; exact this
  · rintro m s a rfl ha
    refine ⟨_, rfl, ?_⟩
    have := masked_mask a prefix6 (.inr ha) (by omega)
    rw [ha] at this; exact this
  · intro hf
    unfold ecsPrivacyOpt
    split
    · exact absurd rfl (hf _ _ _ _ rfl).1
    · exact absurd rfl (hf _ _ _ _ rfl).2
    · rfl

/-- Finding: "privacy" raises the length of a subnet that was shorter than configured: a client that asked not to be located (length 0) is announced as being in 0.0.0.0/24. -/
theorem ecs_privacy_widens (q : Msg) (d : Bool) (s : Nat) (h : q.edns? = some ⟨s, d, [.ecs 1 0 0 [0, 0, 0, 0]]⟩) :
    (ecsPrivacy 24 56 q).edns? = some ⟨s, d, [.ecs 1 24 0 [0, 0, 0, 0]]⟩ := by
  unfold ecsPrivacy
  rw [edns_mapEdns, h]
  simp only [Option.map_some, List.map_cons, List.map_nil]
  have : ecsPrivacyOpt 24 56 (.ecs 1 0 0 [0, 0, 0, 0]) = .ecs 1 24 0 [0, 0, 0, 0] := by decide +kernel
  rw [this]

/-- Finding: with a length beyond 32 no address is left but the option is still sent. -/
theorem ecs_add_bad_prefix (q : Msg) (h : q.edns? = none) (a : Str) (ha : a.length = 4) (p6 : Nat) (ci : ClientInfo) :
    (ecsAdd a 33 p6 q ci).edns? = some ⟨4096, false, [.ecs 1 33 0 []]⟩ := by
  unfold ecsAdd
  rw [(ecs_delete q).2 h]
  unfold withEdns
  rw [if_pos h, edns_mapEdns, edns_setEdns0]
  have hne : a ≠ [] := by rintro rfl; simp at ha
  unfold ecsSubnet
  rw [if_neg hne]
  have ht : to4 a = some a := by unfold to4; rw [if_pos ha]
  simp [ht, cidrMask, ipMask, ha]

private def exQ : Msg := { question := [⟨str "a.", 1, 1⟩], extra := [{ name := str ".", rtype := 41, cls := 1232, ttl := 0, data := .opt 1232 true [.padding 3, .ecs 1 32 0 [1, 2, 3, 4], .loc 65001 [1], .ecs 2 9 0 (List.replicate 16 255)] }] }
example : (ecsAdd [] 20 56 exQ { sourceIP := v4Prefix ++ [9, 8, 255, 6] }).edns? = some ⟨1232, true, [.padding 3, .loc 65001 [1], .ecs 1 20 0 [9, 8, 240, 0]]⟩ ∧
    (ecsPrivacy 16 8 exQ).edns? = some ⟨1232, true, [.padding 3, .ecs 1 16 0 [1, 2, 0, 0], .loc 65001 [1], .ecs 2 8 0 (255 :: List.replicate 15 0)]⟩ ∧
    (ecsDelete exQ).edns? = some ⟨1232, true, [.padding 3, .loc 65001 [1]]⟩ := by decide +kernel

/-! ### EDNS0 options -/

/-- C40: deletion leaves no option with this code, and everything else as it is. -/
theorem edns0_delete (code : Nat) (q : Msg) : (∀ e, q.edns? = some e → ∃ os, Replaced q (edns0Delete code q) e { e with options := os } ∧ Kept (fun o => o.code ≠ code) e.options os) ∧
    (q.edns? = none → edns0Delete code q = q) := by
  constructor
  · intro e he
    exact ⟨_, mapEdns_some q _ e he, kept_filter _ _ (by simp) _⟩
  · intro h; exact mapEdns_none q _ h

/-- C40: adding leaves exactly one option with this code, with the given data and at the end. -/
theorem edns0_add (code : Nat) (data : Str) (q : Msg) :
    (∀ e, q.edns? = some e → ∃ os, Kept (fun o => o.code ≠ code) e.options os ∧ Replaced q (edns0Add code data q) e { e with options := os ++ [.loc code data] }) ∧
    (q.edns? = none → Added q (edns0Add code data q) ⟨4096, false, [.loc code data]⟩) := by
  constructor
  · intro e he
    obtain ⟨os, h1, h2⟩ := (edns0_delete code q).1 e he
    refine ⟨os, h2, ?_⟩
    have h3 := (replaced_edns h1).2
    unfold edns0Add withEdns
    rw [if_neg (by rw [h3]; simp)]
    exact replaced_trans h1 (mapEdns_some (edns0Delete code q) _ _ h3)
  · intro h
    unfold edns0Add
    rw [(edns0_delete code q).2 h]
    unfold withEdns
    rw [if_pos h]
    refine ⟨h, ?_⟩
    unfold Msg.mapEdns Msg.setEdns0
    simp only []
    rw [setLast_append _ q.extra _ [] ⟨4096, false, []⟩ (by simp) rfl]
    simp

/-- C40 in one sentence: which options are there afterwards -/
theorem edns0_add_exactly_one (code : Nat) (data : Str) (q : Msg) : ∃ e os, (edns0Add code data q).edns? = some e ∧ e.options = os ++ [.loc code data] ∧ ∀ o, o ∈ os → o.code ≠ code := by
  cases h : q.edns? with
  | none =>
    have h1 := (edns0_add code data q).2 h
    refine ⟨⟨4096, false, [.loc code data]⟩, [], ?_, rfl, by simp⟩
    rw [h1.2]
    exact edns_append _ q.extra _ [] _ rfl rfl (by simp)
  | some e =>
    obtain ⟨os, h1, h2⟩ := (edns0_add code data q).1 e h
    exact ⟨_, os, (replaced_edns h2).2, rfl, kept_mem h1⟩

example : (edns0Add 65001 [7, 7] exQ).edns? = some ⟨1232, true, [.padding 3, .ecs 1 32 0 [1, 2, 3, 4], .ecs 2 9 0 (List.replicate 16 255), .loc 65001 [7, 7]]⟩ ∧
    (edns0Delete 12 exQ).edns? = some ⟨1232, true, [.ecs 1 32 0 [1, 2, 3, 4], .loc 65001 [1], .ecs 2 9 0 (List.replicate 16 255)]⟩ := by decide +kernel

/-! ### Padding -/

private theorem clear_ok : ∀ (os : List EOpt), (∀ o, o ∈ os → o.code = 12 → ∃ n, o = .padding n) → clearPadding os = some (emptied os)
  | [], _ => rfl
  | o :: os, h => by
    have ih := clear_ok os (fun x hx => h x (by simp [hx]))
    cases o with
    | padding n => simp [clearPadding, ih, emptied]
    | loc c d =>
      have : ¬ c = 12 := fun e => by obtain ⟨n, hn⟩ := h (.loc c d) (by simp) e; simp at hn
      simp only [clearPadding, EOpt.code, if_neg this, ih]; rfl
    | other c d =>
      have : ¬ c = 12 := fun e => by obtain ⟨n, hn⟩ := h (.other c d) (by simp) e; simp at hn
      simp only [clearPadding, EOpt.code, if_neg this, ih]; rfl
    | _ => simp [clearPadding, ih, emptied, EOpt.code]

/-- all options, only that a padding option may have been added at the end -/
private def padded (os : List EOpt) : List EOpt := withPadding (emptied os)

private theorem emptied_idem (os : List EOpt) : emptied (emptied os) = emptied os := by
  unfold emptied
  rw [List.map_map]
  apply List.map_congr_left
  intro o _
  cases o <;> rfl

private theorem emptied_code (os : List EOpt) (h : ∀ o, o ∈ os → o.code = 12 → ∃ n, o = .padding n) : ∀ o, o ∈ emptied os → o.code = 12 → o = .padding 0 := by
  intro o ho hc
  unfold emptied at ho
  obtain ⟨o', h1, rfl⟩ := List.mem_map.mp ho
  cases o' with
  | padding n => rfl
  | loc c d => obtain ⟨n, hn⟩ := h _ h1 hc; simp at hn
  | other c d => obtain ⟨n, hn⟩ := h _ h1 hc; simp at hn
  | _ => simp [EOpt.code] at hc

private theorem padded_split (os : List EOpt) (h : ∀ o, o ∈ os → o.code = 12 → ∃ n, o = .padding n) :
    ∃ pre post, padded os = pre ++ .padding 0 :: post ∧ (∀ o, o ∈ post → o.code ≠ 12) ∧ emptied (padded os) = padded os := by
  have hc := emptied_code os h
  unfold padded withPadding
  by_cases ha : (emptied os).any (fun o => o.code = 12) = true
  · rw [if_pos ha]
    suffices hs : ∀ (l : List EOpt), l.any (fun o => o.code = 12) = true → (∀ o, o ∈ l → o.code = 12 → o = .padding 0) →
        ∃ pre post, l = pre ++ .padding 0 :: post ∧ ∀ o, o ∈ post → o.code ≠ 12 by
      obtain ⟨pre, post, h1, h2⟩ := hs _ ha hc
      exact ⟨pre, post, h1, h2, emptied_idem os⟩
    intro l
    induction l with
    | nil => intro h; simp at h
    | cons x xs ih =>
      intro h1 h2
      by_cases hx : xs.any (fun o => o.code = 12) = true
      · obtain ⟨pre, post, h3, h4⟩ := ih hx (fun o ho => h2 o (by simp [ho]))
        exact ⟨x :: pre, post, by rw [h3]; rfl, h4⟩
      · have hx' : ∀ o, o ∈ xs → o.code ≠ 12 := by
          intro o ho e
          exact hx (List.any_eq_true.mpr ⟨o, ho, by simp [e]⟩)
        have : x.code = 12 := by
          simp only [List.any_cons, Bool.or_eq_true] at h1
          rcases h1 with h1 | h1
          · simpa using h1
          · exact absurd h1 hx
        exact ⟨[], xs, by rw [h2 x (by simp) this]; rfl, hx'⟩
  · rw [if_neg ha]
    refine ⟨emptied os, [], rfl, by simp, ?_⟩
    have : emptied (emptied os ++ [.padding 0]) = emptied (emptied os) ++ [.padding 0] := by unfold emptied; simp
    rw [this, emptied_idem]

private theorem go_set (n : Nat) : ∀ (l : List EOpt) (k : Nat) (post : List EOpt), (∀ o, o ∈ l → o.code ≠ 12) →
    setPadding.go n (l ++ .padding k :: post) = l ++ .padding n :: post
  | [], k, post, _ => rfl
  | o :: os, k, post, h => by
    have ih := go_set n os k post (fun x hx => h x (by simp [hx]))
    cases o with
    | padding m => exact absurd rfl (h (.padding m) (by simp))
    | _ => simp only [List.cons_append, setPadding.go, ih]

private theorem set_split (n k : Nat) (pre post : List EOpt) (h : ∀ o, o ∈ post → o.code ≠ 12) : setPadding n (pre ++ .padding k :: post) = pre ++ .padding n :: post := by
  unfold setPadding
  have : (pre ++ EOpt.padding k :: post).reverse = post.reverse ++ .padding k :: pre.reverse := by simp
  simp only [this]
  rw [go_set n post.reverse k pre.reverse (fun o ho => h o (by simpa using ho))]
  simp

private theorem bytes_emptied (os : List EOpt) : paddingBytes (emptied os) = 0 := by
  unfold paddingBytes emptied
  rw [List.map_map]
  induction os with
  | nil => rfl
  | cons o os ih => rw [List.map_cons, List.sum_cons, ih]; cases o <;> rfl

private theorem bytes_set (n : Nat) (os : List EOpt) (h : ∀ o, o ∈ os → o.code = 12 → ∃ n, o = .padding n) :
    paddingBytes (setPadding n (padded os)) = n ∧ emptied (setPadding n (padded os)) = padded os := by
  obtain ⟨pre, post, h1, h2, h3⟩ := padded_split os h
  have hb := bytes_emptied (padded os)
  rw [h3] at hb
  rw [h1] at hb h3 ⊢
  rw [set_split n 0 pre post h2]
  constructor
  · unfold paddingBytes at hb ⊢
    simp only [List.map_append, List.map_cons, List.sum_append, List.sum_cons] at hb ⊢
    omega
  · unfold emptied at h3 ⊢
    simpa using h3

/-- The options after padding: the others stay, there is one padding option at least, and only the last has content. -/
private def Padded (os : List EOpt) (n : Nat) (os' : List EOpt) : Prop :=
  (∃ pre post, (os' = pre ++ .padding n :: post) ∧ (∀ o, o ∈ post → o.code ≠ 12) ∧ paddingBytes pre = 0) ∧ os'.filter (fun o => o.code ≠ 12) = os.filter (fun o => o.code ≠ 12)

private theorem filter_emptied (os : List EOpt) : (emptied os).filter (fun o => o.code ≠ 12) = os.filter (fun o => o.code ≠ 12) := by
  induction os with
  | nil => rfl
  | cons o os ih =>
    have he : ∀ x : EOpt, emptied (x :: os) = (match x with | .padding _ => .padding 0 | o => o) :: emptied os := fun x => rfl
    rw [he]
    cases o with
    | padding n => rw [List.filter_cons_of_neg (by simp [EOpt.code]), List.filter_cons_of_neg (by simp [EOpt.code])]; exact ih
    | _ => simp only [List.filter_cons]; rw [ih]

private theorem filter_set (n : Nat) (os : List EOpt) (h : ∀ o, o ∈ os → o.code = 12 → ∃ n, o = .padding n) : Padded os n (setPadding n (padded os)) := by
  obtain ⟨pre, post, h1, h2, h3⟩ := padded_split os h
  have hf : (padded os).filter (fun o => o.code ≠ 12) = os.filter (fun o => o.code ≠ 12) := by
    unfold padded withPadding
    split
    · exact filter_emptied os
    · rw [List.filter_append, filter_emptied]; simp [EOpt.code]
  have hb := bytes_emptied (padded os)
  rw [h3] at hb
  rw [h1] at hb hf ⊢
  rw [set_split n 0 pre post h2]
  refine ⟨⟨pre, post, rfl, h2, ?_⟩, ?_⟩
  · unfold paddingBytes at hb ⊢
    simp only [List.map_append, List.map_cons, List.sum_append, List.sum_cons] at hb ⊢
    omega
  · rw [← hf]
    simp [List.filter_append, List.filter_cons, EOpt.code]

private theorem pad_core (len : Msg → Nat) (hlen : CountsPadding len) (m : Msg) (e : Edns) (he : m.edns? = some e) (h : ∀ o, o ∈ e.options → o.code = 12 → ∃ n, o = .padding n) (n : Nat) :
    let m1 := m.mapEdns fun e' => { e' with options := padded e.options }
    let m2 := m1.mapEdns fun e' => { e' with options := setPadding n e'.options }
    len m2 = len m1 + n ∧ Replaced m m2 e { e with options := setPadding n (padded e.options) } := by
  intro m1 m2
  have r1 : Replaced m m1 e { e with options := padded e.options } := mapEdns_some m _ e he
  have r2 : Replaced m1 m2 { e with options := padded e.options } { e with options := setPadding n (padded e.options) } := mapEdns_some m1 _ _ (replaced_edns r1).2
  refine ⟨?_, replaced_trans r1 r2⟩
  obtain ⟨b1, b2⟩ := bytes_set n e.options h
  have := hlen m1 m2 { e with options := setPadding n (padded e.options) } (by simp only [b2]; exact r2)
  rw [this, b1]

/-- C41, queries: a query with EDNS gets a length that is a multiple of 128 by padding; its other options stay; one without EDNS is not changed. -/
theorem pad_query (len : Msg → Nat) (hlen : CountsPadding len) (q : Msg) :
    (q.edns? = none → padQuery len q = some q) ∧
    ∀ e, q.edns? = some e → (∀ o, o ∈ e.options → o.code = 12 → ∃ n, o = .padding n) →
      ∃ q' os, padQuery len q = some q' ∧ 128 ∣ len q' ∧ Replaced q q' e { e with options := os } ∧ os.filter (fun o => o.code ≠ 12) = e.options.filter (fun o => o.code ≠ 12) := by
  constructor
  · intro h; unfold padQuery; rw [h]
  · intro e he ho
    unfold padQuery
    rw [he]
    simp only []
    rw [clear_ok _ ho]
    simp only []
    have hw : withPadding (emptied e.options) = padded e.options := rfl
    rw [hw, if_neg (by unfold queryBlock; omega)]
    obtain ⟨h1, h2⟩ := pad_core len hlen q e he ho (queryBlock - len (q.mapEdns fun e' => { e' with options := padded e.options }) % queryBlock)
    refine ⟨_, _, rfl, ?_, h2, (filter_set _ e.options ho).2⟩
    rw [h1]
    unfold queryBlock
    omega

/-- C41, responses: to a query with EDNS the response is padded to the next multiple of 468 bytes, if that is not more than the client takes, else to what the client takes,
and if it is longer already it has no padding. So the length does not tell more than the number of blocks, or that the limit is reached. The other options stay. -/
theorem pad_answer (len : Msg → Nat) (hlen : CountsPadding len) (q a : Msg) :
    (q.edns? = none → padAnswer len q a = some a) ∧
    ∀ eq, q.edns? = some eq →
      (∀ ea, a.edns? = some ea → (∀ o, o ∈ ea.options → o.code = 12 → ∃ n, o = .padding n) →
        ∃ a0 a' os, padAnswer len q a = some a' ∧ Replaced a a0 ea { ea with options := emptied os } ∧ Replaced a a' ea { ea with options := os } ∧
          len a' = paddedLength (len a0) eq.udpSize ∧ os.filter (fun o => o.code ≠ 12) = ea.options.filter (fun o => o.code ≠ 12)) ∧
      (a.edns? = none → ∃ a0 a' n, padAnswer len q a = some a' ∧ Added a a0 ⟨eq.udpSize, eq.dnssecOk, [.padding 0]⟩ ∧ Added a a' ⟨eq.udpSize, eq.dnssecOk, [.padding n]⟩ ∧
          len a' = paddedLength (len a0) eq.udpSize) := by
  have num : ∀ (l limit : Nat), ∃ n, (if l + (responseBlock - l % responseBlock) > limit then limit - l else responseBlock - l % responseBlock) = n ∧ n ≤ responseBlock ∧
      l + n = paddedLength l limit := by
    intro l limit
    unfold paddedLength responseBlock
    refine ⟨_, rfl, ?_, ?_⟩
    · split <;> omega
    · by_cases h : l + (468 - l % 468) > limit
      · rw [if_pos h, if_neg (by omega)]
        split <;> omega
      · rw [if_neg h, if_pos (by omega)]
        omega
  constructor
  · intro h; unfold padAnswer; rw [h]
  · intro eq heq
    constructor
    · intro ea hea ho
      unfold padAnswer
      rw [heq]
      simp only [hea]
      rw [clear_ok _ ho]
      simp only []
      have hw : withPadding (emptied ea.options) = padded ea.options := rfl
      rw [hw]
      obtain ⟨n, n1, n2, n3⟩ := num (len (a.mapEdns fun e' => { e' with options := padded ea.options })) eq.udpSize
      rw [n1, if_neg (by omega)]
      obtain ⟨h1, h2⟩ := pad_core len hlen a ea hea ho n
      refine ⟨a.mapEdns fun e' => { e' with options := padded ea.options }, _, _, rfl, ?_, h2, ?_, (filter_set n ea.options ho).2⟩
      · rw [(bytes_set n ea.options ho).2]
        exact mapEdns_some a _ ea hea
      · rw [h1]; exact n3
    · intro hea
      unfold padAnswer
      rw [heq]
      simp only [hea]
      have hs := edns_setEdns0 a eq.udpSize eq.dnssecOk
      rw [hs]
      simp only [clearPadding]
      have hw : withPadding [] = padded [] := rfl
      rw [hw]
      obtain ⟨n, n1, n2, n3⟩ := num (len ((a.setEdns0 eq.udpSize eq.dnssecOk).mapEdns fun e' => { e' with options := padded [] })) eq.udpSize
      rw [n1, if_neg (by omega)]
      obtain ⟨h1, h2⟩ := pad_core len hlen _ _ hs (by simp) n
      refine ⟨(a.setEdns0 eq.udpSize eq.dnssecOk).mapEdns fun e' => { e' with options := padded [] }, _, n, rfl, ⟨hea, ?_⟩, ⟨hea, ?_⟩, ?_⟩
      rotate_left 2
      · rw [h1]; exact n3
      · unfold Msg.mapEdns Msg.setEdns0
        simp only []
        rw [setLast_append _ a.extra _ [] ⟨eq.udpSize, eq.dnssecOk, []⟩ (by simp) rfl]
        rfl
      · unfold Msg.mapEdns Msg.setEdns0
        simp only []
        rw [setLast_append _ a.extra _ [] ⟨eq.udpSize, eq.dnssecOk, []⟩ (by simp) rfl]
        simp only []
        rw [setLast_append _ a.extra _ [] ⟨eq.udpSize, eq.dnssecOk, padded []⟩ (by simp) rfl]
        rfl

/-- C41: responses whose lengths lie in the same block cannot be told apart by length if the client's limit allows a whole block. -/
theorem pad_hides (l l' limit : Nat) (h : l / 468 = l' / 468) (hf : 468 * (l / 468 + 1) ≤ limit) : paddedLength l limit = paddedLength l' limit := by
  unfold paddedLength
  rw [← h, if_pos hf, if_pos hf]

/-- C41: whatever `dns.Msg.Len` says, a response is padded without a panic and without any other change. -/
theorem pad_answer_other (len : Msg → Nat) (q a : Msg) (ho : ∀ ea, a.edns? = some ea → ∀ o, o ∈ ea.options → o.code = 12 → ∃ n, o = .padding n) :
    ∃ a', padAnswer len q a = some a' ∧
      (a' = a ∨ (∃ ea os, Replaced a a' ea { ea with options := os } ∧ os.filter (fun o => o.code ≠ 12) = ea.options.filter (fun o => o.code ≠ 12)) ∨
        ∃ e, Added a a' e ∧ ∀ o, o ∈ e.options → o.code = 12) := by
  have num : ∀ (l limit : Nat), ∃ n, (if l + (responseBlock - l % responseBlock) > limit then limit - l else responseBlock - l % responseBlock) = n ∧ ¬ n > responseBlock := by
    intro l limit
    refine ⟨_, rfl, ?_⟩
    unfold responseBlock
    split <;> omega
  unfold padAnswer
  cases hq : q.edns? with
  | none => exact ⟨a, rfl, Or.inl rfl⟩
  | some eq =>
    cases ha : a.edns? with
    | some ea =>
      simp only [ha]
      rw [clear_ok _ (ho ea ha)]
      simp only []
      have hw : withPadding (emptied ea.options) = padded ea.options := rfl
      rw [hw]
      obtain ⟨n, n1, n2⟩ := num (len (a.mapEdns fun e' => { e' with options := padded ea.options })) eq.udpSize
      rw [n1, if_neg n2]
      refine ⟨_, rfl, Or.inr (Or.inl ⟨ea, _, ?_, (filter_set n ea.options (ho ea ha)).2⟩)⟩
      have r1 := mapEdns_some a (fun e' => { e' with options := padded ea.options }) ea ha
      exact replaced_trans r1 (mapEdns_some _ _ _ (replaced_edns r1).2)
    | none =>
      have hs := edns_setEdns0 a eq.udpSize eq.dnssecOk
      simp only [hs, clearPadding]
      have hw : withPadding [] = [.padding 0] := rfl
      rw [hw]
      obtain ⟨n, n1, n2⟩ := num (len ((a.setEdns0 eq.udpSize eq.dnssecOk).mapEdns fun e' => { e' with options := [.padding 0] })) eq.udpSize
      rw [n1, if_neg n2]
      refine ⟨_, rfl, Or.inr (Or.inr ⟨⟨eq.udpSize, eq.dnssecOk, [.padding n]⟩, ⟨ha, ?_⟩, by simp [EOpt.code]⟩)⟩
      unfold Msg.mapEdns Msg.setEdns0
      simp only []
      rw [setLast_append _ a.extra _ [] ⟨eq.udpSize, eq.dnssecOk, []⟩ (by simp) rfl, setLast_append _ a.extra _ [] ⟨eq.udpSize, eq.dnssecOk, [.padding 0]⟩ (by simp) rfl]
      rfl

/-- C41: whatever `dns.Msg.Len` says, a query is padded without a panic and without any other change. -/
theorem pad_query_other (len : Msg → Nat) (q : Msg) (ho : ∀ e, q.edns? = some e → ∀ o, o ∈ e.options → o.code = 12 → ∃ n, o = .padding n) :
    ∃ q', padQuery len q = some q' ∧
      (q' = q ∨ ∃ e os, Replaced q q' e { e with options := os } ∧ os.filter (fun o => o.code ≠ 12) = e.options.filter (fun o => o.code ≠ 12)) := by
  unfold padQuery
  cases hq : q.edns? with
  | none => exact ⟨q, rfl, Or.inl rfl⟩
  | some e =>
    simp only []
    rw [clear_ok _ (ho e hq)]
    simp only []
    have hw : withPadding (emptied e.options) = padded e.options := rfl
    rw [hw, if_neg (by unfold queryBlock; omega)]
    generalize queryBlock - len (q.mapEdns fun e' => { e' with options := padded e.options }) % queryBlock = n
    refine ⟨_, rfl, Or.inr ⟨e, _, ?_, (filter_set n e.options (ho e hq)).2⟩⟩
    have r1 := mapEdns_some q (fun e' => { e' with options := padded e.options }) e hq
    exact replaced_trans r1 (mapEdns_some _ _ _ (replaced_edns r1).2)

/-- C41: padding is never what makes a response too long. -/
theorem pad_within_limit (l limit : Nat) : paddedLength l limit ≤ limit ∨ paddedLength l limit = l := by
  unfold paddedLength
  repeat' split
  all_goals omega

/-- C41: over plain transports padding is removed, and nothing else. -/
theorem strip_padding (m : Msg) : (∀ e, m.edns? = some e → ∃ os, Replaced m (stripPadding m) e { e with options := os } ∧ Kept (fun o => o.code ≠ 12) e.options os) ∧
    (m.edns? = none → stripPadding m = m) := by
  constructor
  · intro e he
    exact ⟨_, mapEdns_some m _ e he, kept_filter _ _ (by simp) _⟩
  · intro h; exact mapEdns_none m _ h

/-- Finding: an option added by the EDNS0 modifier with the code of padding makes every query over an encrypted transport panic. -/
theorem pad_query_panics (len : Msg → Nat) (data : Str) (q : Msg) : padQuery len (edns0Add 12 data q) = none := by
  obtain ⟨e, os, h1, h2, h3⟩ := edns0_add_exactly_one 12 data q
  have : ∀ (l : List EOpt), clearPadding (l ++ [.loc 12 data]) = none := by
    intro l
    induction l with
    | nil => rfl
    | cons o l ih =>
      cases o with
      | padding n => simp [clearPadding, ih]
      | _ => simp only [List.cons_append, clearPadding, ih]; split <;> rfl
  unfold padQuery
  rw [h1]
  simp only [h2, this]

private def exLen (m : Msg) : Nat := 30 + 7 * m.answer.length + ((m.edns?.map fun e => 11 + 4 * e.options.length + paddingBytes e.options).getD 0)
private theorem exLen_counts : CountsPadding exLen := by
  intro m m' e h
  obtain ⟨h1, h2⟩ := replaced_edns h
  obtain ⟨pre, r, post, _, _, _, rfl⟩ := h
  unfold exLen
  rw [h1, h2]
  simp only [Option.map_some, Option.getD_some, bytes_emptied]
  have : (emptied e.options).length = e.options.length := by unfold emptied; simp
  rw [this]; omega
example : CountsPadding exLen ∧ (padQuery exLen exQ).map exLen = some 128 ∧ (padAnswer exLen exQ { answer := List.replicate 70 ⟨[], 1, 1, 1, .a []⟩ }).map exLen = some 936 ∧
    (padAnswer exLen exQ { answer := List.replicate 160 ⟨[], 1, 1, 1, .a []⟩ }).map exLen = some 1232 := ⟨exLen_counts, by decide +kernel⟩

end Verif.Props.Modifiers
