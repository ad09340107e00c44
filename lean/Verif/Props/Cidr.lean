/-
C30: IP lists.
-/
import Verif.Model.Cidr
import Verif.Spec.Cidr
import Verif.Lemmas.Net
set_option linter.unusedSimpArgs false
namespace Verif.Props.Cidr
open Verif Verif.Net Verif.Cidr Verif.Spec.Cidr

private theorem mask_bit : ∀ j, j < 8 → ∀ n, n < 256 → (! ((UInt8.ofNat n &&& bitMask.getD j 0) == 0)) = (UInt8.ofNat n).toNat.testBit (7 - j) := by
  decide +kernel

private theorem bits_get : ∀ (ip : Str) (n : Nat), n < 8 * ip.length → (bits ip)[n]? = some (bit ip n)
  | [], n, h => by simp at h
  | b :: bs, n, h => by
    by_cases hn : n < 8
    · rw [bits, List.getElem?_append_left (by simpa using hn)]
      have hd : n / 8 = 0 := by omega
      have hm : n % 8 = n := by omega
      have := mask_bit n hn b.toNat b.toNat_lt
      simp only [UInt8.ofNat_toNat] at this
      simp only [bit, hd, hm, List.getD_cons_zero]
      rw [this]
      simp [byteBits, hn]
    · rw [bits, List.getElem?_append_right (by simp; omega), byteBits_length, bits_get bs (n - 8) (by simp at h; omega)]
      have h1 : n / 8 = (n - 8) / 8 + 1 := by omega
      have h2 : n % 8 = (n - 8) % 8 := by omega
      simp [bit, h1, h2]

private theorem readBits_eq (ip : Str) (n : Nat) (h : n ≤ 8 * ip.length) : readBits ip n = (bits ip).take n := by
  apply List.ext_getElem?
  intro i
  unfold readBits
  rw [List.getElem?_map, List.getElem?_take]
  by_cases hi : i < n
  · rw [if_pos hi, bits_get ip i (by omega)]; simp [hi]
  · rw [if_neg hi]; simp [hi]

/-- some network in the tree contains the bits -/
private def Has : Trie → List Bool → Prop
  | .nil, _ => False
  | .node true _ _, _ => True
  | .node false _ _, [] => False
  | .node false l r, b :: bs => Has (if b then r else l) bs

private theorem has_add : ∀ (bs : List Bool) (t : Trie) (x : List Bool), Has (addBits t bs) x ↔ Has t x ∨ bs <+: x
  | bs, .node true l r, x => by
    cases bs <;> simp [addBits, Has]
  | [], .nil, x => by simp [addBits, Has]
  | [], .node false l r, x => by simp [addBits, Has]
  | b :: bs, .nil, x => by
    cases x with
    | nil => cases b <;> simp [addBits, Has]
    | cons y x =>
      have := has_add bs .nil x
      cases b <;> cases y <;> simp [addBits, Has, List.cons_prefix_cons, this]
  | b :: bs, .node false l r, x => by
    cases x with
    | nil => cases b <;> simp [addBits, Has]
    | cons y x =>
      have h1 := has_add bs l x
      have h2 := has_add bs r x
      cases b <;> cases y <;> simp [addBits, Has, List.cons_prefix_cons, h1, h2]

/-- nodes at depth `d` are leaves -/
private def WF : Nat → Trie → Prop
  | _, .nil => True
  | _, .node true _ _ => True
  | 0, .node false _ _ => False
  | d + 1, .node false l r => WF d l ∧ WF d r

private theorem wf_add : ∀ (bs : List Bool) (d : Nat) (t : Trie), WF d t → bs.length ≤ d → WF d (addBits t bs)
  | bs, d, .node true l r, _, _ => by cases bs <;> cases d <;> simp [addBits, WF]
  | [], d, .nil, _, _ => by cases d <;> simp [addBits, WF]
  | [], d, .node false l r, _, _ => by cases d <;> simp [addBits, WF]
  | b :: bs, 0, t, _, h => by simp at h
  | b :: bs, d + 1, .nil, _, h => by
    have := wf_add bs d .nil (by cases d <;> trivial) (by simpa using h)
    have hn : WF d .nil := by cases d <;> trivial
    cases b <;> simp [addBits, WF, this, hn]
  | b :: bs, d + 1, .node false l r, hw, h => by
    have h1 := wf_add bs d l hw.1 (by simpa using h)
    have h2 := wf_add bs d r hw.2 (by simpa using h)
    cases b
    · exact ⟨h1, hw.2⟩
    · exact ⟨hw.1, h2⟩

/-- the walk finds the shortest prefix of the bits that is in the tree -/
private theorem walk_spec : ∀ (x : List Bool) (t : Trie) (i : Nat), WF x.length t →
    match walk t x i with
    | none => ¬ Has t x
    | some n => i ≤ n ∧ n ≤ i + x.length ∧ Has t (x.take (n - i)) ∧ ∀ m, m < n - i → ¬ Has t (x.take m)
  | x, .nil, i, _ => by cases x <;> simp [walk, Has]
  | [], .node true l r, i, _ => by simp [walk, Has]
  | [], .node false l r, i, h => by simp [WF] at h
  | b :: x, .node true l r, i, _ => by simp [walk, Has]
  | b :: x, .node false l r, i, h => by
    have hw : WF x.length (if b then r else l) := by cases b <;> simp [WF] at h ⊢ <;> simp [h]
    have ih := walk_spec x (if b then r else l) (i + 1) hw
    simp only [walk]
    cases hr : walk (if b then r else l) x (i + 1) with
    | none => rw [hr] at ih; exact ih
    | some n =>
      rw [hr] at ih
      simp only at ih ⊢
      obtain ⟨h1, h2, h3, h4⟩ := ih
      have e : n - i = (n - (i + 1)) + 1 := by omega
      refine ⟨by omega, by simp; omega, ?_, ?_⟩
      · rw [e, List.take_succ_cons]; exact h3
      · intro m hm
        cases m with
        | zero => simp [Has]
        | succ m => rw [List.take_succ_cons]; exact h4 m (by omega)

/-- the tree holds exactly these networks, none longer than `d` -/
private def Holds (d : Nat) (t : Trie) (ns : List IPNet) : Prop :=
  WF d t ∧ ∀ x, Has t x ↔ ∃ n, n ∈ ns ∧ (bits n.ip).take n.ones <+: x

private theorem holds_add (d : Nat) (t : Trie) (ns : List IPNet) (n : IPNet) (h : Holds d t ns) (h1 : n.ones ≤ d) (h2 : n.ones ≤ 8 * n.ip.length) :
    Holds d (t.add n) (ns ++ [n]) := by
  unfold Trie.add
  rw [readBits_eq _ _ h2]
  refine ⟨wf_add _ _ _ h.1 (by simp; omega), ?_⟩
  intro x
  rw [has_add, h.2]
  constructor
  · rintro (⟨m, h3, h4⟩ | h3)
    · exact ⟨m, by simp [h3], h4⟩
    · exact ⟨n, by simp, h3⟩
  · rintro ⟨m, h3, h4⟩
    rcases List.mem_append.mp h3 with h3 | h3
    · exact .inl ⟨m, h3, h4⟩
    · simp only [List.mem_singleton] at h3; subst h3; exact .inr h4

/-- The line as it is handed to the library is the text of the network it names. -/
theorem normalize_text (r : Str) : normalize r = text r := by
  unfold normalize text
  have h35 : (trimSpace r).head? = some 35 ↔ [35] <+: trimSpace r := by
    cases trimSpace r with
    | nil => simp
    | cons a l => simp [List.cons_prefix_cons, eq_comm]
  dsimp only
  by_cases h0 : trimSpace r = [] ∨ [35] <+: trimSpace r
  · rw [if_pos h0, if_pos (by rw [h35]; exact h0.symm)]
  · rw [if_neg h0, if_neg (by rw [h35]; exact fun h => h0 h.symm)]
    by_cases h1 : (47 : UInt8) ∈ trimSpace r
    · simp [h1]
    · by_cases h2 : (46 : UInt8) ∈ trimSpace r
      · simp [h1, h2]
      · by_cases h3 : (58 : UInt8) ∈ trimSpace r
        · simp [h1, h2, h3]
        · simp [h1, h2, h3]

/-- the two tries hold the networks of their version -/
private structure Good (db : DB) (ns : List IPNet) : Prop where
  v4 : Holds 32 db.ip4 (ns.filter fun n => n.ip.length = 4)
  v6 : Holds 128 db.ip6 (ns.filter fun n => n.ip.length = 16)

private theorem load_good (parseCIDR : Str → Option (Str × IPNet)) : ∀ (rules : List Str) (db db' : DB) (ns : List IPNet), Good db ns →
    (∀ e, e ∈ networks parseCIDR rules → Regular e.1 e.2) → load parseCIDR rules db = some db' →
    Good db' (ns ++ (networks parseCIDR rules).map (·.2))
  | [], db, db', ns, hg, _, h => by
    simp only [load, Option.some.injEq] at h; subst h; simpa [networks] using hg
  | r :: rs, db, db', ns, hg, hr, h => by
    unfold load at h
    rw [normalize_text] at h
    cases hn : text r with
    | none =>
      rw [hn] at h
      have e : networks parseCIDR (r :: rs) = networks parseCIDR rs := by simp [networks, hn]
      rw [e] at hr ⊢
      exact load_good parseCIDR rs db db' ns hg hr h
    | some line =>
      rw [hn] at h
      simp only at h
      cases hp : parseCIDR line with
      | none => rw [hp] at h; cases h
      | some v =>
        obtain ⟨ip, n⟩ := v
        rw [hp] at h
        simp only at h
        have e : networks parseCIDR (r :: rs) = (ip, n) :: networks parseCIDR rs := by simp [networks, hn, hp]
        rw [e] at hr ⊢
        have hg' : Good (db.insert ip n) (ns ++ [n]) := by
          rcases hr (ip, n) (by simp) with ⟨h1, h2, h3⟩ | ⟨h1, h2, h3⟩
          · simp only at h1 h2 h3
            obtain ⟨b, hb⟩ := Option.isSome_iff_exists.mp h1
            simp only [DB.insert, hb]
            refine ⟨?_, ?_⟩
            · rw [List.filter_append]; simp only [List.filter_cons, h2, decide_true, if_true, List.filter_nil]
              exact holds_add _ _ _ _ hg.v4 h3 (by omega)
            · rw [List.filter_append]; simp only [List.filter_cons, h2]
              simpa using hg.v6
          · simp only at h1 h2 h3
            simp only [DB.insert, h1]
            refine ⟨?_, ?_⟩
            · rw [List.filter_append]; simp only [List.filter_cons, h2]
              simpa using hg.v4
            · rw [List.filter_append]; simp only [List.filter_cons, h2, decide_true, if_true, List.filter_nil]
              exact holds_add _ _ _ _ hg.v6 h3 (by omega)
        have := load_good parseCIDR rs _ db' (ns ++ [n]) hg' (fun x hx => hr x (by simp [hx])) h
        simpa using this

/-- what a lookup of `size` bits in one of the tries gives -/
private theorem holds_walk (d : Nat) (t : Trie) (ns : List IPNet) (addr : Str) (h : Holds d t ns) (hl : 8 * addr.length = d) :
    match walk t (readBits addr d) 0 with
    | none => ∀ n, n ∈ ns → ¬ (bits n.ip).take n.ones <+: bits addr
    | some p => p ≤ d ∧ (∃ n, n ∈ ns ∧ (bits n.ip).take n.ones <+: (bits addr).take p) ∧
        ∀ n, n ∈ ns → (bits n.ip).take n.ones <+: bits addr → p ≤ ((bits n.ip).take n.ones).length := by
  have hb : readBits addr d = bits addr := by
    rw [readBits_eq _ _ (by omega), List.take_of_length_le (by simp; omega)]
  rw [hb]
  have hw := walk_spec (bits addr) t 0 (by rw [bits_length, hl]; exact h.1)
  cases hr : walk t (bits addr) 0 with
  | none =>
    rw [hr] at hw
    intro n hn hp
    exact hw ((h.2 _).mpr ⟨n, hn, hp⟩)
  | some p =>
    rw [hr] at hw
    simp only [Nat.sub_zero, Nat.zero_add, bits_length] at hw ⊢
    obtain ⟨_, h2, h3, h4⟩ := hw
    refine ⟨by omega, (h.2 _).mp h3, ?_⟩
    intro n hn hp
    rcases Nat.lt_or_ge ((bits n.ip).take n.ones).length p with hlt | hge
    · exfalso
      apply h4 _ hlt
      rw [h.2]
      refine ⟨n, hn, ?_⟩
      rw [List.prefix_iff_eq_take] at hp
      rw [← hp]
      exact List.prefix_refl _
    · exact hge

private theorem prefix_iff (a b : List Bool) (k : Nat) (hk : k ≤ a.length) : a.take k <+: b ↔ b.take k = a.take k := by
  rw [List.prefix_iff_eq_take, List.length_take, Nat.min_eq_left hk]
  exact eq_comm

/-- what a lookup gives, in both versions -/
private theorem lookup_spec (parseCIDR : Str → Option (Str × IPNet)) (rules : List Str) (db : DB) (h : load parseCIDR rules {} = some db)
    (hreg : ∀ e, e ∈ networks parseCIDR rules → Regular e.1 e.2) (ip : Str) (hip : ip.length = 4 ∨ ip.length = 16) :
    match db.lookup ip with
    | none => ∀ e, e ∈ networks parseCIDR rules → ¬ InNet e.2 ip
    | some m => (∃ e, e ∈ networks parseCIDR rules ∧ InNet e.2 ip ∧ m.ones = e.2.ones ∧
          m.ip.length = e.2.ip.length ∧ bits m.ip = (bits e.2.ip).take e.2.ones ++ List.replicate (8 * e.2.ip.length - e.2.ones) false) ∧
        ∀ e, e ∈ networks parseCIDR rules → InNet e.2 ip → m.ones ≤ e.2.ones := by
  have hg := load_good parseCIDR rules {} db [] ⟨⟨by simp [WF], by simp [Has]⟩, ⟨by simp [WF], by simp [Has]⟩⟩ hreg h
  simp only [List.nil_append] at hg
  -- both versions the same way
  have core : ∀ (len d : Nat) (t : Trie) (addr : Str), addr.length = len → 8 * len = d →
      Holds d t (((networks parseCIDR rules).map (·.2)).filter fun n => n.ip.length = len) →
      (∀ e, e ∈ networks parseCIDR rules → e.2.ip.length = len → e.2.ones ≤ d) →
      match walk t (readBits addr d) 0 with
      | none => ∀ e, e ∈ networks parseCIDR rules → ¬ (e.2.ip.length = len ∧ (bits addr).take e.2.ones = (bits e.2.ip).take e.2.ones)
      | some p => p ≤ d ∧ (∃ e, e ∈ networks parseCIDR rules ∧ (e.2.ip.length = len ∧ (bits addr).take e.2.ones = (bits e.2.ip).take e.2.ones) ∧ p = e.2.ones) ∧
        ∀ e, e ∈ networks parseCIDR rules → (e.2.ip.length = len ∧ (bits addr).take e.2.ones = (bits e.2.ip).take e.2.ones) → p ≤ e.2.ones := by
    intro len d t addr hal hd hh hon
    have hw := holds_walk d t _ addr hh (by omega)
    cases hr : walk t (readBits addr d) 0 with
    | none =>
      rw [hr] at hw
      simp only at hw ⊢
      rintro e he ⟨h1, h2⟩
      have ho := hon e he h1
      refine hw e.2 (List.mem_filter.mpr ⟨List.mem_map.mpr ⟨e, he, rfl⟩, by simpa using h1⟩) ?_
      rw [prefix_iff _ _ _ (by simp; omega)]
      exact h2
    | some p =>
      rw [hr] at hw
      simp only at hw ⊢
      obtain ⟨hp, ⟨n, hn, hpre⟩, hmin⟩ := hw
      have hmin' : ∀ e, e ∈ networks parseCIDR rules → (e.2.ip.length = len ∧ (bits addr).take e.2.ones = (bits e.2.ip).take e.2.ones) → p ≤ e.2.ones := by
        rintro e he ⟨h1, h2⟩
        have ho := hon e he h1
        have := hmin e.2 (List.mem_filter.mpr ⟨List.mem_map.mpr ⟨e, he, rfl⟩, by simpa using h1⟩)
          (by rw [prefix_iff _ _ _ (by simp; omega)]; exact h2)
        simp at this
        omega
      refine ⟨hp, ?_, hmin'⟩
      obtain ⟨hn1, hn2⟩ := List.mem_filter.mp hn
      obtain ⟨e, he, rfl⟩ := List.mem_map.mp hn1
      have h1 : e.2.ip.length = len := by simpa using hn2
      have ho := hon e he h1
      have hin : e.2.ip.length = len ∧ (bits addr).take e.2.ones = (bits e.2.ip).take e.2.ones := by
        refine ⟨h1, ?_⟩
        rw [← prefix_iff _ _ _ (by simp; omega)]
        exact hpre.trans (List.take_prefix _ _)
      refine ⟨e, he, hin, ?_⟩
      have h2 := hmin' e he hin
      have h3 := hpre.length_le
      simp at h3
      omega
  have mask : ∀ (addr : Str) (n : Nat), n ≤ 8 * addr.length → (addr.length = 4 ∨ addr.length = 16) →
      (ipMask addr (cidrMask n addr.length)).length = addr.length ∧
      bits (ipMask addr (cidrMask n addr.length)) = (bits addr).take n ++ List.replicate (8 * addr.length - n) false := by
    intro addr n hn hl
    have e : ipMask addr (cidrMask n addr.length) = List.zipWith (· &&& ·) addr (cidrMaskBytes addr.length n) := by
      have e1 : cidrMask n addr.length = cidrMaskBytes addr.length n := by unfold cidrMask; rw [if_neg (by omega)]
      rw [e1]
      unfold ipMask
      have c1 : ¬ ((cidrMaskBytes addr.length n).length = 16 ∧ addr.length = 4 ∧ (cidrMaskBytes addr.length n).take 12 = List.replicate 12 255) := by
        rw [cidrMaskBytes_length]; omega
      simp only [if_neg c1]
      have c2 : ¬ ((cidrMaskBytes addr.length n).length = 4 ∧ addr.length = 16 ∧ addr.take 12 = v4Prefix) := by
        rw [cidrMaskBytes_length]; omega
      simp only [if_neg c2]
      rw [if_neg (by simp)]
    rw [e]
    exact ⟨by simp, bits_mask _ _⟩
  have hne : ¬ ip.length = 0 := by omega
  unfold DB.lookup
  rw [if_neg hne]
  cases h4 : to4 ip with
  | some b =>
    have hb : b.length = 4 := by
      unfold to4 at h4
      split at h4
      · simp only [Option.some.injEq] at h4; subst h4; assumption
      · split at h4
        · rename_i hc; simp only [Option.some.injEq] at h4; subst h4; simp [hc.1]
        · cases h4
    have hc := core 4 32 db.ip4 b hb (by omega) hg.v4 (fun e he hl => by
      rcases hreg e he with h1 | h1
      · exact h1.2.2
      · omega)
    have hin : ∀ n : IPNet, InNet n ip ↔ n.ip.length = 4 ∧ (bits b).take n.ones = (bits n.ip).take n.ones := by
      intro n; unfold InNet; rw [h4]
    simp only [Trie.hasIP, h4, Option.getD_some, Option.isSome_some, if_true, hin]
    cases hr : walk db.ip4 (readBits b 32) 0 with
    | none => rw [hr] at hc; exact hc
    | some p =>
      rw [hr] at hc
      obtain ⟨hp, ⟨e, he, h1, h2⟩, h3⟩ := hc
      refine ⟨⟨e, he, h1, h2, ?_⟩, h3⟩
      have := mask b p (by omega) (.inl hb)
      rw [hb] at this
      rw [h1.1, ← h1.2, ← h2]
      exact this
  | none =>
    have hl : ip.length = 16 := by
      rcases hip with h1 | h1
      · simp [to4, h1] at h4
      · exact h1
    have hc := core 16 128 db.ip6 ip hl (by omega) hg.v6 (fun e he hl => by
      rcases hreg e he with h1 | h1
      · omega
      · exact h1.2.2)
    have hin : ∀ n : IPNet, InNet n ip ↔ n.ip.length = 16 ∧ (bits ip).take n.ones = (bits n.ip).take n.ones := by
      intro n; unfold InNet; rw [h4]
    simp only [Trie.hasIP, h4, Option.getD_none, Option.isSome_none, Bool.false_eq_true, if_false, hin]
    cases hr : walk db.ip6 (readBits ip 128) 0 with
    | none => rw [hr] at hc; exact hc
    | some p =>
      rw [hr] at hc
      obtain ⟨hp, ⟨e, he, h1, h2⟩, h3⟩ := hc
      refine ⟨⟨e, he, h1, h2, ?_⟩, h3⟩
      have := mask ip p (by omega) (.inr hl)
      rw [hl] at this
      rw [h1.1, ← h1.2, ← h2]
      exact this

/-- C30: for a list that loads, and whose networks are not given as IPv4-mapped IPv6, an address is matched exactly if it lies in one of the networks. -/
theorem cidr_match_iff (parseCIDR : Str → Option (Str × IPNet)) (rules : List Str) (db : DB) (h : load parseCIDR rules {} = some db)
    (hreg : ∀ e, e ∈ networks parseCIDR rules → Regular e.1 e.2) (ip : Str) (hip : ip.length = 4 ∨ ip.length = 16) :
    (db.lookup ip).isSome ↔ ∃ e, e ∈ networks parseCIDR rules ∧ InNet e.2 ip := by
  have := lookup_spec parseCIDR rules db h hreg ip hip
  cases hr : db.lookup ip with
  | none => rw [hr] at this; simp only [Option.isSome_none, Bool.false_eq_true, false_iff]; rintro ⟨e, he, hi⟩; exact this e he hi
  | some m => rw [hr] at this; obtain ⟨⟨e, he, hi, _⟩, _⟩ := this; simp only [Option.isSome_some, true_iff]; exact ⟨e, he, hi⟩

/-- C30: the network reported is a listed one the address lies in (with the bits beyond the prefix cleared), and none of the listed networks the address
lies in is larger. -/
theorem cidr_match_rule (parseCIDR : Str → Option (Str × IPNet)) (rules : List Str) (db : DB) (h : load parseCIDR rules {} = some db)
    (hreg : ∀ e, e ∈ networks parseCIDR rules → Regular e.1 e.2) (ip : Str) (hip : ip.length = 4 ∨ ip.length = 16) (m : IPNet)
    (hm : db.lookup ip = some m) :
    (∃ e, e ∈ networks parseCIDR rules ∧ InNet e.2 ip ∧ m.ones = e.2.ones ∧ m.ip.length = e.2.ip.length ∧
      bits m.ip = (bits e.2.ip).take e.2.ones ++ List.replicate (8 * e.2.ip.length - e.2.ones) false) ∧
    ∀ e, e ∈ networks parseCIDR rules → InNet e.2 ip → m.ones ≤ e.2.ones := by
  have := lookup_spec parseCIDR rules db h hreg ip hip
  rw [hm] at this
  exact this

/-- C30: a list loads exactly if every line that is neither empty nor a comment is a network. -/
theorem cidr_load_iff (parseCIDR : Str → Option (Str × IPNet)) (rules : List Str) :
    (load parseCIDR rules {}).isSome ↔ ∀ r, r ∈ rules → ∀ line, text r = some line → (parseCIDR line).isSome := by
  suffices ∀ db, (load parseCIDR rules db).isSome ↔ ∀ r, r ∈ rules → ∀ line, text r = some line → (parseCIDR line).isSome from this {}
  induction rules with
  | nil => simp [load]
  | cons r rs ih =>
    intro db
    unfold load
    rw [normalize_text]
    cases hn : text r with
    | none => simp [ih, hn]
    | some line =>
      cases hp : parseCIDR line with
      | none => simp [hn, hp]
      | some v => simp [hn, hp, ih]

/-- C30: the order of the lines makes no difference to what is matched. -/
theorem cidr_order (parseCIDR : Str → Option (Str × IPNet)) (rules rules' : List Str) (db db' : DB) (hp : ∀ r, r ∈ rules ↔ r ∈ rules')
    (h : load parseCIDR rules {} = some db) (h' : load parseCIDR rules' {} = some db')
    (hreg : ∀ e, e ∈ networks parseCIDR rules → Regular e.1 e.2) (ip : Str) (hip : ip.length = 4 ∨ ip.length = 16) :
    (db.lookup ip).isSome = (db'.lookup ip).isSome := by
  have hm : ∀ e, e ∈ networks parseCIDR rules ↔ e ∈ networks parseCIDR rules' := by
    intro e; simp only [networks, List.mem_filterMap, hp]
  rw [Bool.eq_iff_iff, cidr_match_iff parseCIDR rules db h hreg ip hip,
    cidr_match_iff parseCIDR rules' db' h' (fun e he => hreg e ((hm e).mpr he)) ip hip]
  simp only [hm]

/-! A concrete list: 10.0.0.0/8, 10.1.0.0/16 and 2001:db8::/32, in this order -/
private def exParse (s : Str) : Option (Str × IPNet) :=
  if s = str "10.0.0.0/8" then some (v4Prefix ++ [10, 0, 0, 0], ⟨[10, 0, 0, 0], 8⟩)
  else if s = str "10.1.0.0/16" then some (v4Prefix ++ [10, 1, 0, 0], ⟨[10, 1, 0, 0], 16⟩)
  else if s = str "2001:db8::/32" then some ([32, 1, 13, 184, 0, 0, 0, 0, 0, 0, 0, 0, 0, 0, 0, 0], ⟨[32, 1, 13, 184, 0, 0, 0, 0, 0, 0, 0, 0, 0, 0, 0, 0], 32⟩)
  else if s = str "::ffff:1.2.3.0/120" then some (v4Prefix ++ [1, 2, 3, 0], ⟨v4Prefix ++ [1, 2, 3, 0], 120⟩)
  else none
private def exRules : List Str := [str "# comment", str " 10.1.0.0/16 ", str "", str "10.0.0.0/8", str "2001:db8::/32"]

example : (load exParse exRules {}).isSome ∧ networks exParse exRules ≠ [] ∧
    ((load exParse exRules {}).bind fun db => db.lookup [10, 1, 2, 3]) = some ⟨[10, 0, 0, 0], 8⟩ ∧
    ((load exParse exRules {}).bind fun db => db.lookup [11, 1, 2, 3]) = none := by decide +kernel
example : ∀ e, e ∈ networks exParse exRules → Regular e.1 e.2 := by
  have : networks exParse exRules = [(v4Prefix ++ [10, 1, 0, 0], ⟨[10, 1, 0, 0], 16⟩), (v4Prefix ++ [10, 0, 0, 0], ⟨[10, 0, 0, 0], 8⟩),
      ([32, 1, 13, 184, 0, 0, 0, 0, 0, 0, 0, 0, 0, 0, 0, 0], ⟨[32, 1, 13, 184, 0, 0, 0, 0, 0, 0, 0, 0, 0, 0, 0, 0], 32⟩)] := by decide +kernel
  rw [this]
  simp [Regular, to4, v4Prefix]

/-- Finding: a network given in IPv4-mapped form (::ffff:1.2.3.0/120, an IPv6 text for 1.2.3.0/24) loads, does not match 1.2.3.4, and matches 0.0.0.0. -/
theorem cidr_mapped_wrong : ∃ db, load exParse [str "::ffff:1.2.3.0/120"] {} = some db ∧
    db.lookup [1, 2, 3, 4] = none ∧ (db.lookup [0, 0, 0, 0]).isSome := by
  refine ⟨_, rfl, ?_, ?_⟩ <;> decide +kernel

end Verif.Props.Cidr
