/-
C29 (hosts files), C31 (hardware addresses), C32 (several lists, reloads).
-/
import Verif.Spec.Lists
set_option linter.unusedVariables false
set_option linter.unusedSimpArgs false
namespace Verif.Props.Lists
open Verif Verif.Net Verif.Lists Verif.Spec.Lists

/-! ### Fields of a line -/

private theorem fieldsGo_word (w : Str) (hw : ∀ c, c ∈ w → isSpace c = false) : ∀ (cur rest : Str), fieldsGo cur (w ++ rest) = fieldsGo (w.reverse ++ cur) rest := by
  induction w with
  | nil => intro cur rest; rfl
  | cons c w ih =>
    intro cur rest
    have hc := hw c (by simp)
    simp only [List.cons_append, fieldsGo, hc, Bool.false_eq_true, if_false]
    rw [ih (fun d hd => hw d (by simp [hd]))]
    simp

private theorem fieldsGo_gap (g : Str) (hg : ∀ c, c ∈ g → isSpace c = true) : ∀ (rest : Str), fieldsGo [] (g ++ rest) = fieldsGo [] rest := by
  induction g with
  | nil => intro rest; rfl
  | cons c g ih =>
    intro rest
    have hc := hg c (by simp)
    simp only [List.cons_append, fieldsGo, hc, if_true]
    exact ih (fun d hd => hg d (by simp [hd])) rest

/-- C29: a line is cut into its words at white space, however much there is. -/
theorem hosts_fields (g0 : Str) (l : List (Str × Str)) (hg0 : ∀ c, c ∈ g0 → isSpace c = true)
    (h : ∀ e, e ∈ l → e.1 ≠ [] ∧ (∀ c, c ∈ e.1 → isSpace c = false) ∧ (∀ c, c ∈ e.2 → isSpace c = true))
    (hgap : ∀ e, e ∈ l.dropLast → e.2 ≠ []) :
    fields (g0 ++ l.flatMap fun e => e.1 ++ e.2) = l.map (·.1) := by
  unfold fields
  rw [fieldsGo_gap g0 hg0]
  induction l with
  | nil => rfl
  | cons e l ih =>
    obtain ⟨h1, h2, h3⟩ := h e (by simp)
    have ih' := ih (fun x hx => h x (by simp [hx])) (by
      intro x hx
      refine hgap x ?_
      cases l with
      | nil => simp at hx
      | cons y l => simp [hx])
    simp only [List.flatMap_cons, List.append_assoc, List.map_cons]
    rw [fieldsGo_word e.1 h2, List.append_nil]
    have hne : ¬ e.1.reverse = [] := by simpa using h1
    cases hg : e.2 with
    | nil =>
      cases l with
      | nil => simp [fieldsGo, h1]
      | cons y l => exact absurd hg (hgap e (by simp))
    | cons c g =>
      have hc : isSpace c = true := h3 c (by simp [hg])
      simp only [List.cons_append, fieldsGo, hc, if_true, hne, if_false, List.reverse_reverse]
      rw [fieldsGo_gap g (fun d hd => h3 d (by simp [hg, hd])), ih']

example : fields (str "  1.2.3.4\t a.com  b.com ") = [str "1.2.3.4", str "a.com", str "b.com"] := by decide +kernel

/-! ### Hosts files -/

private theorem lookup_setKey {α : Type} (m : List (Str × α)) (k x : Str) (v : α) : (setKey m k v).lookup x = if x = k then some v else m.lookup x := by
  unfold setKey
  rw [List.lookup_cons]
  by_cases h : x = k
  · simp [h]
  · have : (x == k) = false := by simp [h]
    rw [this, if_neg h]
    simp only []
    induction m with
    | nil => rfl
    | cons e m ih =>
      by_cases he : e.1 = k
      · rw [List.filter_cons_of_neg (by simp [he]), ih, List.lookup_cons]
        have : (x == e.1) = false := by rw [he]; simp [h]
        rw [this]
      · rw [List.filter_cons_of_pos (by simp [he]), List.lookup_cons, List.lookup_cons, ih]

/-- what one name of a line does to the record of name `n` -/
private def upd (isIP4 : Bool) (ip : Str) (r : Option IpRecords) : Option IpRecords :=
  let ips := r.getD {}
  if isIP4 then (if ips.ip4.length > 10 then r else some { ips with ip4 := ips.ip4 ++ [ip] })
  else (if ips.ip6.length > 10 then r else some { ips with ip6 := ips.ip6 ++ [ip] })

private theorem addName_lookup (v4 : Bool) (ip : Str) (db : HostsDB) (name n : Str) :
    (addName v4 ip db name).filters.lookup n = (if n = hostName name then upd v4 ip (db.filters.lookup n) else db.filters.lookup n) ∧
    (addName v4 ip db name).ptrMap = db.ptrMap := by
  have h10 : maxHostsResponses = 10 := rfl
  unfold addName
  simp only [h10]
  by_cases hn : n = hostName name
  · subst hn
    rw [if_pos rfl]
    unfold upd
    simp only []
    cases v4
    · simp only [Bool.false_eq_true, if_false]
      split
      · exact ⟨rfl, rfl⟩
      · exact ⟨by simp only []; rw [lookup_setKey, if_pos rfl], rfl⟩
    · simp only [if_true]
      split
      · exact ⟨rfl, rfl⟩
      · exact ⟨by simp only []; rw [lookup_setKey, if_pos rfl], rfl⟩
  · rw [if_neg hn]
    cases v4
    · simp only [Bool.false_eq_true, if_false]
      split
      · exact ⟨rfl, rfl⟩
      · exact ⟨by simp only []; rw [lookup_setKey, if_neg hn], rfl⟩
    · simp only [if_true]
      split
      · exact ⟨rfl, rfl⟩
      · exact ⟨by simp only []; rw [lookup_setKey, if_neg hn], rfl⟩

private theorem addNames_lookup (v4 : Bool) (ip : Str) (n : Str) : ∀ (names : List Str) (db : HostsDB),
    (names.foldl (addName v4 ip) db).filters.lookup n = ((names.filter fun x => hostName x = n).foldl (fun r _ => upd v4 ip r) (db.filters.lookup n)) ∧
    (names.foldl (addName v4 ip) db).ptrMap = db.ptrMap
  | [], db => ⟨rfl, rfl⟩
  | x :: xs, db => by
    have ih := addNames_lookup v4 ip n xs (addName v4 ip db x)
    have h1 := addName_lookup v4 ip db x n
    simp only [List.foldl_cons]
    refine ⟨?_, by rw [ih.2, h1.2]⟩
    rw [ih.1, h1.1]
    by_cases hx : hostName x = n
    · rw [if_pos hx.symm, List.filter_cons_of_pos (by simp [hx])]; rfl
    · rw [if_neg (fun e => hx e.symm), List.filter_cons_of_neg (by simp [hx])]

/-- the address the code stores -/
private def stored (parseIP : Str → Str) (text : Str) : Str := if isUnspecified (parseIP text) then [] else parseIP text

private theorem addLine_lookup (parseIP : Str → Str) (rev : Str → Option Str) (db : HostsDB) (ip : Str) (names : List Str) (n : Str) :
    (addLine parseIP rev db ip names).filters.lookup n =
      ((names.filter fun x => hostName x = n).foldl (fun r _ => upd (to4 (parseIP ip)).isSome (stored parseIP ip) r) (db.filters.lookup n)) ∧
    (addLine parseIP rev db ip names).ptrMap.lookup n = (if rev ip = some n then some ((db.ptrMap.lookup n).getD [] ++ names) else db.ptrMap.lookup n) := by
  have h1 := addNames_lookup (to4 (parseIP ip)).isSome (stored parseIP ip) n names db
  unfold addLine
  cases hr : rev ip with
  | none => exact ⟨h1.1, by simp only [reduceCtorEq, if_false]; exact congrArg (List.lookup n) h1.2⟩
  | some r =>
    refine ⟨h1.1, ?_⟩
    simp only []
    rw [lookup_setKey]
    have h2 : (names.foldl (addName (to4 (parseIP ip)).isSome (if isUnspecified (parseIP ip) then [] else parseIP ip)) db).ptrMap = db.ptrMap := h1.2
    rw [h2]
    by_cases hn : n = r
    · subst hn; simp
    · rw [if_neg hn, if_neg (by simpa using fun e => hn e.symm)]

private theorem hostsLine_none {r : Str} (h : hostsLine r = none) : lists (fields (trimSpace r)) = [] := by
  unfold hostsLine at h
  cases hf : fields (trimSpace r) with
  | nil => rfl
  | cons a names =>
    rw [hf] at h
    dsimp only at h
    show (if [35] <+: a then [] else names.map fun n => (a, n)) = []
    by_cases h1 : a.head? = some 35
    · rw [if_pos]
      cases a with
      | nil => cases h1
      | cons c l => cases h1; simp
    · rw [if_neg h1] at h
      by_cases h2 : names = []
      · simp [h2]
      · rw [if_neg h2] at h; cases h

private theorem hostsLine_some {r ip : Str} {names : List Str} (h : hostsLine r = some (ip, names)) :
    lists (fields (trimSpace r)) = names.map fun n => (ip, n) := by
  unfold hostsLine at h
  cases hf : fields (trimSpace r) with
  | nil => rw [hf] at h; cases h
  | cons a ns =>
    rw [hf] at h
    dsimp only at h
    by_cases h1 : a.head? = some 35
    · rw [if_pos h1] at h; cases h
    · rw [if_neg h1] at h
      by_cases h2 : ns = []
      · rw [if_pos h2] at h; cases h
      · rw [if_neg h2] at h
        cases h
        show (if [35] <+: ip then [] else names.map fun n => (ip, n)) = _
        rw [if_neg]
        intro hp
        cases ip with
        | nil => simp at hp
        | cons c l =>
          rw [List.cons_prefix_cons] at hp
          exact h1 (by simp [hp.1])

private def step (parseIP : Str → Str) (rev : Str → Option Str) (db : HostsDB) (r : Str) : HostsDB := match hostsLine r with
  | none => db
  | some (ip, names) => addLine parseIP rev db ip names

private def updE (parseIP : Str → Str) (r : Option IpRecords) (e : Str × Str) : Option IpRecords := upd (to4 (parseIP e.1)).isSome (stored parseIP e.1) r

private theorem load_filters (parseIP : Str → Str) (rev : Str → Option Str) (n : Str) : ∀ (rules : List Str) (db : HostsDB),
    (rules.foldl (step parseIP rev) db).filters.lookup n =
      (((listed rules).filter fun e => hostName e.2 = n).foldl (updE parseIP) (db.filters.lookup n))
  | [], db => rfl
  | r :: rs, db => by
    simp only [List.foldl_cons]
    rw [load_filters parseIP rev n rs]
    unfold step listed
    cases hl : hostsLine r with
    | none => simp [hostsLine_none hl]
    | some e =>
      obtain ⟨ip, names⟩ := e
      simp only [hostsLine_some hl, List.flatMap_cons, List.filter_append, List.foldl_append]
      congr 1
      rw [(addLine_lookup parseIP rev db ip names n).1, List.filter_map, List.foldl_map]
      rfl

private theorem load_ptr (parseIP : Str → Str) (rev : Str → Option Str) (n : Str) : ∀ (rules : List Str) (db : HostsDB),
    (rules.foldl (step parseIP rev) db).ptrMap.lookup n =
      (if ∃ e, e ∈ listed rules ∧ rev e.1 = some n then some ((db.ptrMap.lookup n).getD [] ++ namesFor rev rules n) else db.ptrMap.lookup n)
  | [], db => by simp [listed]
  | r :: rs, db => by
    simp only [List.foldl_cons]
    rw [load_ptr parseIP rev n rs]
    unfold step
    cases hl : hostsLine r with
    | none =>
      have : listed (r :: rs) = listed rs := by unfold listed; rw [List.flatMap_cons, hostsLine_none hl]; rfl
      simp only [namesFor, this]
    | some e =>
      obtain ⟨ip, names⟩ := e
      have hne : names ≠ [] := by
        unfold hostsLine at hl
        split at hl
        · exact absurd hl (by simp)
        · split at hl
          · exact absurd hl (by simp)
          · split at hl
            · exact absurd hl (by simp)
            · rename_i h
              simp only [Option.some.injEq, Prod.mk.injEq] at hl
              rw [← hl.2]; exact h
      have hlist : listed (r :: rs) = names.map (fun n => (ip, n)) ++ listed rs := by
        unfold listed; rw [List.flatMap_cons, hostsLine_some hl]
      simp only [(addLine_lookup parseIP rev db ip names n).2]
      have hnames : namesFor rev (r :: rs) n = (if rev ip = some n then names else []) ++ namesFor rev rs n := by
        unfold namesFor
        rw [hlist, List.filter_append, List.map_append, List.filter_map]
        congr 1
        by_cases h : rev ip = some n
        · rw [if_pos h, List.filter_eq_self.mpr (by simp [h]), List.map_map]; exact List.map_id _
        · rw [if_neg h, List.filter_eq_nil_iff.mpr (by simp [h])]; simp
      by_cases h : rev ip = some n
      · have h1 : ∃ e, e ∈ listed (r :: rs) ∧ rev e.1 = some n := by
          rw [hlist]
          obtain ⟨x, xs, rfl⟩ := List.exists_cons_of_ne_nil hne
          exact ⟨(ip, x), by simp, h⟩
        rw [if_pos h1, hnames, if_pos h]
        split
        · simp
        · rename_i h2
          have : namesFor rev rs n = [] := by
            unfold namesFor
            rw [List.filter_eq_nil_iff.mpr]
            · rfl
            · intro e he; simpa using fun hr => h2 ⟨e, he, hr⟩
          rw [this]; simp
      · rw [if_neg h, hnames, if_neg h]
        have h1 : (∃ e, e ∈ listed (r :: rs) ∧ rev e.1 = some n) ↔ (∃ e, e ∈ listed rs ∧ rev e.1 = some n) := by
          rw [hlist]
          constructor
          · rintro ⟨e, he, hr⟩
            rcases List.mem_append.mp he with he | he
            · obtain ⟨x, _, rfl⟩ := List.mem_map.mp he
              exact absurd hr h
            · exact ⟨e, he, hr⟩
          · rintro ⟨e, he, hr⟩
            exact ⟨e, by simp [he], hr⟩
        simp only [h1, List.nil_append]

private def v4s (parseIP : Str → Str) (v4 : Bool) (es : List (Str × Str)) : List Str :=
  (es.filter fun e => (to4 (parseIP e.1)).isSome == v4).map fun e => stored parseIP e.1

private theorem take_full (a x : List Str) (h : a.length ≤ 11) (h' : ¬ a.length ≤ 10) : (a ++ x).take 11 = a := by
  rw [List.take_append_of_le_length (by omega), List.take_of_length_le h]

private theorem updE_foldl (parseIP : Str → Str) : ∀ (es : List (Str × Str)) (a b : List Str), a.length ≤ 11 → b.length ≤ 11 →
    es.foldl (updE parseIP) (some ⟨a, b⟩) = some ⟨(a ++ v4s parseIP true es).take 11, (b ++ v4s parseIP false es).take 11⟩
  | [], a, b, ha, hb => by simp [v4s, List.take_of_length_le ha, List.take_of_length_le hb]
  | e :: es, a, b, ha, hb => by
    simp only [List.foldl_cons, updE, upd, Option.getD_some]
    cases hv : (to4 (parseIP e.1)).isSome
    · have h1 : v4s parseIP true (e :: es) = v4s parseIP true es := by simp [v4s, hv]
      have h2 : v4s parseIP false (e :: es) = stored parseIP e.1 :: v4s parseIP false es := by
        unfold v4s; rw [List.filter_cons_of_pos (by simp only [hv]; rfl)]; rfl
      simp only [Bool.false_eq_true, if_false, h1, h2]
      by_cases hl : b.length > 10
      · rw [if_pos hl]
        have ih := updE_foldl parseIP es a b ha hb
        rw [ih, take_full b _ hb (by omega), take_full b _ hb (by omega)]
      · rw [if_neg hl]
        have ih := updE_foldl parseIP es a (b ++ [stored parseIP e.1]) ha (by simp; omega)
        rw [ih]; simp
    · have h1 : v4s parseIP false (e :: es) = v4s parseIP false es := by
        unfold v4s; rw [List.filter_cons_of_neg (by simp only [hv]; decide)]
      have h2 : v4s parseIP true (e :: es) = stored parseIP e.1 :: v4s parseIP true es := by simp [v4s, hv]
      simp only [if_true, h1, h2]
      by_cases hl : a.length > 10
      · rw [if_pos hl]
        have ih := updE_foldl parseIP es a b ha hb
        rw [ih, take_full a _ ha (by omega), take_full a _ ha (by omega)]
      · rw [if_neg hl]
        have ih := updE_foldl parseIP es (a ++ [stored parseIP e.1]) b (by simp; omega) hb
        rw [ih]; simp

private theorem updE_foldl_none (parseIP : Str → Str) (es : List (Str × Str)) :
    es.foldl (updE parseIP) none = if es = [] then none else some ⟨(v4s parseIP true es).take 11, (v4s parseIP false es).take 11⟩ := by
  cases es with
  | nil => rfl
  | cons e es =>
    have h := updE_foldl parseIP (e :: es) [] [] (by simp) (by simp)
    simp only [List.nil_append] at h
    rw [if_neg (by simp), ← h]
    simp only [List.foldl_cons]
    congr 1

private theorem stored_address (parseIP : Str → Str) (hp : ∀ t, (parseIP t).length = 0 ∨ (parseIP t).length = 16) (t : Str) : stored parseIP t = address parseIP t := by
  have hi : isUnspecified (parseIP t) = true ↔ (parseIP t = v4Prefix ++ [0, 0, 0, 0] ∨ parseIP t = List.replicate 16 0) := by
    have l1 : (v4Prefix ++ [0, 0, 0, 0] : Str).length = 16 := rfl
    have l2 : (List.replicate 16 0 : Str).length = 16 := rfl
    unfold isUnspecified ipEqual
    rcases hp t with h | h
    · have hn : parseIP t = [] := List.length_eq_zero_iff.mp h
      rw [hn]; decide
    · rw [h, l1, l2]; simp
  unfold stored address
  by_cases h : isUnspecified (parseIP t) = true
  · rw [if_pos h, if_pos (hi.mp h)]
  · rw [if_neg h, if_neg (fun e => h (hi.mpr e))]

/-- C29: a query (not for PTR) is matched exactly if its name is listed, and then carries the addresses listed for it in the order of the file: the IPv4
ones for a query of type A, the others for all other types, in both cases at most 11 (the limit named in the code is 10). -/
theorem hosts_match (parseIP : Str → Str) (reverseAddr : Str → Option Str) (hp : ∀ t, (parseIP t).length = 0 ∨ (parseIP t).length = 16)
    (rules : List Str) (list : Str) (q : Question) (hq : q.qtype ≠ typePTR) :
    ((∃ e, e ∈ listed rules ∧ sameName e.2 q.name) →
      (loadHosts parseIP reverseAddr rules).lookup list q =
        some { ips := (addressesFor parseIP rules q.name (decide (q.qtype = typeA))).take 11, rule := ⟨list, lower (trimDot q.name)⟩ }) ∧
    ((∀ e, e ∈ listed rules → ¬ sameName e.2 q.name) → (loadHosts parseIP reverseAddr rules).lookup list q = none) := by
  have hl : (loadHosts parseIP reverseAddr rules).filters.lookup (hostName q.name) =
      if ((listed rules).filter fun e => hostName e.2 = hostName q.name) = [] then none
      else some ⟨(v4s parseIP true ((listed rules).filter fun e => hostName e.2 = hostName q.name)).take 11,
        (v4s parseIP false ((listed rules).filter fun e => hostName e.2 = hostName q.name)).take 11⟩ := by
    rw [← updE_foldl_none]
    exact load_filters parseIP reverseAddr (hostName q.name) rules {}
  have haddr : ∀ v4, addressesFor parseIP rules q.name v4 = v4s parseIP v4 ((listed rules).filter fun e => hostName e.2 = hostName q.name) := by
    intro v4
    unfold addressesFor v4s
    rw [List.filter_filter]
    simp only [stored_address parseIP hp]
    congr 1
    apply List.filter_congr
    intro e _
    apply Bool.eq_iff_iff.mpr
    simp [hostName, sameName, and_comm]
    intro _
    exact decide_eq_true_iff.symm
  unfold HostsDB.lookup
  rw [if_neg hq]
  simp only [hl]
  constructor
  · rintro ⟨e, he, hs⟩
    have hne : ((listed rules).filter fun e => hostName e.2 = hostName q.name) ≠ [] := by
      intro h
      have := List.filter_eq_nil_iff.mp h e he
      simp at this
      exact this hs
    rw [if_neg hne, haddr]
    by_cases hA : q.qtype = typeA
    · simp [hA, hostName]
    · simp [hA, hostName]
  · intro h
    rw [if_pos]
    · rfl
    · rw [List.filter_eq_nil_iff]
      intro e he
      intro hc
      have hc' : hostName e.2 = hostName q.name := of_decide_eq_true hc
      exact h e he hc'

/-- C29: a reverse lookup is matched exactly if the file has an address with that reverse name, and gives all names listed for it, in order. -/
theorem hosts_ptr (parseIP : Str → Str) (reverseAddr : Str → Option Str) (rules : List Str) (list : Str) (q : Question) (hq : q.qtype = typePTR) :
    ((loadHosts parseIP reverseAddr rules).lookup list q).isSome = decide (∃ e, e ∈ listed rules ∧ reverseAddr e.1 = some (lower q.name)) ∧
    ∀ hit, (loadHosts parseIP reverseAddr rules).lookup list q = some hit → hit.names = namesFor reverseAddr rules (lower q.name) ∧ hit.names ≠ [] := by
  have hl : (loadHosts parseIP reverseAddr rules).ptrMap.lookup (lower q.name) =
      if ∃ e, e ∈ listed rules ∧ reverseAddr e.1 = some (lower q.name) then some (namesFor reverseAddr rules (lower q.name)) else none := by
    have := load_ptr parseIP reverseAddr (lower q.name) rules {}
    exact this
  unfold HostsDB.lookup
  rw [if_pos hq, hl]
  split
  · rename_i h
    refine ⟨by simp [h], ?_⟩
    intro hit hh
    simp only [Option.map_some, Option.some.injEq] at hh
    subst hh
    refine ⟨rfl, ?_⟩
    obtain ⟨e, he, hr⟩ := h
    have : e.2 ∈ namesFor reverseAddr rules (lower q.name) := by
      unfold namesFor
      exact List.mem_map.mpr ⟨e, List.mem_filter.mpr ⟨he, by simpa using hr⟩, rfl⟩
    exact List.ne_nil_of_mem this
  · rename_i h
    exact ⟨by simp [h], by simp⟩

private def exParse (s : Str) : Str :=
  if s = str "1.2.3.4" then v4Prefix ++ [1, 2, 3, 4] else if s = str "0.0.0.0" then v4Prefix ++ [0, 0, 0, 0]
  else if s = str "::1" then List.replicate 15 0 ++ [1] else []
private def exRev (s : Str) : Option Str := if s = str "1.2.3.4" then some (str "4.3.2.1.in-addr.arpa.") else none
private def exHosts : List Str := [str "# comment", str "1.2.3.4 Host.com other.com", str "::1 host.com", str "0.0.0.0 bad.com", str "junk evil.com"]

example : (∀ t, (exParse t).length = 0 ∨ (exParse t).length = 16) ∧ listed exHosts ≠ [] ∧
    ((loadHosts exParse exRev exHosts).lookup [] ⟨str "HOST.com.", typeA, 1⟩).map (·.ips) = some [v4Prefix ++ [1, 2, 3, 4]] ∧
    ((loadHosts exParse exRev exHosts).lookup [] ⟨str "host.com.", typeAAAA, 1⟩).map (·.ips) = some [List.replicate 15 0 ++ [1]] ∧
    ((loadHosts exParse exRev exHosts).lookup [] ⟨str "4.3.2.1.in-addr.arpa.", typePTR, 1⟩).map (·.names) = some [str "Host.com", str "other.com"] ∧
    ((loadHosts exParse exRev exHosts).lookup [] ⟨str "evil.com.", typeA, 1⟩).map (·.ips) = some [] ∧
    (loadHosts exParse exRev exHosts).lookup [] ⟨str "good.com.", typeA, 1⟩ = none := by
  refine ⟨?_, by decide +kernel⟩
  intro t
  unfold exParse
  split
  · exact .inr rfl
  · split
    · exact .inr rfl
    · split
      · exact .inr rfl
      · exact .inl rfl

/-- Finding: words of a comment behind a name are taken for names and blocked too. -/
theorem hosts_trailing_comment_blocks (parseIP : Str → Str) (reverseAddr : Str → Option Str) :
    ((loadHosts parseIP reverseAddr [str "0.0.0.0 ads.com # see news.com"]).lookup [] ⟨str "news.com.", typeA, 1⟩).isSome := by
  have hl : (loadHosts parseIP reverseAddr [str "0.0.0.0 ads.com # see news.com"]).filters.lookup (str "news.com") = _ :=
    load_filters parseIP reverseAddr (str "news.com") [str "0.0.0.0 ads.com # see news.com"] {}
  have hlist : ((listed [str "0.0.0.0 ads.com # see news.com"]).filter fun e => hostName e.2 = str "news.com") = [(str "0.0.0.0", str "news.com")] := by decide +kernel
  rw [hlist] at hl
  unfold HostsDB.lookup
  rw [if_neg (by decide)]
  simp only []
  rw [show hostName (str "news.com.") = str "news.com" from by decide +kernel, hl]
  have h0 : ([] : List (Str × IpRecords)).lookup (str "news.com") = none := rfl
  show (Option.map _ (List.foldl (updE parseIP) (([] : List (Str × IpRecords)).lookup (str "news.com")) [(str "0.0.0.0", str "news.com")])).isSome = true
  rw [h0, updE_foldl_none]
  simp

/-! ### Regular expressions -/

/-- C29: a regular-expression list matches exactly the names that one of its expressions matches in lower case; the first such is reported. -/
theorem regexp_match (compile : Str → Option (Str → Bool)) (rules : List Str) (db : List (Str × (Str → Bool))) (h : loadRegexp compile rules = some db)
    (list : Str) (q : Question) :
    (lookupRegexp db list q).isSome ↔ ∃ r f, r ∈ rules ∧ trimSpace r ≠ [] ∧ (trimSpace r).head? ≠ some 35 ∧ compile (trimSpace r) = some f ∧ f (lower q.name) = true := by
  have hm : ∀ (rules : List Str) (db : List (Str × (Str → Bool))), loadRegexp compile rules = some db →
      ∀ (e : Str × (Str → Bool)), e ∈ db ↔ ∃ r, r ∈ rules ∧ trimSpace r ≠ [] ∧ (trimSpace r).head? ≠ some 35 ∧ compile (trimSpace r) = some e.2 ∧ e.1 = trimSpace r := by
    intro rules
    induction rules with
    | nil => intro db h e; simp only [loadRegexp, Option.some.injEq] at h; subst h; simp
    | cons r rs ih =>
      intro db h e
      simp only [loadRegexp] at h
      by_cases hc : trimSpace r = [] ∨ (trimSpace r).head? = some 35
      · rw [if_pos hc] at h
        rw [ih db h e]
        constructor
        · rintro ⟨x, hx, rest⟩; exact ⟨x, by simp [hx], rest⟩
        · rintro ⟨x, hx, h1, h2, rest⟩
          rcases List.mem_cons.mp hx with rfl | hx
          · rcases hc with hc | hc
            · exact absurd hc h1
            · exact absurd hc h2
          · exact ⟨x, hx, h1, h2, rest⟩
      · rw [if_neg hc] at h
        cases hcomp : compile (trimSpace r) with
        | none => rw [hcomp] at h; simp at h
        | some f =>
          rw [hcomp] at h
          cases hrs : loadRegexp compile rs with
          | none => rw [hrs] at h; simp at h
          | some fs =>
            rw [hrs] at h
            simp only [Option.some.injEq] at h
            subst h
            rw [List.mem_cons, ih fs hrs e]
            constructor
            · rintro (rfl | ⟨x, hx, rest⟩)
              · exact ⟨r, by simp, fun e => hc (.inl e), fun e => hc (.inr e), hcomp, rfl⟩
              · exact ⟨x, by simp [hx], rest⟩
            · rintro ⟨x, hx, h1, h2, h3, h4⟩
              rcases List.mem_cons.mp hx with rfl | hx
              · left
                rw [hcomp] at h3
                obtain ⟨e1, e2⟩ := e
                simp only [Option.some.injEq] at h3 h4
                subst h3 h4; rfl
              · exact .inr ⟨x, hx, h1, h2, h3, h4⟩
  unfold lookupRegexp
  rw [Option.isSome_map, List.find?_isSome]
  constructor
  · rintro ⟨e, he, hf⟩
    obtain ⟨r, h1, h2, h3, h4, _⟩ := (hm rules db h e).mp he
    exact ⟨r, e.2, h1, h2, h3, h4, by simpa using hf⟩
  · rintro ⟨r, f, h1, h2, h3, h4, h5⟩
    exact ⟨(trimSpace r, f), (hm rules db h _).mpr ⟨r, h1, h2, h3, h4, rfl⟩, by simpa using h5⟩

private def exCompile (r : Str) : Option (Str → Bool) := if r = str "(" then none else some fun s => r.isPrefixOf s
example : ((loadRegexp exCompile [str "# c", str "", str "ads"]).map fun db => ((lookupRegexp db [] ⟨str "ADS.com.", 1, 1⟩).isSome, (lookupRegexp db [] ⟨str "x.com.", 1, 1⟩).isSome)) = some (true, false) ∧
    (loadRegexp exCompile [str "ads", str "("]).isNone := by decide +kernel

/-- Finding: an expression that asks for an upper-case letter never matches, since the query name is put in lower case and the expression is not. -/
theorem regexp_upper_case_never (compile : Str → Option (Str → Bool)) (rules : List Str) (db : List (Str × (Str → Bool))) (h : loadRegexp compile rules = some db)
    (hup : ∀ (r : Str) (f : Str → Bool), r ∈ rules → compile (trimSpace r) = some f → ∀ (x : Str), f x = true → ∃ c, c ∈ x ∧ 65 ≤ c ∧ c ≤ 90) (list : Str) (q : Question) :
    lookupRegexp db list q = none := by
  cases hl : lookupRegexp db list q with
  | none => rfl
  | some m =>
    obtain ⟨r, f, h1, _, _, h2, h3⟩ := (regexp_match compile rules db h list q).mp (by rw [hl]; rfl)
    obtain ⟨c, hc, h4, h5⟩ := hup r f h1 h2 _ h3
    have key : ∀ n, n < 256 → ¬ (65 ≤ lowerByte (UInt8.ofNat n) ∧ lowerByte (UInt8.ofNat n) ≤ 90) := by decide +kernel
    unfold lower at hc
    obtain ⟨d, _, rfl⟩ := List.mem_map.mp hc
    have := key d.toNat (UInt8.toNat_lt d)
    rw [show UInt8.ofNat d.toNat = d by simp] at this
    exact absurd ⟨h4, h5⟩ this

/-! ### Hardware addresses -/

private theorem hexVal_iff (c : UInt8) (v : Nat) : HexDigit c v ↔ v < 16 ∧ hexVal c = some (UInt8.ofNat v) := by
  have key : ∀ n, n < 256 → ∀ v, v < 16 → ((UInt8.ofNat n = (str "0123456789abcdef").getD v 0 ∨ UInt8.ofNat n = (str "0123456789ABCDEF").getD v 0) ↔
      hexVal (UInt8.ofNat n) = some (UInt8.ofNat v)) := by decide +kernel
  have hc : UInt8.ofNat c.toNat = c := by simp
  unfold HexDigit
  constructor
  · rintro ⟨h1, h2⟩
    have := (key c.toNat (UInt8.toNat_lt c) v h1)
    rw [hc] at this
    exact ⟨h1, this.mp h2⟩
  · rintro ⟨h1, h2⟩
    have := (key c.toNat (UInt8.toNat_lt c) v h1)
    rw [hc] at this
    exact ⟨h1, this.mpr h2⟩

private theorem hexVal_some (c v : UInt8) (h : hexVal c = some v) : v.toNat < 16 ∧ HexDigit c v.toNat := by
  have key : ∀ n, n < 256 → ∀ v, hexVal (UInt8.ofNat n) = some v → v.toNat < 16 := by
    have : ∀ n, n < 256 → (hexVal (UInt8.ofNat n)).all (fun v => v.toNat < 16) := by decide +kernel
    intro n hn v hv
    have := this n hn
    rw [hv] at this
    simpa using this
  have hc : UInt8.ofNat c.toNat = c := by simp
  have h1 := key c.toNat (UInt8.toNat_lt c) v (by rw [hc]; exact h)
  refine ⟨h1, (hexVal_iff c v.toNat).mpr ⟨h1, ?_⟩⟩
  rw [h]; simp

private theorem hexVal_colon (c : UInt8) (v : UInt8) (h : hexVal c = some v) : c ≠ 58 := by
  rintro rfl
  have h0 : hexVal 58 = none := by decide
  rw [h0] at h; simp at h

private theorem byte_eq (x y : UInt8) (hx : x.toNat < 16) : x * 16 + y = UInt8.ofNat (x.toNat * 16 + y.toNat) := by
  apply UInt8.toNat_inj.mp
  simp

private theorem hexDecode_length : ∀ (s o : Str), hexDecode s = some o → s.length = 2 * o.length
  | [], o, h => by simp only [hexDecode, Option.some.injEq] at h; subst h; rfl
  | [_], o, h => by simp [hexDecode] at h
  | a :: b :: rest, o, h => by
    simp only [hexDecode] at h
    split at h
    · cases hr : hexDecode rest with
      | none => rw [hr] at h; simp at h
      | some r =>
        rw [hr] at h
        simp only [Option.map_some, Option.some.injEq] at h
        subst h
        have := hexDecode_length rest r hr
        simp; omega
    · exact absurd h (by simp)

/-- C31: exactly the texts of the form `01:23:45:ab:cd:ef` are read as hardware addresses, and as the six bytes they show. -/
theorem mac_parse_iff (s m : Str) : parseMAC s = some m ↔ MacText s m ∧ m.length = 6 := by
  constructor
  · intro h
    unfold parseMAC at h
    split at h
    · exact absurd h (by simp)
    · rename_i hlen
      have hlen : s.length = 17 := by simpa using hlen
      match s, hlen with
      | [c0, c1, c2, c3, c4, c5, c6, c7, c8, c9, c10, c11, c12, c13, c14, c15, c16], _ =>
        split at h
        · exact absurd h (by simp)
        · rename_i hcol
          have hcol : c2 = 58 ∧ c5 = 58 ∧ c8 = 58 ∧ c11 = 58 ∧ c14 = 58 := by
            simpa [List.range, List.range.loop] using hcol
          obtain ⟨rfl, rfl, rfl, rfl, rfl⟩ := hcol
          have hf : [c0, c1, 58, c3, c4, 58, c6, c7, 58, c9, c10, 58, c12, c13, 58, c15, c16].filter (fun c => c ≠ 58) =
              [c0, c1, c3, c4, c6, c7, c9, c10, c12, c13, c15, c16].filter (fun c => c ≠ 58) := by
            simp only [List.filter_cons]
            simp
          rw [hf] at h
          cases hd : hexDecode ([c0, c1, c3, c4, c6, c7, c9, c10, c12, c13, c15, c16].filter (fun c => c ≠ 58)) with
          | none => rw [hd] at h; simp at h
          | some out =>
            rw [hd] at h
            by_cases h6 : out.length ≠ 6
            · simp [h6] at h
            · have h6 : out.length = 6 := by simpa using h6
              simp only [h6, ne_eq, not_true, if_false, Option.some.injEq] at h
              subst h
              refine ⟨?_, h6⟩
              have hl := hexDecode_length _ _ hd
              rw [h6] at hl
              have hself : [c0, c1, c3, c4, c6, c7, c9, c10, c12, c13, c15, c16].filter (fun c => c ≠ 58) = [c0, c1, c3, c4, c6, c7, c9, c10, c12, c13, c15, c16] :=
                List.filter_eq_self.mpr (List.length_filter_eq_length_iff.mp hl)
              rw [hself] at hd
              clear hself hl hf
              simp only [hexDecode] at hd
              cases e0 : hexVal c0 with
              | none => simp [e0] at hd
              | some v0 =>
              cases e1 : hexVal c1 with
              | none => simp [e0, e1] at hd
              | some v1 =>
              cases e3 : hexVal c3 with
              | none => simp [e0, e1, e3] at hd
              | some v3 =>
              cases e4 : hexVal c4 with
              | none => simp [e0, e1, e3, e4] at hd
              | some v4 =>
              cases e6 : hexVal c6 with
              | none => simp [e0, e1, e3, e4, e6] at hd
              | some v6 =>
              cases e7 : hexVal c7 with
              | none => simp [e0, e1, e3, e4, e6, e7] at hd
              | some v7 =>
              cases e9 : hexVal c9 with
              | none => simp [e0, e1, e3, e4, e6, e7, e9] at hd
              | some v9 =>
              cases e10 : hexVal c10 with
              | none => simp [e0, e1, e3, e4, e6, e7, e9, e10] at hd
              | some v10 =>
              cases e12 : hexVal c12 with
              | none => simp [e0, e1, e3, e4, e6, e7, e9, e10, e12] at hd
              | some v12 =>
              cases e13 : hexVal c13 with
              | none => simp [e0, e1, e3, e4, e6, e7, e9, e10, e12, e13] at hd
              | some v13 =>
              cases e15 : hexVal c15 with
              | none => simp [e0, e1, e3, e4, e6, e7, e9, e10, e12, e13, e15] at hd
              | some v15 =>
              cases e16 : hexVal c16 with
              | none => simp [e0, e1, e3, e4, e6, e7, e9, e10, e12, e13, e15, e16] at hd
              | some v16 =>
              simp only [e0, e1, e3, e4, e6, e7, e9, e10, e12, e13, e15, e16, Option.map_some, Option.some.injEq] at hd
              subst hd
              have b := fun (c v : UInt8) (h : hexVal c = some v) => hexVal_some c v h
              rw [byte_eq v0 v1 (b _ _ e0).1, byte_eq v3 v4 (b _ _ e3).1, byte_eq v6 v7 (b _ _ e6).1, byte_eq v9 v10 (b _ _ e9).1,
                byte_eq v12 v13 (b _ _ e12).1, byte_eq v15 v16 (b _ _ e15).1]
              exact .more _ _ _ _ _ _ (b _ _ e0).2 (b _ _ e1).2 (.more _ _ _ _ _ _ (b _ _ e3).2 (b _ _ e4).2 (.more _ _ _ _ _ _ (b _ _ e6).2 (b _ _ e7).2
                (.more _ _ _ _ _ _ (b _ _ e9).2 (b _ _ e10).2 (.more _ _ _ _ _ _ (b _ _ e12).2 (b _ _ e13).2 (.last _ _ _ _ (b _ _ e15).2 (b _ _ e16).2)))))
  · rintro ⟨h, h6⟩
    have hx : ∀ (c : UInt8) (v : Nat), HexDigit c v → hexVal c = some (UInt8.ofNat v) ∧ c ≠ 58 := fun c v hd =>
      have := ((hexVal_iff c v).mp hd).2
      ⟨this, hexVal_colon c _ this⟩
    have hb : ∀ (c d : UInt8) (a b : Nat), HexDigit c a → HexDigit d b → UInt8.ofNat a * 16 + UInt8.ofNat b = UInt8.ofNat (a * 16 + b) := by
      intro c d a b ha hb
      apply UInt8.toNat_inj.mp
      simp
    -- the text without colons decodes, whatever the length
    have hdec : ∀ (s m : Str), MacText s m → hexDecode (s.filter fun c => c ≠ 58) = some m ∧ s.length + 1 = 3 * m.length ∧ m ≠ [] ∧
        ∀ i, i + 1 < m.length → s.getD (i * 3 + 2) 0 = 58 := by
      intro s m h
      induction h with
      | last c d a b h1 h2 =>
        refine ⟨?_, rfl, by simp, by intro i hi; simp at hi⟩
        rw [List.filter_cons_of_pos (by simpa using (hx c a h1).2), List.filter_cons_of_pos (by simpa using (hx d b h2).2)]
        simp only [List.filter_nil, hexDecode, (hx c a h1).1, (hx d b h2).1, Option.map_some, hb c d a b h1 h2]
      | more c d a b t m h1 h2 ht ih =>
        obtain ⟨i1, i2, i3, i4⟩ := ih
        refine ⟨?_, by simp; omega, by simp, ?_⟩
        · rw [List.filter_cons_of_pos (by simpa using (hx c a h1).2), List.filter_cons_of_pos (by simpa using (hx d b h2).2), List.filter_cons_of_neg (by simp)]
          simp only [hexDecode, (hx c a h1).1, (hx d b h2).1, i1, Option.map_some, hb c d a b h1 h2]
        · intro i hi
          cases i with
          | zero => rfl
          | succ i =>
            have := i4 i (by simp at hi; omega)
            rw [show (i + 1) * 3 + 2 = (i * 3 + 2) + 1 + 1 + 1 from by omega]
            simpa using this
    obtain ⟨d1, d2, d3, d4⟩ := hdec s m h
    unfold parseMAC
    have hall : ((List.range 5).all fun i => decide (s.getD (i * 3 + 2) 0 = 58)) = true := by
      rw [List.all_eq_true]
      intro i hi
      have : i < 5 := List.mem_range.mp hi
      simpa using d4 i (by omega)
    rw [if_neg (by omega), if_neg (by rw [hall]; simp), d1]
    simp [h6]

private theorem macOption_spec : ∀ (opts : List EOpt), (macOption opts = [] ∧ ∀ d, EOpt.loc 65001 d ∈ opts → d.length ≠ 6) ∨
    (∃ pre post, opts = pre ++ .loc 65001 (macOption opts) :: post ∧ (macOption opts).length = 6 ∧ ∀ d, EOpt.loc 65001 d ∈ post → d.length ≠ 6) := by
  intro opts
  unfold macOption
  generalize hf : (fun (acc : Str) (o : EOpt) => match o with
    | .loc code data => if code = 65001 ∧ data.length = 6 then data else acc
    | _ => acc) = f
  have key : ∀ (opts : List EOpt) (acc : Str), (opts.foldl f acc = acc ∧ ∀ d, EOpt.loc 65001 d ∈ opts → d.length ≠ 6) ∨
      (∃ pre post, opts = pre ++ .loc 65001 (opts.foldl f acc) :: post ∧ (opts.foldl f acc).length = 6 ∧ ∀ d, EOpt.loc 65001 d ∈ post → d.length ≠ 6) := by
    intro opts
    induction opts with
    | nil => intro acc; exact .inl ⟨rfl, by simp⟩
    | cons o os ih =>
      intro acc
      rcases ih (f acc o) with ⟨h1, h2⟩ | ⟨pre, post, h1, h2, h3⟩
      · by_cases ho : ∃ d, o = .loc 65001 d ∧ d.length = 6
        · obtain ⟨d, rfl, hd⟩ := ho
          right
          refine ⟨[], os, ?_, ?_, h2⟩
          · simp only [List.foldl_cons, h1, List.nil_append]
            rw [← hf]; simp [hd]
          · simp only [List.foldl_cons, h1]
            rw [← hf]; simp [hd]
        · left
          have : f acc o = acc := by
            rw [← hf]
            cases o with
            | loc c d =>
              simp only []
              rw [if_neg]
              rintro ⟨rfl, hd⟩
              exact ho ⟨d, rfl, hd⟩
            | _ => rfl
          refine ⟨by rw [List.foldl_cons, h1, this], ?_⟩
          intro d hd
          rcases List.mem_cons.mp hd with e | e
          · intro h6; exact ho ⟨d, e.symm, h6⟩
          · exact h2 d e
      · right
        refine ⟨o :: pre, post, ?_, h2, h3⟩
        rw [List.foldl_cons]
        simp only [List.cons_append, List.cons.injEq, true_and]
        exact h1
  subst hf
  exact key opts []

private theorem carries_unique (opts pre pre' post post' : List EOpt) (m m' : Str) (h : opts = pre ++ .loc 65001 m :: post) (h6 : m.length = 6)
    (hp : ∀ d, EOpt.loc 65001 d ∈ post → d.length ≠ 6)
    (h' : opts = pre' ++ .loc 65001 m' :: post') (h6' : m'.length = 6) (hp' : ∀ d, EOpt.loc 65001 d ∈ post' → d.length ≠ 6) : m = m' := by
  rw [h] at h'
  rcases List.append_eq_append_iff.mp h' with ⟨a, h1, h2⟩ | ⟨a, h1, h2⟩
  · cases a with
    | nil => simp at h2; exact h2.1
    | cons x xs =>
      simp only [List.cons_append, List.cons.injEq] at h2
      exact absurd h6' (hp m' (by rw [h2.2]; simp))
  · cases a with
    | nil => simp at h2; exact h2.1.symm
    | cons x xs =>
      simp only [List.cons_append, List.cons.injEq] at h2
      exact absurd h6 (hp' m (by rw [h2.2]; simp))

/-- C31: a query is matched exactly if it carries a hardware address that one of the lines shows. -/
theorem mac_match_iff (rules : List Str) (macs : List Str) (h : loadMAC rules = some macs) (m : Msg) :
    (matchMAC macs m).isSome ↔ ∃ (r mac : Str), r ∈ rules ∧ (trimSpace r).head? ≠ some 35 ∧ MacText (trimSpace r) mac ∧ mac.length = 6 ∧ Carries m mac := by
  have hm : ∀ (rules macs : List Str), loadMAC rules = some macs → ∀ x, x ∈ macs ↔
      ∃ r, r ∈ rules ∧ (trimSpace r).head? ≠ some 35 ∧ trimSpace r ≠ [] ∧ parseMAC (trimSpace r) = some x := by
    intro rules
    induction rules with
    | nil => intro macs h x; simp only [loadMAC, Option.some.injEq] at h; subst h; simp
    | cons r rs ih =>
      intro macs h x
      simp only [loadMAC] at h
      by_cases hc : (trimSpace r).head? = some 35 ∨ trimSpace r = []
      · rw [if_pos hc] at h
        rw [ih macs h x]
        constructor
        · rintro ⟨y, hy, rest⟩; exact ⟨y, by simp [hy], rest⟩
        · rintro ⟨y, hy, h1, h2, rest⟩
          rcases List.mem_cons.mp hy with rfl | hy
          · rcases hc with hc | hc
            · exact absurd hc h1
            · exact absurd hc h2
          · exact ⟨y, hy, h1, h2, rest⟩
      · rw [if_neg hc] at h
        cases hp : parseMAC (trimSpace r) with
        | none => rw [hp] at h; simp at h
        | some a =>
          rw [hp] at h
          cases hr : loadMAC rs with
          | none => rw [hr] at h; simp at h
          | some ms =>
            rw [hr] at h
            simp only [Option.map_some, Option.some.injEq] at h
            subst h
            rw [List.mem_cons, ih ms hr x]
            constructor
            · rintro (rfl | ⟨y, hy, rest⟩)
              · exact ⟨r, by simp, fun e => hc (.inl e), fun e => hc (.inr e), hp⟩
              · exact ⟨y, by simp [hy], rest⟩
            · rintro ⟨y, hy, h1, h2, h3⟩
              rcases List.mem_cons.mp hy with rfl | hy
              · left; rw [hp] at h3; exact (Option.some.inj h3).symm
              · exact .inr ⟨y, hy, h1, h2, h3⟩
  unfold matchMAC
  constructor
  · intro hs
    cases he : m.edns? with
    | none => rw [he] at hs; simp at hs
    | some e =>
      rw [he] at hs
      simp only [] at hs
      by_cases h6 : (macOption e.options).length ≠ 6
      · rw [if_pos h6] at hs; simp at hs
      · rw [if_neg h6] at hs
        have h6 : (macOption e.options).length = 6 := by simpa using h6
        rw [List.find?_isSome] at hs
        obtain ⟨x, hx, hxe⟩ := hs
        have hxe : x = macOption e.options := by simpa using hxe
        subst hxe
        obtain ⟨r, h1, h2, h3, h4⟩ := (hm rules macs h _).mp hx
        obtain ⟨p1, p2⟩ := (mac_parse_iff _ _).mp h4
        refine ⟨r, _, h1, h2, p1, p2, ?_⟩
        rcases macOption_spec e.options with ⟨h0, _⟩ | ⟨pre, post, q1, q2, q3⟩
        · rw [h0] at h6; simp at h6
        · exact ⟨e, pre, post, he, q1, q2, q3⟩
  · rintro ⟨r, mac, h1, h2, h3, h4, e, pre, post, c1, c2, c3, c4⟩
    rw [c1]
    simp only []
    have hmac : macOption e.options = mac := by
      rcases macOption_spec e.options with ⟨_, h0⟩ | ⟨pre', post', q1, q2, q3⟩
      · exact absurd c3 (h0 mac (by rw [c2]; simp))
      · exact carries_unique _ _ _ _ _ _ _ q1 q2 q3 c2 c3 c4
    rw [hmac, if_neg (by omega), List.find?_isSome]
    refine ⟨mac, (hm rules macs h mac).mpr ⟨r, h1, h2, ?_, (mac_parse_iff _ _).mpr ⟨h3, h4⟩⟩, by simp⟩
    intro e0
    rw [e0] at h3
    cases h3

/-- C31: a list loads exactly if every line is a comment, empty, or shows a hardware address. -/
theorem mac_load_iff (rules : List Str) : (loadMAC rules).isSome ↔
    ∀ r, r ∈ rules → (trimSpace r).head? = some 35 ∨ trimSpace r = [] ∨ ∃ mac, MacText (trimSpace r) mac ∧ mac.length = 6 := by
  induction rules with
  | nil => simp [loadMAC]
  | cons r rs ih =>
    simp only [loadMAC, List.forall_mem_cons, ← ih]
    by_cases hc : (trimSpace r).head? = some 35 ∨ trimSpace r = []
    · rw [if_pos hc]
      exact ⟨fun h => ⟨by rcases hc with hc | hc; exact .inl hc; exact .inr (.inl hc), h⟩, fun h => h.2⟩
    · rw [if_neg hc]
      cases hp : parseMAC (trimSpace r) with
      | none =>
        simp only [Option.isSome_none, Bool.false_eq_true, false_iff]
        rintro ⟨h | h | ⟨mac, h⟩, _⟩
        · exact hc (.inl h)
        · exact hc (.inr h)
        · rw [(mac_parse_iff _ _).mpr h] at hp; simp at hp
      | some a =>
        simp only [Option.isSome_map]
        exact ⟨fun h => ⟨.inr (.inr ⟨a, (mac_parse_iff _ _).mp hp⟩), h⟩, fun h => h.2⟩

private def exMac : Msg := { extra := [{ name := str ".", rtype := 41, cls := 1, ttl := 0, data := .opt 1232 false [.loc 65001 [1, 35, 69, 171, 205, 239], .loc 65001 [0], .padding 3] }] }
example : loadMAC [str "# c", str " 01:23:45:aB:cd:ef"] = some [[1, 35, 69, 171, 205, 239]] ∧ (matchMAC [[1, 35, 69, 171, 205, 239]] exMac).isSome ∧
    loadMAC [str "01-23-45-ab-cd-ef"] = none ∧ loadMAC [str "01:23:45:ab:cd:::"] = none := by decide +kernel

/-! ### Several lists -/

/-- C32: several lists match exactly if one of them does, with the result of the first that does. -/
theorem multi_match {α β : Type} (dbs : List (α → Option β)) (x : α) :
    ((multiMatch dbs x).isSome ↔ ∃ db, db ∈ dbs ∧ (db x).isSome) ∧
    (∀ h, multiMatch dbs x = some h → ∃ pre db post, dbs = pre ++ db :: post ∧ (∀ d, d ∈ pre → d x = none) ∧ db x = some h) := by
  induction dbs with
  | nil => simp [multiMatch]
  | cons d ds ih =>
    cases hd : d x with
    | some h =>
      simp only [multiMatch, hd]
      exact ⟨⟨fun _ => ⟨d, by simp, by simp [hd]⟩, fun _ => rfl⟩, fun h' e => ⟨[], d, ds, rfl, by simp, by rw [hd]; exact e⟩⟩
    | none =>
      simp only [multiMatch, hd]
      refine ⟨?_, ?_⟩
      · rw [ih.1]
        constructor
        · rintro ⟨db, h1, h2⟩; exact ⟨db, by simp [h1], h2⟩
        · rintro ⟨db, h1, h2⟩
          rcases List.mem_cons.mp h1 with rfl | h1
          · rw [hd] at h2; simp at h2
          · exact ⟨db, h1, h2⟩
      · intro h e
        obtain ⟨pre, db, post, h1, h2, h3⟩ := ih.2 h e
        refine ⟨d :: pre, db, post, by rw [h1]; rfl, ?_, h3⟩
        intro y hy
        rcases List.mem_cons.mp hy with rfl | hy
        · exact hd
        · exact h2 y hy

/-- C32: several lists reload exactly if each of them does. -/
theorem multi_reload {γ : Type} (outcomes : List (Option γ)) (l : List γ) : multiReload outcomes = some l ↔ outcomes = l.map some := by
  induction outcomes generalizing l with
  | nil => cases l <;> simp [multiReload]
  | cons o os ih =>
    cases o with
    | none => cases l <;> simp [multiReload]
    | some d =>
      simp only [multiReload]
      cases hr : multiReload os with
      | none =>
        constructor
        · intro h; simp at h
        · intro h
          cases l with
          | nil => simp at h
          | cons x xs =>
            simp only [List.map_cons, List.cons.injEq, Option.some.injEq] at h
            rw [(ih xs).mpr h.2] at hr
            simp at hr
      | some l' =>
        have h' := (ih l').mp hr
        constructor
        · intro h
          simp only [Option.some.injEq] at h
          subst h
          simp [h']
        · intro h
          cases l with
          | nil => simp at h
          | cons x xs =>
            simp only [List.map_cons, List.cons.injEq, Option.some.injEq] at h
            have := (ih xs).mpr h.2
            rw [hr] at this
            simp only [Option.some.injEq] at this
            rw [this, h.1]

/-- C32: after any number of reloads the list in force is the one of the last reload that worked, and the first list if none did. -/
theorem refresh_last_good {γ : Type} (cur : γ) (outcomes : List (Option γ)) : refresh cur outcomes = (lastGood outcomes).getD cur := by
  induction outcomes generalizing cur with
  | nil => rfl
  | cons o os ih =>
    cases o with
    | none => simp only [refresh, ih, lastGood, List.filterMap_cons, id]
    | some d =>
      simp only [refresh, ih, lastGood, List.filterMap_cons, id]
      cases hl : List.filterMap id os with
      | nil => simp
      | cons x xs => rw [List.getLast?_cons_cons, List.getLast?_eq_some_getLast (by simp)]; rfl

/-- C32: one list of several failing to reload leaves all of them as they were. -/
theorem refresh_multi_failure {γ : Type} (cur : List γ) (outcomes : List (Option γ)) (h : none ∈ outcomes) (rest : List (Option (List γ))) :
    refresh cur (multiReload outcomes :: rest) = refresh cur rest := by
  have : multiReload outcomes = none := by
    cases hr : multiReload outcomes with
    | none => rfl
    | some l =>
      rw [(multi_reload outcomes l).mp hr] at h
      simp at h
  rw [this]; rfl

example : refresh 1 [none, some 2, none] = 2 ∧ refresh 1 [none] = 1 ∧ multiReload [some 1, none] = none ∧ multiReload [some 1, some 2] = some [1, 2] := by decide

/-! ### A list is never used after it was closed -/

private structure RInv (s : RSys) : Prop where
  reader : ∀ r, r ∈ s.readers → r.2 = s.cur
  cur : s.cur ∉ s.closed
  lt : s.cur < s.loaded
  closedLt : ∀ d, d ∈ s.closed → d < s.loaded
  loop : ∀ old, s.loop = .toClose old → old ≠ s.cur ∧ old < s.loaded
  log : ∀ e, e ∈ s.log → e.2 = false

private theorem lookup_mem {α : Type} (l : List (Nat × α)) (q : Nat) (d : α) (h : l.lookup q = some d) : (q, d) ∈ l := by
  induction l with
  | nil => simp at h
  | cons e l ih =>
    rw [List.lookup_cons] at h
    by_cases hq : q = e.1
    · subst hq
      simp at h
      simp [← h]
    · have : (q == e.1) = false := by simp [hq]
      rw [this] at h
      exact List.mem_cons_of_mem _ (ih h)

private theorem rinv_step (s s' : RSys) (e : REv) (hi : RInv s) (h : rstep s e = some s') : RInv s' := by
  cases e with
  | enter q =>
    simp only [rstep] at h
    split at h
    · exact absurd h (by simp)
    · cases h
      refine ⟨?_, hi.cur, hi.lt, hi.closedLt, hi.loop, hi.log⟩
      intro r hr
      rcases List.mem_cons.mp hr with rfl | hr
      · rfl
      · exact hi.reader r hr
  | lookup q =>
    simp only [rstep] at h
    cases hl : s.readers.lookup q with
    | none => rw [hl] at h; simp at h
    | some d =>
      rw [hl] at h
      cases h
      refine ⟨hi.reader, hi.cur, hi.lt, hi.closedLt, hi.loop, ?_⟩
      intro e he
      rcases List.mem_cons.mp he with rfl | he
      · have := hi.reader _ (lookup_mem _ q d hl)
        simp only [] at this
        subst this
        simpa using hi.cur
      · exact hi.log e he
  | leave q =>
    simp only [rstep] at h
    cases h
    exact ⟨fun r hr => hi.reader r (List.mem_filter.mp hr).1, hi.cur, hi.lt, hi.closedLt, hi.loop, hi.log⟩
  | swap =>
    simp only [rstep] at h
    cases hl : s.loop with
    | toClose o => rw [hl] at h; simp at h
    | idle =>
      rw [hl] at h
      simp only [] at h
      split at h
      · rename_i hr
        cases h
        refine ⟨?_, ?_, by show s.loaded < s.loaded + 1; omega, ?_, ?_, hi.log⟩
        · intro r hr'
          simp only [] at hr'
          rw [hr] at hr'; simp at hr'
        · intro hc
          exact absurd (hi.closedLt _ hc) (Nat.lt_irrefl _)
        · intro d hd
          have := hi.closedLt d hd
          show d < s.loaded + 1
          omega
        · intro old ho
          simp only [Loop.toClose.injEq] at ho
          subst ho
          have := hi.lt
          refine ⟨?_, ?_⟩
          · show s.cur ≠ s.loaded; omega
          · show s.cur < s.loaded + 1; omega
      · exact absurd h (by simp)
  | close =>
    simp only [rstep] at h
    cases hl : s.loop with
    | idle => rw [hl] at h; simp at h
    | toClose old =>
      rw [hl] at h
      cases h
      obtain ⟨h1, h2⟩ := hi.loop old hl
      refine ⟨hi.reader, ?_, hi.lt, ?_, by simp, hi.log⟩
      · intro hc
        rcases List.mem_cons.mp hc with e | e
        · exact h1 e.symm
        · exact hi.cur e
      · intro d hd
        rcases List.mem_cons.mp hd with rfl | e
        · exact h2
        · exact hi.closedLt d e

/-- C32: with queries and reloads interleaved in any way, no query looks an address up in a list that was closed. -/
theorem list_never_used_closed (evs : List REv) (s : RSys) (h : rrun {} evs = some s) : ∀ (d : Nat) (wasClosed : Bool), (d, wasClosed) ∈ s.log → wasClosed = false := by
  have key : ∀ (evs : List REv) (s0 s : RSys), RInv s0 → rrun s0 evs = some s → RInv s := by
    intro evs
    induction evs with
    | nil => intro s0 s hi h; simp only [rrun, Option.some.injEq] at h; subst h; exact hi
    | cons e es ih =>
      intro s0 s hi h
      simp only [rrun] at h
      cases hs : rstep s0 e with
      | none => rw [hs] at h; simp at h
      | some s1 =>
        rw [hs] at h
        exact ih s1 s (rinv_step s0 s1 e hi hs) h
  have hi := key evs {} s ⟨by simp, by simp, by decide, by simp, by simp, by simp⟩ h
  intro d b hm
  exact hi.log _ hm

example : (rrun {} [.enter 1, .lookup 1, .leave 1, .swap, .enter 2, .close, .lookup 2, .enter 3, .lookup 3, .leave 2]).map (·.log) = some [(1, false), (1, false), (0, false)] := by
  decide
example : rrun {} [.enter 1, .swap] = none := by decide

end Verif.Props.Lists
