/-
C09, C10: the Redis cache backend.
-/
import Verif.Model.Redis
import Verif.Spec.Redis
import Verif.Lemmas.Cache
import Verif.Lemmas.Bytes
import Verif.Lemmas.Str
import Verif.Props.Cache
namespace Verif.Props.Redis
open Verif Verif.Redis Verif.Spec.Redis Verif.Spec.Cache

/-! ### C09: the record -/

/-- **C09.** What was encoded decodes to the timestamp, the flag and the message as `Unpack` returns it. -/
theorem redis_codec_roundtrip (pack : Msg → Option Str) (unpack : Str → Option Msg) (ts : Int) (hts : InI64 ts) (pf : Bool)
    (m : Msg) (b : Str) (h : encode pack ts pf m = some b) :
    ∃ wire, pack m = some wire ∧ decode unpack b = (unpack wire).map (ts, pf, ·) := by
  unfold encode at h
  obtain ⟨wire, hw, h⟩ := Option.bind_eq_some_iff.mp h
  refine ⟨wire, hw, ?_⟩
  simp only [Option.pure_def, Option.some.injEq] at h
  subst h
  have hlen : (beBytes 8 (toU64 ts)).length = 8 := length_beBytes _ _
  have h1 : be64? ([1, if pf then 1 else 0] ++ beBytes 8 (toU64 ts) ++ wire) 2 = some (toU64 ts) := by
    unfold be64?
    rw [slice?_mid (a := [1, if pf then 1 else 0]) (b := beBytes 8 (toU64 ts)) (c := wire) rfl (by simp) (by simp [hlen])]
    simp only [Option.map_some]
    rw [beVal_beBytes_lt (by have := toU64_lt ts; simpa using this)]
  have h2 : ([1, if pf then 1 else 0] ++ beBytes 8 (toU64 ts) ++ wire).drop 10 = wire := by
    rw [List.drop_append_of_le_length (by simp [hlen]), List.drop_of_length_le (by simp [hlen])]; rfl
  unfold decode
  rw [if_neg (by simp [hlen]), h1, h2]
  simp only [List.append_assoc, List.cons_append, List.getElem?_cons_zero, List.getElem?_cons_succ, Option.bind_eq_bind, Option.bind_some,
    ne_eq, not_true_eq_false, if_false]
  cases unpack wire with
  | none => rfl
  | some m' =>
    simp only [Option.bind_some, Option.map_some, toI64_toU64 hts]
    cases pf <;> rfl

/-- **C09 (rejection).** Anything too short, or of another version, is an error; it is never mistaken for an answer. -/
theorem redis_decode_rejects (unpack : Str → Option Msg) (b : Str) :
    (b.length < 10 → decode unpack b = none) ∧ (∀ v, b[0]? = some v → v ≠ 1 → decode unpack b = none) := by
  constructor
  · intro h; unfold decode; rw [if_pos h]
  · intro v hv hne
    unfold decode
    split
    · rfl
    · simp [hv, hne]

/-- Decoding never reads out of range: the only failures are the two above and a bad message. -/
theorem redis_decode_total (unpack : Str → Option Msg) (b : Str) (h : 10 ≤ b.length) (hv : b[0]? = some 1) :
    (decode unpack b).isSome = (unpack (b.drop 10)).isSome := by
  unfold decode
  rw [if_neg (by omega), hv]
  have h1 : ∃ f, b[1]? = some f := ⟨b[1], List.getElem?_eq_getElem (by omega)⟩
  obtain ⟨f, hf⟩ := h1
  have h2 : ∃ x, be64? b 2 = some x := by
    unfold be64? slice?
    rw [if_pos (by omega)]; exact ⟨_, rfl⟩
  obtain ⟨x, hx⟩ := h2
  simp only [Option.bind_eq_bind, Option.bind_some, ne_eq, not_true_eq_false, if_false, hf, hx]
  cases unpack (b.drop 10) <;> rfl

/-! ### C10: the key -/

private theorem digit_val {n : Nat} (h : n < 10) : ((48 + n).toUInt8).toNat = 48 + n := by
  show (48 + n) % 256 = 48 + n
  omega

private def decVal (s : Str) : Nat := s.foldl (fun acc c => 10 * acc + (c.toNat - 48)) 0

private theorem digits_val (fuel n : Nat) (h : n < fuel) : decVal (digits fuel n) = n := by
  induction fuel generalizing n with
  | zero => omega
  | succ fuel ih =>
    unfold digits
    split
    · rename_i h1
      simp only [decVal, List.foldl_cons, List.foldl_nil, digit_val h1]; omega
    · have hd := ih (n / 10) (by omega)
      unfold decVal at hd ⊢
      rw [List.foldl_append, hd]
      simp only [List.foldl_cons, List.foldl_nil, digit_val (Nat.mod_lt n (by omega))]
      omega

theorem decimal_inj {a b : Nat} (h : decimal a = decimal b) : a = b := by
  have ha := digits_val (a + 1) a (by omega)
  have hb := digits_val (b + 1) b (by omega)
  unfold decimal at h
  rw [h] at ha; omega

private theorem digits_chars (fuel n : Nat) : ∀ c ∈ digits fuel n, 48 ≤ c.toNat ∧ c.toNat ≤ 57 := by
  induction fuel generalizing n with
  | zero => simp [digits]
  | succ fuel ih =>
    unfold digits
    split
    · rename_i h1
      intro c hc
      simp only [List.mem_singleton] at hc; subst hc
      rw [digit_val h1]; omega
    · intro c hc
      rcases List.mem_append.mp hc with hc | hc
      · exact ih _ c hc
      · simp only [List.mem_singleton] at hc; subst hc
        rw [digit_val (Nat.mod_lt n (by omega))]; omega

/-- Facts about the text forms of `miekg/dns` and `net`: class and type texts are distinct, have a capital letter and no colon;
address texts have neither capital letters nor slashes. -/
structure TextsOk (tx : Texts) : Prop where
  clsInj : ∀ a b, tx.cls a = tx.cls b → a = b
  typeInj : ∀ a b, tx.type a = tx.type b → a = b
  clsColon : ∀ a, colon ∉ tx.cls a
  typeColon : ∀ a, colon ∉ tx.type a
  clsCap : ∀ a, ∃ c ∈ tx.cls a, capital c
  typeCap : ∀ a, ∃ c ∈ tx.type a, capital c
  ipCap : ∀ a, ∀ c ∈ tx.ip a, ¬ capital c
  ipSlash : ∀ a, slash ∉ tx.ip a

private theorem digit_not_capital {c : UInt8} (h : 48 ≤ c.toNat ∧ c.toNat ≤ 57) : ¬ capital c := by
  unfold capital
  simp only [UInt8.le_iff_toNat_le]
  have : (65 : UInt8).toNat = 65 := rfl
  omega

private theorem ecsText_cap {tx : Texts} (ht : TextsOk tx) (l : List EOpt) : ∀ c ∈ ecsText tx l, ¬ capital c := by
  induction l with
  | nil => simp [ecsText]
  | cons o l ih =>
    cases o with
    | ecs f mask s addr =>
      intro c hc
      simp only [ecsText, List.mem_append, List.mem_cons] at hc
      rcases hc with (hc | rfl | hc) | hc
      · exact ht.ipCap addr c hc
      · unfold capital; decide
      · exact digit_not_capital (digits_chars _ _ c hc)
      · exact ih c hc
    | _ => exact ih

private theorem ednsText_cap {tx : Texts} (ht : TextsOk tx) (q : Msg) : ∀ c ∈ ednsText tx q, ¬ capital c := by
  unfold ednsText
  cases q.edns? with
  | none => simp
  | some e =>
    intro c hc
    simp only [List.mem_append, List.mem_cons] at hc
    rcases hc with hc | rfl | hc
    · have : ∀ c ∈ (if e.dnssecOk = true then str "true" else str "false"), ¬ capital c := by
        cases e.dnssecOk <;> (unfold capital; decide)
      exact this c hc
    · unfold capital; decide
    · exact ecsText_cap ht _ c hc

private theorem parts_unique {P1 P2 : List Str} {c1 c2 t1 t2 d1 d2 : Str} {E1 E2 : List Str}
    (hc1 : ∃ c ∈ c1, capital c) (hc2 : ∃ c ∈ c2, capital c) (ht1 : ∃ c ∈ t1, capital c) (ht2 : ∃ c ∈ t2, capital c)
    (hd1 : ∀ c ∈ d1, ¬ capital c) (hd2 : ∀ c ∈ d2, ¬ capital c)
    (hE1 : ∀ p ∈ E1, ∀ c ∈ p, ¬ capital c) (hE2 : ∀ p ∈ E2, ∀ c ∈ p, ¬ capital c)
    (h : P1 ++ (c1 :: t1 :: d1 :: E1) = P2 ++ (c2 :: t2 :: d2 :: E2)) :
    P1 = P2 ∧ c1 = c2 ∧ t1 = t2 ∧ d1 = d2 ∧ E1 = E2 := by
  have half : ∀ {P1 P2 : List Str} {c1 c2 t1 t2 d1 d2 : Str} {E1 E2 : List Str},
      (∃ c ∈ c2, capital c) → (∃ c ∈ t2, capital c) → (∀ c ∈ d1, ¬ capital c) → (∀ p ∈ E1, ∀ c ∈ p, ¬ capital c) →
      P1 ++ (c1 :: t1 :: d1 :: E1) = P2 ++ (c2 :: t2 :: d2 :: E2) → ¬ P1.length < P2.length := by
    intro P1 P2 c1 c2 t1 t2 d1 d2 E1 E2 hc2 ht2 hd1 hE1 h hlt
    rw [List.append_eq_append_iff] at h
    rcases h with ⟨as, h1, h2⟩ | ⟨as, h1, h2⟩
    · cases as with
      | nil => simp at h1; subst h1; omega
      | cons x as =>
        simp only [List.cons_append, List.cons.injEq] at h2
        obtain ⟨-, h2⟩ := h2
        cases as with
        | nil =>
          simp only [List.nil_append, List.cons.injEq] at h2
          obtain ⟨-, h3, -⟩ := h2
          obtain ⟨c, hc, hcap⟩ := ht2
          exact hd1 c (by rw [h3]; exact hc) hcap
        | cons y as =>
          simp only [List.cons_append, List.cons.injEq] at h2
          obtain ⟨-, h2⟩ := h2
          have : c2 ∈ d1 :: E1 := by rw [h2]; simp
          obtain ⟨c, hc, hcap⟩ := hc2
          rcases List.mem_cons.mp this with rfl | hm
          · exact hd1 c hc hcap
          · exact hE1 _ hm c hc hcap
    · have := congrArg List.length h1
      simp at this; omega
  have hlen : P1.length = P2.length := by
    have a := half hc2 ht2 hd1 hE1 h
    have b := half hc1 ht1 hd2 hE2 h.symm
    omega
  obtain ⟨h1, h2⟩ := List.append_inj h hlen
  simp only [List.cons.injEq] at h2
  exact ⟨h1, h2⟩

private theorem key_parts {tx : Texts} (ht : TextsOk tx) {q1 q2 : Msg} {a b : Question}
    (h : lower a.name ++ colon :: (tx.cls a.qclass ++ colon :: (tx.type a.qtype ++ colon :: ((if q1.cd then str "cd" else []) ++ colon :: ednsText tx q1)))
       = lower b.name ++ colon :: (tx.cls b.qclass ++ colon :: (tx.type b.qtype ++ colon :: ((if q2.cd then str "cd" else []) ++ colon :: ednsText tx q2)))) :
    lower a.name = lower b.name ∧ a.qclass = b.qclass ∧ a.qtype = b.qtype ∧ q1.cd = q2.cd ∧ ednsText tx q1 = ednsText tx q2 := by
  have hcd : ∀ q : Msg, colon ∉ (if q.cd then str "cd" else []) := by intro q; cases q.cd <;> decide
  have hcdc : ∀ q : Msg, ∀ c ∈ (if q.cd then str "cd" else []), ¬ capital c := by
    intro q; unfold capital; cases q.cd <;> decide
  have hs := congrArg (splitOn colon) h
  simp only [splitOn_mid, splitOn_self (ht.clsColon _), splitOn_self (ht.typeColon _), splitOn_self (hcd _), List.cons_append,
    List.nil_append] at hs
  obtain ⟨e1, e2, e3, e4, e5⟩ := parts_unique (ht.clsCap _) (ht.clsCap _) (ht.typeCap _) (ht.typeCap _) (hcdc q1) (hcdc q2)
    (fun p hp c hc => ednsText_cap ht q1 c (mem_splitOn _ p hp c hc)) (fun p hp c hc => ednsText_cap ht q2 c (mem_splitOn _ p hp c hc)) hs
  refine ⟨splitOn_inj e1, ht.clsInj _ _ e2, ht.typeInj _ _ e3, ?_, splitOn_inj e5⟩
  revert e4
  cases q1.cd <;> cases q2.cd <;> simp <;> decide

private theorem ecsText_filter (tx : Texts) (l : List EOpt) :
    ecsText tx l = ecsText tx (l.filter isSubnet) := by
  induction l with
  | nil => rfl
  | cons o l ih => cases o <;> simp [ecsText, ih, isSubnet, List.filter_cons]

private theorem subnet_filter (ipStr : Str → Str) (q : Msg) : subnet ipStr q = (subnets q).reverse.findSome? fun o => match o with
    | .ecs _ mask _ addr => some (ipStr addr, mask)
    | _ => none := by
  unfold subnet subnets
  cases q.edns? with
  | none => rfl
  | some e =>
    simp only [Option.bind_some, ← List.filter_reverse]
    induction e.options.reverse with
    | nil => rfl
    | cons o l ih => cases o <;> simp [ih, isSubnet, List.filter_cons]

private theorem ecs_one {tx : Texts} (ht : TextsOk tx) {l1 l2 : List EOpt} (h1 : l1.length ≤ 1) (h2 : l2.length ≤ 1)
    (he1 : ∀ o ∈ l1, ∃ f m s a, o = .ecs f m s a) (he2 : ∀ o ∈ l2, ∃ f m s a, o = .ecs f m s a)
    (h : ecsText tx l1 = ecsText tx l2) :
    l1.reverse.findSome? (fun o => match o with | .ecs _ mask _ addr => some (tx.ip addr, mask) | _ => none) =
    l2.reverse.findSome? (fun o => match o with | .ecs _ mask _ addr => some (tx.ip addr, mask) | _ => none) := by
  match l1, l2 with
  | [], [] => rfl
  | [o], [] => obtain ⟨f, m, s, a, rfl⟩ := he1 o (by simp); simp [ecsText] at h
  | [], [o] => obtain ⟨f, m, s, a, rfl⟩ := he2 o (by simp); simp [ecsText] at h
  | [o], [o'] =>
    obtain ⟨f, m, s, a, rfl⟩ := he1 o (by simp)
    obtain ⟨f', m', s', a', rfl⟩ := he2 o' (by simp)
    simp only [ecsText, List.append_nil] at h
    have hs := congrArg (splitOn slash) h
    rw [splitOn_append (ht.ipSlash a), splitOn_append (ht.ipSlash a')] at hs
    simp only [List.cons.injEq] at hs
    have := decimal_inj (splitOn_inj hs.2)
    simp [hs.1, this]
  | _ :: _ :: _, _ => simp at h1
  | _, _ :: _ :: _ => simp at h2

/-- **C10.** Two queries with at most one subnet option each share a Redis key only if they are the same request:
name up to case, class, type, CD, DO and client subnet. -/
theorem redis_key_separates (tx : Texts) (ht : TextsOk tx) (pre : Str) (q1 q2 : Msg) (k : Str)
    (hs1 : (subnets q1).length ≤ 1) (hs2 : (subnets q2).length ≤ 1)
    (h1 : keyFromQuery tx pre q1 = some k) (h2 : keyFromQuery tx pre q2 = some k) : SameRequest tx.ip q1 q2 := by
  unfold keyFromQuery at h1 h2
  obtain ⟨a, ha, h1⟩ := Option.bind_eq_some_iff.mp h1
  obtain ⟨b, hb, h2⟩ := Option.bind_eq_some_iff.mp h2
  have h := h1.trans h2.symm
  simp only [Option.pure_def, Option.some.injEq] at h
  obtain ⟨e1, e2, e3, e4, e5⟩ := key_parts ht (List.append_cancel_left h)
  refine ⟨⟨a, b, ha, hb, e1, e3, e2⟩, e4, ?_, ?_⟩
  · unfold ednsText at e5
    unfold wantsDnssec
    cases h3 : q1.edns? with
    | none =>
      cases h4 : q2.edns? with
      | none => rfl
      | some e' => rw [h3, h4] at e5; simp at e5
    | some e =>
      cases h4 : q2.edns? with
      | none => rw [h3, h4] at e5; simp at e5
      | some e' =>
        rw [h3, h4] at e5
        simp only at e5 ⊢
        revert e5
        cases e.dnssecOk <;> cases e'.dnssecOk <;> simp [str]
  · rw [subnet_filter, subnet_filter]
    have hecs : ∀ q : Msg, ∀ o ∈ subnets q, ∃ f m s a, o = .ecs f m s a := by
      intro q o ho
      unfold subnets at ho
      split at ho
      · simp at ho
      · have := (List.mem_filter.mp ho).2
        cases o <;> simp [isSubnet] at this ⊢
    apply ecs_one ht hs1 hs2 (hecs q1) (hecs q2)
    unfold ednsText at e5
    unfold subnets
    cases h3 : q1.edns? with
    | none =>
      cases h4 : q2.edns? with
      | none => rfl
      | some e' => rw [h3, h4] at e5; simp at e5
    | some e =>
      cases h4 : q2.edns? with
      | none => rw [h3, h4] at e5; simp at e5
      | some e' =>
        rw [h3, h4] at e5
        simp only at e5 ⊢
        rw [← ecsText_filter, ← ecsText_filter]
        revert e5
        cases e.dnssecOk <;> cases e'.dnssecOk <;> simp [str]

/-- The converse: the same request, with EDNS0 present in both or in neither, gets the same key. -/
theorem redis_key_same (tx : Texts) (pre : Str) (q1 q2 : Msg) (k : Str) (hs1 : (subnets q1).length ≤ 1)
    (hs2 : (subnets q2).length ≤ 1) (hed : q1.edns?.isSome = q2.edns?.isSome) (h : SameRequest tx.ip q1 q2)
    (h1 : keyFromQuery tx pre q1 = some k) : keyFromQuery tx pre q2 = some k := by
  obtain ⟨⟨a, b, ha, hb, e1, e2, e3⟩, e4, e5, e6⟩ := h
  have hed' : ednsText tx q1 = ednsText tx q2 := by
    unfold ednsText
    rw [subnet_filter, subnet_filter] at e6
    have hecs : ∀ q : Msg, ∀ o ∈ subnets q, ∃ f m s a, o = .ecs f m s a := by
      intro q o ho
      unfold subnets at ho
      split at ho
      · simp at ho
      · have := (List.mem_filter.mp ho).2
        cases o <;> simp [isSubnet] at this ⊢
    have g1 := hecs q1
    have g2 := hecs q2
    have key : ecsText tx (subnets q1) = ecsText tx (subnets q2) := by
      revert e6 g1 g2 hs1 hs2
      generalize subnets q1 = l1
      generalize subnets q2 = l2
      intro hs1 hs2 e6 g1 g2
      match l1, l2 with
      | [], [] => rfl
      | [o], [] => obtain ⟨f, m, s, a, rfl⟩ := g1 o (by simp); simp at e6
      | [], [o] => obtain ⟨f, m, s, a, rfl⟩ := g2 o (by simp); simp at e6
      | [o], [o'] =>
        obtain ⟨f, m, s, a, rfl⟩ := g1 o (by simp)
        obtain ⟨f', m', s', a', rfl⟩ := g2 o' (by simp)
        simp at e6
        simp [ecsText, e6]
      | _ :: _ :: _, _ => simp at hs1
      | _, _ :: _ :: _ => simp at hs2
    unfold wantsDnssec at e5
    unfold subnets at key
    cases h3 : q1.edns? with
    | none =>
      cases h4 : q2.edns? with
      | none => rfl
      | some e' => rw [h3, h4] at hed; simp at hed
    | some e =>
      cases h4 : q2.edns? with
      | none => rw [h3, h4] at hed; simp at hed
      | some e' =>
        rw [h3, h4] at key e5
        simp only at key e5 ⊢
        rw [← ecsText_filter, ← ecsText_filter] at key
        rw [key, e5]
  unfold keyFromQuery at h1 ⊢
  rw [ha] at h1
  rw [hb]
  simp only [Option.bind_eq_bind, Option.bind_some] at h1 ⊢
  rw [← h1, e1, e2, e3, e4, hed']

/-! ### Histories -/
open Verif.CacheM (Opts lifetime)

/-- A cached response being written, or keys being deleted (flush, or eviction by the server). -/
inductive Ev where
  /-- `storeInCache` at `t`, `Store` reading the clock at `t1`, the write reaching the server at `t2`. Writes are
  asynchronous: the list is in order of arrival, the times are unrelated. -/
  | store (q m : Msg) (t t1 t2 : Int)
  | del (keys : Str → Bool)

variable (tx : Texts) (pre : Str) (pack : Msg → Option Str) (unpack : Str → Option Msg) (o : Opts)

def stepEv (s : Server) : Ev → Option Server
  | .store q m t t1 t2 => match lifetime o m t with
    | none => some s
    | some (ex, pf) => do
      match ← storeWrite tx pre pack q m t ex pf t1 with
      | none => return s
      | some (k, v, ttl) => return s.set k v ttl t2
  | .del keys => some (s.filter (fun e => ! keys e.1))

def runEv : Server → List Ev → Option Server
  | s, [] => some s
  | s, e :: es => do runEv (← stepEv tx pre pack o s e) es

/-- The event replaces or deletes what is stored under the key. -/
private def Removes (k : Str) : Ev → Prop
  | .store q m t t1 _ => keyFromQuery tx pre q = some k ∧ (∃ ex pf, lifetime o m t = some (ex, pf) ∧ 0 < ex - t1) ∧ pack m ≠ none
  | .del keys => keys k = true

private def Prov (hist : List Ev) (e : Str × Str × Int) : Prop :=
  ∃ q m t t1 t2 ex pf h1 h2, hist = h1 ++ Ev.store q m t t1 t2 :: h2 ∧ (∀ x ∈ h2, ¬ Removes tx pre pack o e.1 x) ∧
    keyFromQuery tx pre q = some e.1 ∧ lifetime o m t = some (ex, pf) ∧ encode pack (t / 1000000000) pf m = some e.2.1 ∧
    e.2.2 = t2 + (ex - t1)

private theorem Prov.snoc {hist : List Ev} {e} (x : Ev) (hr : ¬ Removes tx pre pack o e.1 x) (h : Prov tx pre pack o hist e) :
    Prov tx pre pack o (hist ++ [x]) e := by
  obtain ⟨q, m, t, t1, t2, ex, pf, h1, h2, rfl, h3, h4⟩ := h
  refine ⟨q, m, t, t1, t2, ex, pf, h1, h2 ++ [x], by simp, ?_, h4⟩
  intro y hy
  rcases List.mem_append.mp hy with hy | hy
  · exact h3 y hy
  · simp only [List.mem_singleton] at hy; subst hy; exact hr

private theorem step_prov {hist : List Ev} {s : Server} (hs : ∀ e ∈ s, Prov tx pre pack o hist e) (x : Ev)
    (hq : ∀ q m t t1 t2, x = .store q m t t1 t2 → q.question ≠ []) :
    ∃ s', stepEv tx pre pack o s x = some s' ∧ ∀ e ∈ s', Prov tx pre pack o (hist ++ [x]) e := by
  cases x with
  | del keys =>
    refine ⟨_, rfl, ?_⟩
    intro e he
    obtain ⟨h1, h2⟩ := List.mem_filter.mp he
    exact (hs e h1).snoc tx pre pack o (.del keys) (by intro h; simp only [Removes] at h; simp [h] at h2)
  | store q m t t1 t2 =>
    have hqn := hq q m t t1 t2 rfl
    obtain ⟨a, l, hql⟩ := List.exists_cons_of_ne_nil hqn
    have hk : ∃ k, keyFromQuery tx pre q = some k := by simp [keyFromQuery, hql]
    obtain ⟨k, hk⟩ := hk
    simp only [stepEv]
    cases hl : lifetime o m t with
    | none =>
      refine ⟨s, rfl, fun e he => (hs e he).snoc tx pre pack o _ ?_⟩
      rintro ⟨-, ⟨ex, pf, h, -⟩, -⟩
      rw [hl] at h; simp at h
    | some y =>
      obtain ⟨ex, pf⟩ := y
      simp only [storeWrite]
      by_cases httl : ex - t1 ≤ 0
      · rw [if_pos httl]
        refine ⟨s, rfl, fun e he => (hs e he).snoc tx pre pack o _ ?_⟩
        rintro ⟨-, ⟨ex', pf', h, hpos⟩, -⟩
        rw [hl] at h; simp at h; omega
      · rw [if_neg httl]
        simp only [hk, Option.bind_eq_bind, Option.bind_some]
        cases he : encode pack (t / CacheM.second) pf m with
        | none =>
          refine ⟨s, rfl, fun e he' => (hs e he').snoc tx pre pack o _ ?_⟩
          rintro ⟨-, -, hp⟩
          apply hp
          unfold encode at he
          cases hpm : pack m with
          | none => rfl
          | some w => rw [hpm] at he; simp at he
        | some v =>
          refine ⟨s.set k v (ex - t1) t2, rfl, ?_⟩
          intro e hmem
          unfold Server.set at hmem
          rcases List.mem_cons.mp hmem with rfl | hmem
          · exact ⟨q, m, t, t1, t2, ex, pf, hist, [], rfl, by simp, hk, hl, he, rfl⟩
          · obtain ⟨h1, h2⟩ := List.mem_filter.mp hmem
            refine (hs e h1).snoc tx pre pack o _ ?_
            rintro ⟨h3, -⟩
            rw [hk] at h3
            simp at h2
            exact h2 (Option.some.inj h3).symm

private theorem run_prov (evs : List Ev) : ∀ {hist : List Ev} {s : Server}, (∀ e ∈ s, Prov tx pre pack o hist e) →
    (∀ q m t t1 t2, Ev.store q m t t1 t2 ∈ evs → q.question ≠ []) →
    ∃ s', runEv tx pre pack o s evs = some s' ∧ ∀ e ∈ s', Prov tx pre pack o (hist ++ evs) e := by
  induction evs with
  | nil => intro hist s hs _; exact ⟨s, rfl, by simpa using hs⟩
  | cons x evs ih =>
    intro hist s hs hq
    obtain ⟨s1, h1, h2⟩ := step_prov tx pre pack o hs x (fun q m t t1 t2 h => hq q m t t1 t2 (by simp [h]))
    obtain ⟨s2, h3, h4⟩ := ih h2 (fun q m t t1 t2 h => hq q m t t1 t2 (by simp [h]))
    exact ⟨s2, by simp [runEv, h1, h3], by simpa using h4⟩

/-- The event replaces what was stored for request `q` by something newer. -/
def Supersedes (q : Msg) : Ev → Prop
  | .store q' m t t1 _ => keyFromQuery tx pre q' = keyFromQuery tx pre q ∧
      (∃ ex pf, lifetime o m t = some (ex, pf) ∧ 0 < ex - t1) ∧ pack m ≠ none
  | .del keys => ∃ k, keyFromQuery tx pre q = some k ∧ keys k = true

/-- **C09 (end to end).** After any sequence of (asynchronous) writes and deletions, an answer served from Redis at `now`
is the latest one stored for the same request, not yet past the deadline given to the server, and every TTL was lowered
by at least the whole seconds since it was stored, and at most one second more. -/
theorem redis_never_stale (ht : TextsOk tx) (hist : List Ev)
    (hist_ok : ∀ q m t t1 t2, Ev.store q m t t1 t2 ∈ hist → q.question ≠ [] ∧ (subnets q).length ≤ 1 ∧ 0 ≤ t ∧
      t < 9223372036854775808)
    (s : Server) (hrun : runEv tx pre pack o [] hist = some s) (q : Msg) (hq : q.question ≠ [])
    (hsub : (subnets q).length ≤ 1) (now : Int)
    (hnow : ∀ q m t t1 t2, Ev.store q m t t1 t2 ∈ hist → now - t ≤ 4294967294 * 1000000000) :
    ∃ r, Redis.lookup tx pre unpack s q now = some r ∧ ∀ a pf, r = some (a, pf) →
      ∃ q0 m t t1 t2 ex before after m' secs,
        hist = before ++ Ev.store q0 m t t1 t2 :: after ∧ (∀ e ∈ after, ¬ Supersedes tx pre pack o q e) ∧
        SameRequest tx.ip q0 q ∧ lifetime o m t = some (ex, pf) ∧ now < t2 + (ex - t1) ∧
        (∃ w, pack m = some w ∧ unpack w = some m') ∧
        wholeSeconds t now ≤ secs ∧ secs ≤ wholeSeconds t now + 1 ∧ AgedCopy secs q m' a := by
  obtain ⟨s', h1, h2⟩ := run_prov tx pre pack o hist (hist := []) (s := []) (by simp)
    (fun q m t t1 t2 h => (hist_ok q m t t1 t2 h).1)
  rw [hrun] at h1
  obtain rfl := Option.some.inj h1
  obtain ⟨a0, l, hql⟩ := List.exists_cons_of_ne_nil hq
  have hk : ∃ k, keyFromQuery tx pre q = some k := by simp [keyFromQuery, hql]
  obtain ⟨k, hk⟩ := hk
  unfold Redis.lookup
  simp only [hk, Option.bind_eq_bind, Option.bind_some]
  cases hg : s.get k now with
  | none => exact ⟨none, rfl, by simp⟩
  | some v =>
    simp only
    unfold Server.get at hg
    obtain ⟨e, he, hv⟩ := Option.map_eq_some_iff.mp hg
    obtain ⟨he1, he2⟩ := Option.filter_eq_some_iff.mp he
    have hmem := List.mem_of_find?_eq_some he1
    have hkey : e.1 = k := by simpa using List.find?_some he1
    obtain ⟨q0, m, t, t1, t2, ex, pf, b, af, hh, hrem, hk0, hl, henc, hdl⟩ := h2 e hmem
    rw [List.nil_append] at hh
    have hin : Ev.store q0 m t t1 t2 ∈ hist := by rw [hh]; simp
    obtain ⟨-, hs0, ht0, ht1⟩ := hist_ok _ _ _ _ _ hin
    have hts : InI64 (t / 1000000000) := by constructor <;> omega
    obtain ⟨w, hw, hd⟩ := redis_codec_roundtrip pack unpack _ hts pf m _ henc
    rw [hv] at hd
    rw [hd]
    cases hu : unpack w with
    | none => exact ⟨none, rfl, by simp⟩
    | some m' =>
      refine ⟨_, rfl, ?_⟩
      intro a pf' hr
      obtain ⟨a', ha, hx⟩ := Option.map_eq_some_iff.mp hr
      obtain ⟨rfl, rfl⟩ := Prod.mk.inj hx
      have hconv : toI64 (toU64 (t / 1000000000 * CacheM.second)) = t / 1000000000 * 1000000000 :=
        toI64_toU64 ⟨by unfold CacheM.second; omega, by unfold CacheM.second; omega⟩
      have hn := hnow _ _ _ _ _ hin
      rw [hconv, CacheM.cacheAge_eq (by omega)] at ha
      rw [hkey] at hk0
      refine ⟨q0, m, t, t1, t2, ex, b, af, m', _, hh, ?_, redis_key_separates tx ht pre q0 q k hs0 hsub hk0 hk, hl, ?_, ⟨w, hw, hu⟩,
        ?_, ?_, CacheM.ageCachedAnswer_some ha⟩
      · intro x hx hsup
        apply hrem x hx
        rw [hkey]
        cases x with
        | store q' m2 u u1 u2 => obtain ⟨g1, g2⟩ := hsup; exact ⟨by rw [g1]; exact hk, g2⟩
        | del keys =>
          obtain ⟨k', g1, g2⟩ := hsup
          rw [hk] at g1
          obtain rfl := Option.some.inj g1
          exact g2
      · rw [← hdl]; simpa using he2
      · unfold wholeSeconds; omega
      · unfold wholeSeconds; omega

/-! ### Concrete cases -/
section Examples
private def tx0 : Texts where
  cls n := if n = 1 then str "IN" else str "CLASS" ++ decimal n
  type n := if n = 1 then str "A" else str "TYPE" ++ decimal n
  ip a := joinWith 46 (a.map fun b => decimal b.toNat)

private theorem dec_chars {n : Nat} {c : UInt8} (h : c ∈ decimal n) : c ≠ colon ∧ c ≠ slash := by
  have := digits_chars _ _ c h
  constructor <;> (rintro rfl; revert this; decide)

private theorem join_chars (l : List UInt8) : ∀ c ∈ joinWith 46 (l.map fun b => decimal b.toNat), ¬ capital c ∧ c ≠ slash := by
  have dot_ok : ¬ capital 46 ∧ (46 : UInt8) ≠ slash := by unfold capital; decide
  have dec_ok : ∀ (n : Nat) (c : UInt8), c ∈ decimal n → ¬ capital c ∧ c ≠ slash :=
    fun n c hc => ⟨digit_not_capital (digits_chars _ _ c hc), (dec_chars hc).2⟩
  induction l with
  | nil => simp [joinWith]
  | cons b l ih =>
    cases l with
    | nil => intro c hc; exact dec_ok _ c (by simpa [joinWith] using hc)
    | cons b' l =>
      intro c hc
      rw [List.map_cons, joinWith_cons _ (by simp)] at hc
      rcases List.mem_append.mp hc with hc | hc
      · exact dec_ok _ c hc
      · rcases List.mem_cons.mp hc with rfl | hc
        · exact dot_ok
        · exact ih c hc

/-- The assumptions on texts are satisfied by texts like the real ones. -/
example : TextsOk tx0 where
  clsInj a b h := by
    simp only [tx0] at h
    split at h <;> split at h
    · omega
    · simp [str] at h
    · simp [str] at h
    · exact decimal_inj (List.append_cancel_left h)
  typeInj a b h := by
    simp only [tx0] at h
    split at h <;> split at h
    · omega
    · simp [str] at h
    · simp [str] at h
    · exact decimal_inj (List.append_cancel_left h)
  clsColon a := by
    simp only [tx0]
    split
    · decide
    · intro h; rcases List.mem_append.mp h with h | h
      · revert h; decide
      · exact (dec_chars h).1 rfl
  typeColon a := by
    simp only [tx0]
    split
    · decide
    · intro h; rcases List.mem_append.mp h with h | h
      · revert h; decide
      · exact (dec_chars h).1 rfl
  clsCap a := by
    simp only [tx0, capital]
    split
    · exact ⟨73, by decide, by decide⟩
    · exact ⟨67, by simp [str], by decide⟩
  typeCap a := by
    simp only [tx0, capital]
    split
    · exact ⟨65, by decide, by decide⟩
    · exact ⟨84, by simp [str], by decide⟩
  ipCap a c hc := (join_chars a c hc).1
  ipSlash a h := (join_chars a _ h).2 rfl

private def ecsQ (l : List EOpt) : Msg :=
  { question := [{ name := str "Ab.c.", qtype := 1, qclass := 1 }],
    extra := [{ name := str ".", rtype := 41, cls := 1232, ttl := 0, data := .opt 1232 true l }] }

example : keyFromQuery tx0 (str "rdns:") (ecsQ [.ecs 1 24 0 [10, 1, 2, 0]]) = some (str "rdns:ab.c.:IN:A::true:10.1.2.0/24") := by decide

/-- **Finding.** Two subnet options are written without a separator, so queries for different subnets can share a key. -/
theorem redis_key_two_subnets :
    keyFromQuery tx0 [] (ecsQ [.ecs 1 2 0 [1, 1, 1, 1], .ecs 1 24 0 [41, 1, 1, 1]]) =
    keyFromQuery tx0 [] (ecsQ [.ecs 1 24 0 [1, 1, 1, 1], .ecs 1 24 0 [1, 1, 1, 1]]) ∧
    subnet tx0.ip (ecsQ [.ecs 1 2 0 [1, 1, 1, 1], .ecs 1 24 0 [41, 1, 1, 1]]) ≠
    subnet tx0.ip (ecsQ [.ecs 1 24 0 [1, 1, 1, 1], .ecs 1 24 0 [1, 1, 1, 1]]) := by decide

private def pk (m : Msg) : Option Str := some [m.rcode.toUInt8, (m.answer.map (fun r => r.ttl.toUInt8)).headD 0]
private def upk (w : Str) : Option Msg := match w with
  | [r, t] => some { rcode := r.toNat, response := true,
                     answer := if t = 0 then [] else [{ name := [97], rtype := 1, cls := 1, ttl := t.toNat, data := .a [1, 2, 3, 4] }] }
  | _ => none
private def exA : Msg := { response := true, answer := [{ name := [97], rtype := 1, cls := 1, ttl := 200, data := .a [1, 2, 3, 4] }] }

/-- Stored at 1.9s, read at 5.0s: three whole seconds old, aged by four. -/
example : ((runEv tx0 [] pk {} [] [.store (ecsQ []) exA 1900000000 1900000000 2000000000]).bind
    (fun s => Redis.lookup tx0 [] upk s (ecsQ []) 5000000000)).map (fun r => r.map (fun r => r.1.answer.map (·.ttl))) = some (some [196]) := by
  decide
end Examples

end Verif.Props.Redis
