import Verif.Spec.Xsocket
import Verif.Lemmas.Bytes
import Verif.Props.Validate
/-
C58: sockets from an xsocket server.
-/
set_option linter.unusedVariables false
set_option linter.unusedSimpArgs false
set_option maxRecDepth 100000
namespace Verif.Props.Xsocket
open Verif Verif.Net Verif.Xsocket Verif.Spec.Xsocket

/-! ### Bytes -/

private theorem beBytes_beVal (l : Str) : beBytes l.length (beVal l) = l := by
  induction l with
  | nil => rfl
  | cons b l ih =>
    have hlt : ∀ l : Str, beVal l < 256 ^ l.length := by
      intro l
      induction l with
      | nil => simp [beVal]
      | cons b l ih =>
        rw [beVal_cons]
        have hb := b.toNat_lt
        simp only [List.length_cons, Nat.pow_succ]
        have : b.toNat * 256 ^ l.length + beVal l < b.toNat * 256 ^ l.length + 256 ^ l.length := by omega
        calc b.toNat * 256 ^ l.length + beVal l < (b.toNat + 1) * 256 ^ l.length := by rw [Nat.add_mul, Nat.one_mul]; exact this
          _ ≤ 256 * 256 ^ l.length := Nat.mul_le_mul_right _ (by omega)
          _ = 256 ^ l.length * 256 := Nat.mul_comm _ _
    rw [beVal_cons]
    simp only [List.length_cons, beBytes]
    have h1 : (b.toNat * 256 ^ l.length + beVal l) / 256 ^ l.length = b.toNat := by
      rw [Nat.mul_comm, Nat.mul_add_div (by exact Nat.pow_pos (by omega)), Nat.div_eq_of_lt (hlt l), Nat.add_zero]
    rw [h1, Nat.mod_eq_of_lt b.toNat_lt]
    congr 1
    · simp
    · have mono : ∀ k n m, n % 256 ^ k = m % 256 ^ k → beBytes k n = beBytes k m := by
        intro k
        induction k with
        | zero => intros; rfl
        | succ k ihk =>
          intro n m h
          simp only [beBytes]
          have hd : ∀ n, n / 256 ^ k % 256 = n % 256 ^ (k + 1) / 256 ^ k := by
            intro n
            rw [Nat.pow_succ, Nat.mod_mul_right_div_self]
          have hm : ∀ n, n % 256 ^ k = n % 256 ^ (k + 1) % 256 ^ k := by
            intro n
            rw [Nat.pow_succ, Nat.mod_mul_right_mod]
          rw [hd n, hd m, h, ihk n m (by rw [hm n, hm m, h])]
      rw [mono l.length (b.toNat * 256 ^ l.length + beVal l) (beVal l) (by rw [Nat.mul_comm, Nat.mul_add_mod])]
      exact ih

private theorem beVal_lt (l : Str) (h : l.length = 4) : beVal l < 2 ^ 32 := by
  match l, h with
  | [a, b, c, d], _ =>
    have := a.toNat_lt; have := b.toNat_lt; have := c.toNat_lt; have := d.toNat_lt
    simp only [beVal, List.foldl_cons, List.foldl_nil]
    omega

private theorem sig_bytes : beBytes 4 sigRequest = str "XS01" ∧ beBytes 4 sigResponse = str "XS02" := by decide

private theorem fields (a b c d : Nat) (rest : Str) (hb : b < 2 ^ 32) (hc : c < 2 ^ 32) (hd : d < 2 ^ 32) (m : Str)
    (h : m = beBytes 4 a ++ beBytes 4 b ++ beBytes 4 c ++ beBytes 4 d ++ rest) :
    m.take 16 = beBytes 4 a ++ beBytes 4 b ++ beBytes 4 c ++ beBytes 4 d ∧ (m.take 16).length = 16 ∧ u32 (m.take 16) 0 = a % 256 ^ 4 ∧ u32 (m.take 16) 4 = b ∧ u32 (m.take 16) 8 = c ∧ u32 (m.take 16) 12 = d := by
  have la := length_beBytes 4 a
  have lb := length_beBytes 4 b
  have lc := length_beBytes 4 c
  have ld := length_beBytes 4 d
  have e : m.take 16 = beBytes 4 a ++ beBytes 4 b ++ beBytes 4 c ++ beBytes 4 d := by
    rw [h]
    exact List.take_left' (by simp [la, lb, lc, ld])
  refine ⟨e, by rw [e]; simp [la, lb, lc, ld], ?_, ?_, ?_, ?_⟩
  all_goals rw [e]; unfold u32
  · rw [List.drop_zero, List.append_assoc, List.append_assoc, List.take_left' la, beVal_beBytes]
  · rw [List.append_assoc, List.append_assoc, List.drop_left' la, List.take_left' lb, beVal_beBytes_lt (by omega)]
  · rw [List.append_assoc, List.drop_left' (by simp [la, lb]), List.take_left' lc, beVal_beBytes_lt (by omega)]
  · rw [List.drop_left' (by simp [la, lb, lc])]
    rw [show beBytes 4 d = beBytes 4 d ++ [] by simp, List.take_left' ld, beVal_beBytes_lt (by omega)]

private theorem asks_iff (m : Str) : (¬ ((m.take 16).length < 16 ∨ u32 (m.take 16) 0 ≠ sigRequest)) ↔ Asks m (u32 (m.take 16) 4) (u32 (m.take 16) 8) (u32 (m.take 16) 12) := by
  constructor
  · intro h
    simp only [not_or, Decidable.not_not] at h
    obtain ⟨h1, h2⟩ := h
    have hl : (m.take 16).length = 16 := by have := List.length_take_le 16 m; omega
    generalize hr : m.take 16 = r at *
    have l0 : (r.take 4).length = 4 := by simp; omega
    have l1 : ((r.drop 4).take 4).length = 4 := by simp; omega
    have l2 : ((r.drop 8).take 4).length = 4 := by simp; omega
    have l3 : ((r.drop 12).take 4).length = 4 := by simp; omega
    refine ⟨beVal_lt _ l1, beVal_lt _ l2, beVal_lt _ l3, m.drop 16, ?_⟩
    have hm : m = r ++ m.drop 16 := by rw [← hr]; exact (List.take_append_drop 16 m).symm
    have hrr : r = r.take 4 ++ (r.drop 4).take 4 ++ (r.drop 8).take 4 ++ (r.drop 12).take 4 := by
      have a1 : r = r.take 4 ++ r.drop 4 := (List.take_append_drop 4 r).symm
      have a2 : r.drop 4 = (r.drop 4).take 4 ++ r.drop 8 := by
        have := (List.take_append_drop 4 (r.drop 4)).symm
        rwa [List.drop_drop] at this
      have a3 : r.drop 8 = (r.drop 8).take 4 ++ r.drop 12 := by
        have := (List.take_append_drop 4 (r.drop 8)).symm
        rwa [List.drop_drop] at this
      have a4 : r.drop 12 = (r.drop 12).take 4 := (List.take_of_length_le (by simp; omega)).symm
      rw [List.append_assoc, List.append_assoc, ← a4, ← a3, ← a2, ← a1]
    have b0 : r.take 4 = str "XS01" := by
      have e := beBytes_beVal (r.take 4)
      rw [l0] at e
      unfold u32 at h2
      rw [List.drop_zero] at h2
      rw [h2, sig_bytes.1] at e
      exact e.symm
    have b1 := beBytes_beVal ((r.drop 4).take 4)
    have b2 := beBytes_beVal ((r.drop 8).take 4)
    have b3 := beBytes_beVal ((r.drop 12).take 4)
    rw [l1] at b1; rw [l2] at b2; rw [l3] at b3
    unfold u32
    rw [b1, b2, b3, ← b0, ← hrr, ← hm]
  · rintro ⟨h1, h2, h3, rest, hm⟩
    rw [← sig_bytes.1] at hm
    obtain ⟨_, hl, hs, _⟩ := fields sigRequest _ _ _ rest h1 h2 h3 m hm
    rintro (h | h)
    · omega
    · exact h (by rw [hs]; decide)

/-! ### The allow-list -/

private theorem flag_bits (n : Nat) : n &&& 0x80800 = (if n.testBit 11 then 0x800 else 0) + (if n.testBit 19 then 0x80000 else 0) := by
  have e : (0x80800 : Nat) = 2 ^ 11 ||| 2 ^ 19 := by decide
  rw [e]
  apply Nat.eq_of_testBit_eq
  intro i
  simp only [Nat.testBit_and, Nat.testBit_or, Nat.testBit_two_pow]
  have r : ((if n.testBit 11 then 0x800 else 0) + (if n.testBit 19 then 0x80000 else 0)) = ((if n.testBit 11 then 2 ^ 11 else 0) ||| (if n.testBit 19 then 2 ^ 19 else 0)) := by
    cases n.testBit 11 <;> cases n.testBit 19 <;> decide
  rw [r, Nat.testBit_or]
  have t : ∀ (b : Bool) (k : Nat), (if b then 2 ^ k else 0).testBit i = (b && decide (k = i)) := by
    intro b k
    cases b
    · simp
    · simp [Nat.testBit_two_pow]
  rw [t, t]
  by_cases h1 : (11 : Nat) = i
  · subst h1; simp
  · by_cases h2 : (19 : Nat) = i
    · subst h2; simp
    · simp [h1, h2]

private theorem split_bits (n : Nat) (h : n < 2 ^ 32) : n = (n &&& ((2 ^ 32 - 1) ^^^ (sockCloexec ||| sockNonblock))) ||| (n &&& 0x80800) := by
  have e : sockCloexec ||| sockNonblock = 0x80800 := by decide
  rw [e]
  apply Nat.eq_of_testBit_eq
  intro i
  simp only [Nat.testBit_and, Nat.testBit_or, Nat.testBit_xor, Nat.testBit_two_pow_sub_one]
  by_cases hi : i < 32
  · simp only [hi, decide_true]
    cases n.testBit i <;> cases Nat.testBit 0x80800 i <;> rfl
  · have : n.testBit i = false := Nat.testBit_lt_two_pow (Nat.lt_of_lt_of_le h (Nat.pow_le_pow_right (by omega) (by omega)))
    simp [this]

private theorem base_iff (n b : Nat) (h : n < 2 ^ 32) (hb : b = 1 ∨ b = 2) :
    n &&& ((2 ^ 32 - 1) ^^^ (sockCloexec ||| sockNonblock)) = b ↔ ∃ f, f ∈ [0, 0x800, 0x80000, 0x80800] ∧ n = b + f := by
  constructor
  · intro hn
    have hs := split_bits n h
    rw [hn, flag_bits] at hs
    refine ⟨(if n.testBit 11 then 0x800 else 0) + (if n.testBit 19 then 0x80000 else 0), ?_, ?_⟩
    · cases n.testBit 11 <;> cases n.testBit 19 <;> simp
    · rcases hb with rfl | rfl <;> revert hs <;> generalize n.testBit 11 = x <;> generalize n.testBit 19 = y <;> intro hs <;> rw [hs] <;> cases x <;> cases y <;> decide
  · rintro ⟨f, hf, rfl⟩
    simp only [List.mem_cons, List.not_mem_nil, or_false] at hf
    rcases hb with rfl | rfl <;> rcases hf with rfl | rfl | rfl | rfl <;> decide

/-- C58: the allow-list is what it says. -/
theorem allowed_iff (domain typ proto : Nat) (ht : typ < 2 ^ 32) : allowedSocket domain typ proto = true ↔ Harmless domain typ proto := by
  unfold allowedSocket Harmless
  rw [← base_iff typ 1 ht (Or.inl rfl), ← base_iff typ 2 ht (Or.inr rfl)]
  generalize typ &&& ((2 ^ 32 - 1) ^^^ (sockCloexec ||| sockNonblock)) = base
  by_cases hd : domain ≠ afInet ∧ domain ≠ afInet6
  · rw [if_pos hd]
    simp only [Bool.false_eq_true, false_iff]
    rintro ⟨h | h, _⟩
    · exact hd.1 h
    · exact hd.2 h
  · rw [if_neg hd]
    have hd' : domain = 2 ∨ domain = 10 := by
      by_cases h : domain = 2
      · exact Or.inl h
      · by_cases h' : domain = 10
        · exact Or.inr h'
        · exact absurd ⟨h, h'⟩ hd
    simp only []
    by_cases h1 : base = sockStream
    · rw [if_pos h1]
      subst h1
      have : ¬ (sockStream = 2) := by decide
      simp [hd', this]
    · rw [if_neg h1]
      by_cases h2 : base = sockDgram
      · rw [if_pos h2]; subst h2; simp [hd']
      · rw [if_neg h2]
        simp only [Bool.false_eq_true, false_iff]
        rintro ⟨_, h | h⟩
        · exact h1 h.1
        · exact h2 h.1

/-! ### The server -/

/-- The outcome of one request, in words -/
def Outcome (unrestricted : Bool) (socket : Nat → Nat → Nat → Sock) (domain typ proto : Nat) (s : Served) : Prop :=
  (unrestricted = false ∧ ¬ Harmless domain typ proto ∧ s.asked = none ∧ Says s.response 1 ∧ s.fd = none ∧ s.closed = []) ∨
  ((unrestricted = true ∨ Harmless domain typ proto) ∧ s.asked = some (domain, typ ||| 0x80000, proto) ∧
    ((∃ n, socket domain (typ ||| 0x80000) proto = .fd n ∧ Says s.response 0 ∧ s.fd = some n ∧ s.closed = [n]) ∨
     (∃ e, socket domain (typ ||| 0x80000) proto = .errno e ∧ Says s.response e ∧ s.fd = none ∧ s.closed = [])))

private theorem serveOne_outcome (u : Bool) (socket : Nat → Nat → Nat → Sock) (req : Str) (ht : u32 req 8 < 2 ^ 32) :
    Outcome u socket (u32 req 4) (u32 req 8) (u32 req 12) (serveOne u socket req) := by
  unfold serveOne Outcome
  simp only []
  by_cases h : (!u && !allowedSocket (u32 req 4) (u32 req 8) (u32 req 12)) = true
  · rw [if_pos h]
    simp only [Bool.and_eq_true, Bool.not_eq_true'] at h
    left
    refine ⟨h.1, ?_, rfl, ?_, rfl, rfl⟩
    · intro hh
      rw [(allowed_iff _ _ _ ht).mpr hh] at h
      simp at h
    · show response 1 = _
      unfold response; rw [sig_bytes.2]
  · rw [if_neg h]
    right
    refine ⟨?_, ?_, ?_⟩
    · cases hu : u with
      | true => exact Or.inl rfl
      | false =>
        right
        apply (allowed_iff _ _ _ ht).mp
        rw [hu] at h
        simpa using h
    · show (answerSock _ (socket _ _ _)).asked = _
      cases socket (u32 req 4) (u32 req 8 ||| sockCloexec) (u32 req 12) <;> rfl
    · show (∃ n, socket _ _ _ = .fd n ∧ _) ∨ _
      cases hs : socket (u32 req 4) (u32 req 8 ||| sockCloexec) (u32 req 12) with
      | fd n =>
        left
        refine ⟨n, rfl, ?_, rfl, rfl⟩
        show response 0 = _
        unfold response; rw [sig_bytes.2]
      | errno e =>
        right
        refine ⟨e, rfl, ?_, rfl, rfl⟩
        show response e = _
        unfold response; rw [sig_bytes.2]

private theorem asks_fun {m : Str} {d t p : Nat} (h : Asks m d t p) : u32 (m.take 16) 4 = d ∧ u32 (m.take 16) 8 = t ∧ u32 (m.take 16) 12 = p := by
  obtain ⟨h1, h2, h3, rest, hm⟩ := h
  rw [← sig_bytes.1] at hm
  obtain ⟨_, _, _, h4, h5, h6⟩ := fields sigRequest _ _ _ rest h1 h2 h3 m hm
  exact ⟨h4, h5, h6⟩

/-- C58: for every sequence of messages on a connection, the server answers the requests one by one, in order, until the first message that is not a request (or until a
response cannot be sent); each answer is as in `Outcome`: a refusal (EPERM) without a socket being made, the error of the kernel, or the descriptor the kernel gave for
exactly this request, which the server then closes. -/
theorem server_serves (u : Bool) (env : Nat → Env) (ms : List Str) : ∀ k,
    (handle u env k ms).length ≤ ms.length ∧
    (∀ i s, (handle u env k ms)[i]? = some s → ∃ m d t p, ms[i]? = some m ∧ Asks m d t p ∧ Outcome u (env (k + i)).socket d t p s) ∧
    ((handle u env k ms).length < ms.length → (∃ m, ms[(handle u env k ms).length]? = some m ∧ ¬ ∃ d t p, Asks m d t p) ∨
      ∃ i, i + 1 = (handle u env k ms).length ∧ (env (k + i)).writeOk = false) := by
  induction ms with
  | nil => intro k; simp [handle]
  | cons m ms ih =>
    intro k
    simp only [handle]
    by_cases hm : (m.take 16).length < 16 ∨ u32 (m.take 16) 0 ≠ sigRequest
    · rw [if_pos hm]
      refine ⟨by simp, by simp, fun _ => Or.inl ⟨m, rfl, ?_⟩⟩
      rintro ⟨d, t, p, ha⟩
      obtain ⟨rfl, rfl, rfl⟩ := asks_fun ha
      exact (asks_iff m).mpr ha hm
    · rw [if_neg hm]
      have ha := (asks_iff m).mp hm
      have ho := serveOne_outcome u (env k).socket (m.take 16) ha.2.1
      by_cases hw : (env k).writeOk = true
      · rw [if_pos hw]
        obtain ⟨g1, g2, g3⟩ := ih (k + 1)
        refine ⟨by simp only [List.length_cons]; omega, ?_, ?_⟩
        · intro i s hs
          cases i with
          | zero =>
            simp only [List.getElem?_cons_zero, Option.some.injEq] at hs
            subst hs
            exact ⟨m, _, _, _, rfl, ha, ho⟩
          | succ i =>
            rw [List.getElem?_cons_succ] at hs
            obtain ⟨m', d, t, p, e1, e2, e3⟩ := g2 i s hs
            refine ⟨m', d, t, p, by rw [List.getElem?_cons_succ]; exact e1, e2, ?_⟩
            rw [show k + (i + 1) = k + 1 + i by omega]; exact e3
        · intro hl
          simp only [List.length_cons] at hl
          rcases g3 (by omega) with ⟨m', e1, e2⟩ | ⟨i, e1, e2⟩
          · exact Or.inl ⟨m', by rw [List.length_cons, List.getElem?_cons_succ]; exact e1, e2⟩
          · exact Or.inr ⟨i + 1, by simp only [List.length_cons]; omega, by rw [show k + (i + 1) = k + 1 + i by omega]; exact e2⟩
      · rw [if_neg hw]
        refine ⟨by simp, ?_, fun _ => Or.inr ⟨0, rfl, by simpa using hw⟩⟩
        intro i s hs
        cases i with
        | zero =>
          simp only [List.getElem?_cons_zero, Option.some.injEq] at hs
          subst hs
          exact ⟨m, _, _, _, rfl, ha, ho⟩
        | succ i => simp at hs

/-- C58: a restricted server never makes any other socket than a TCP or UDP one, and always with close-on-exec, whatever it is sent. -/
theorem server_restricted (env : Nat → Env) (k : Nat) (ms : List Str) (s : Served) (hs : s ∈ handle false env k ms) (d t p : Nat) (ha : s.asked = some (d, t, p)) :
    ∃ t0, Harmless d t0 p ∧ t = t0 ||| 0x80000 := by
  obtain ⟨i, hi⟩ := List.getElem?_of_mem hs
  obtain ⟨m, d', t', p', _, _, ho⟩ := (server_serves false env ms k).2.1 i s hi
  rcases ho with ⟨_, _, h, _⟩ | ⟨h1, h2, _⟩
  · rw [h] at ha; simp at ha
  · rw [h2] at ha
    simp only [Option.some.injEq, Prod.mk.injEq] at ha
    obtain ⟨rfl, rfl, rfl⟩ := ha
    rcases h1 with h1 | h1
    · simp at h1
    · exact ⟨t', h1, rfl⟩

/-- C58: the server keeps no descriptor: those it closes are those it got from the kernel. -/
theorem server_keeps_none (u : Bool) (env : Nat → Env) (k : Nat) (ms : List Str) (s : Served) (hs : s ∈ handle u env k ms) : s.closed = s.fd.toList := by
  obtain ⟨i, hi⟩ := List.getElem?_of_mem hs
  obtain ⟨m, d', t', p', _, _, ho⟩ := (server_serves u env ms k).2.1 i s hi
  rcases ho with ⟨_, _, _, _, h1, h2⟩ | ⟨_, _, ⟨n, _, _, h1, h2⟩ | ⟨e, _, _, h1, h2⟩⟩
  all_goals rw [h1, h2]; rfl

/-! ### The client -/

/-- C58: the client's request is a request for exactly the socket asked for. -/
theorem client_request (d t p : Nat) (hd : d < 2 ^ 32) (ht : t < 2 ^ 32) (hp : p < 2 ^ 32) : Asks (request d t p) d t p ∧ (request d t p).length = 16 := by
  refine ⟨⟨hd, ht, hp, [], ?_⟩, by simp [request, length_beBytes]⟩
  rw [request, sig_bytes.1]; simp

private theorem says_fields (m : Str) (e : Nat) (he : e < 2 ^ 32) (h : Says m e) : (m.take 8).length = 8 ∧ u32 (m.take 8) 0 = sigResponse ∧ u32 (m.take 8) 4 = e := by
  have le := length_beBytes 4 e
  have hl : m.length = 8 := by rw [h]; simp [le]; decide
  rw [List.take_of_length_le (by omega)]
  refine ⟨hl, ?_, ?_⟩
  · rw [h]; unfold u32; rw [List.drop_zero, List.take_left' (by decide)]; decide
  · rw [h]; unfold u32
    rw [List.drop_left' (by decide), show beBytes 4 e = beBytes 4 e ++ [] by simp, List.take_left' le, beVal_beBytes_lt (by omega)]

/-- C58: after a proper response the client holds at most one of the descriptors that came, and has closed all others: none if the server reported an error. -/
theorem client_keeps_one (data : Str) (fds : List Nat) (e : Nat) (he : e < 2 ^ 32) (hs : Says data e) :
    (takeResponse data fds).fd.toList ++ (takeResponse data fds).closed = fds ∧
    ((takeResponse data fds).fd ≠ none ↔ e = 0 ∧ fds ≠ []) := by
  obtain ⟨h1, h2, h3⟩ := says_fields data e he hs
  unfold takeResponse
  simp only []
  rw [if_neg (by omega), if_neg (by simp [h2]), h3]
  unfold pick
  by_cases h0 : e = 0
  · rw [if_neg (by simp [h0])]
    cases fds <;> simp [h0]
  · rw [if_pos h0]; simp [h0]

/-- C58: a response that is too short or has another signature gives no descriptor. -/
theorem client_checks (data : Str) (fds : List Nat) (h : ∀ e, ¬ ∃ rest, data = str "XS02" ++ beBytes 4 e ++ rest) : (takeResponse data fds).fd = none := by
  unfold takeResponse
  simp only []
  split
  · rfl
  · rename_i hl
    split
    · rfl
    · rename_i hs
      exfalso
      simp only [Decidable.not_not] at hs
      have hl8 : (data.take 8).length = 8 := by have := List.length_take_le 8 data; omega
      generalize hr : data.take 8 = r at *
      have e1 := beBytes_beVal (r.take 4)
      have e2 := beBytes_beVal (r.drop 4)
      have l1 : (r.take 4).length = 4 := by simp; omega
      have l2 : (r.drop 4).length = 4 := by simp; omega
      unfold u32 at hs
      rw [List.drop_zero] at hs
      rw [l1, hs, sig_bytes.2] at e1
      rw [l2] at e2
      refine h (beVal (r.drop 4)) ⟨data.drop 8, ?_⟩
      rw [e1, e2, List.take_append_drop, ← hr, List.take_append_drop]

/-- Finding: descriptors that come with a short response, or with one that has another signature, are neither used nor closed. -/
theorem client_leaks (data : Str) (fds : List Nat) (h : ∀ e, ¬ ∃ rest, data = str "XS02" ++ beBytes 4 e ++ rest) : takeResponse data fds = { fd := none, closed := [] } := by
  have hf := client_checks data fds h
  unfold takeResponse at hf ⊢
  simp only [] at hf ⊢
  split
  · rfl
  · rename_i h1
    rw [if_neg h1] at hf
    split
    · rfl
    · rename_i h2
      exfalso
      -- the signature is right, so `h` cannot hold
      simp only [Decidable.not_not] at h2
      have hl8 : (data.take 8).length = 8 := by have := List.length_take_le 8 data; omega
      generalize hr : data.take 8 = r at *
      have e1 := beBytes_beVal (r.take 4)
      have e2 := beBytes_beVal (r.drop 4)
      have l1 : (r.take 4).length = 4 := by simp; omega
      have l2 : (r.drop 4).length = 4 := by simp; omega
      unfold u32 at h2
      rw [List.drop_zero] at h2
      rw [l1, h2, sig_bytes.2] at e1
      rw [l2] at e2
      refine h (beVal (r.drop 4)) ⟨data.drop 8, ?_⟩
      rw [e1, e2, List.take_append_drop, ← hr, List.take_append_drop]

/-- A client and a server of this program: the request of the client is the only message, the descriptor goes through `dup` -/
def exchange (u : Bool) (env : Nat → Env) (dup : Nat → Nat) (m : Str) : Option (Str × List Nat) := match handle u env 0 [m] with
  | [] => some ([], [])
  | s :: _ => some (s.response, (s.fd.map dup).toList)

/-- C58: from end to end, the client gets a duplicate of a socket the kernel made in the server's namespace for exactly what the client asked, or an error if the server refuses or
the kernel does. -/
theorem end_to_end (u : Bool) (env : Nat → Env) (dup : Nat → Nat) (d t p : Nat) (hd : d < 2 ^ 32) (ht : t < 2 ^ 32) (hp : p < 2 ^ 32) :
    (∀ n, (u = true ∨ Harmless d t p) → (env 0).socket d (t ||| 0x80000) p = .fd n → getFd (exchange u env dup) d t p = { fd := some (dup n), closed := [] }) ∧
    (∀ e, (u = true ∨ Harmless d t p) → (env 0).socket d (t ||| 0x80000) p = .errno e → 0 < e → e < 2 ^ 32 → getFd (exchange u env dup) d t p = { fd := none, closed := [] }) ∧
    (u = false → ¬ Harmless d t p → getFd (exchange u env dup) d t p = { fd := none, closed := [] }) := by
  obtain ⟨ha, _⟩ := client_request d t p hd ht hp
  obtain ⟨e1, e2, e3⟩ := asks_fun ha
  have hn : ¬ ((((request d t p).take 16).length < 16) ∨ u32 ((request d t p).take 16) 0 ≠ sigRequest) := by
    rw [asks_iff, e1, e2, e3]; exact ha
  have ho := serveOne_outcome u (env 0).socket ((request d t p).take 16) (by rw [e2]; exact ht)
  rw [e1, e2, e3] at ho
  have hg : getFd (exchange u env dup) d t p = takeResponse (serveOne u (env 0).socket ((request d t p).take 16)).response
      (((serveOne u (env 0).socket ((request d t p).take 16)).fd.map dup).toList) := by
    unfold getFd exchange
    simp only [handle]
    rw [if_neg hn]
  rw [hg]
  generalize serveOne u (env 0).socket ((request d t p).take 16) = s at ho
  have fin : ∀ e fds, e < 2 ^ 32 → Says s.response e → takeResponse s.response fds = pick e fds := by
    intro e fds he hs
    obtain ⟨h1, h2, h3⟩ := says_fields s.response e he hs
    unfold takeResponse
    simp only []
    rw [if_neg (by omega), if_neg (by simp [h2]), h3]
  refine ⟨?_, ?_, ?_⟩
  · intro n hu hk
    rcases ho with ⟨h1, h2, _⟩ | ⟨_, _, ⟨n', g1, g2, g3, _⟩ | ⟨e, g1, _⟩⟩
    · rcases hu with hu | hu
      · rw [hu] at h1; simp at h1
      · exact absurd hu h2
    · rw [g1] at hk
      simp only [Sock.fd.injEq] at hk
      subst hk
      rw [fin 0 _ (by omega) g2, g3]; rfl
    · rw [g1] at hk; simp at hk
  · intro e hu hk h0 he
    rcases ho with ⟨h1, h2, _⟩ | ⟨_, _, ⟨n', g1, _⟩ | ⟨e', g1, g2, g3, _⟩⟩
    · rcases hu with hu | hu
      · rw [hu] at h1; simp at h1
      · exact absurd hu h2
    · rw [g1] at hk; simp at hk
    · rw [g1] at hk
      simp only [Sock.errno.injEq] at hk
      subst hk
      rw [fin e' _ he g2, g3]
      unfold pick
      rw [if_pos (by omega)]; rfl
  · intro hu hh
    rcases ho with ⟨_, _, _, g2, g3, _⟩ | ⟨h1, _⟩
    · rw [fin 1 _ (by omega) g2, g3]; rfl
    · rcases h1 with h1 | h1
      · rw [hu] at h1; simp at h1
      · exact absurd h1 hh

/-! ### Sockets -/

private theorem runCalls_spec (ok : Call → Bool) (cs : List Call) (last : Made) :
    ((∀ c, c ∈ cs → ok c = true) → runCalls ok cs last = { calls := cs ++ last.calls, ok := last.ok }) ∧
    ((∃ c, c ∈ cs ∧ ok c = false) → ∃ pre c post, cs = pre ++ c :: post ∧ (∀ x, x ∈ pre → ok x = true) ∧ ok c = false ∧ runCalls ok cs last = { calls := pre ++ [c, .close], ok := false }) := by
  induction cs with
  | nil => exact ⟨fun _ => rfl, by simp⟩
  | cons c cs ih =>
    simp only [runCalls]
    refine ⟨fun h => ?_, fun h => ?_⟩
    · rw [if_pos (h c (by simp)), ih.1 fun x hx => h x (by simp [hx])]; rfl
    · by_cases hc : ok c = true
      · obtain ⟨x, hx, hxf⟩ := h
        have hx' : x ∈ cs := by
          rcases List.mem_cons.mp hx with rfl | hx
          · rw [hc] at hxf; simp at hxf
          · exact hx
        obtain ⟨pre, y, post, e1, e2, e3, e4⟩ := ih.2 ⟨x, hx', hxf⟩
        refine ⟨c :: pre, y, post, by rw [e1]; rfl, ?_, e3, by rw [if_pos hc, e4]; rfl⟩
        intro z hz
        rcases List.mem_cons.mp hz with rfl | hz
        · exact hc
        · exact e2 z hz
      · rw [if_neg hc]
        exact ⟨[], c, cs, rfl, by simp, by simpa using hc, rfl⟩

/-- A socket made from a descriptor by the calls `cs`: either all of them succeed in this order, and so does the wrapping, or the first one that fails is the last;
in any case the descriptor itself is closed exactly once, at the very end. -/
def MadeBy (ok : Call → Bool) (cs : List Call) (m : Made) : Prop :=
  (m.ok = true ↔ ∀ c, c ∈ cs ++ [.wrap] → ok c = true) ∧
  ∃ done, m.calls = done ++ [.close] ∧ Call.close ∉ done ∧ done <+: cs ++ [.wrap] ∧ (m.ok = true → done = cs ++ [.wrap])

private theorem madeBy (ok : Call → Bool) (cs : List Call) (hc : Call.close ∉ cs) : MadeBy ok cs (runCalls ok cs (wrapUp ok)) := by
  obtain ⟨h1, h2⟩ := runCalls_spec ok cs (wrapUp ok)
  by_cases hall : ∀ c, c ∈ cs → ok c = true
  · rw [h1 hall]
    refine ⟨?_, cs ++ [.wrap], by simp [wrapUp], by simp [hc], List.prefix_refl _, fun _ => rfl⟩
    show ok .wrap = true ↔ _
    constructor
    · intro hw c hm
      rcases List.mem_append.mp hm with hm | hm
      · exact hall c hm
      · simp only [List.mem_singleton] at hm; subst hm; exact hw
    · intro h; exact h .wrap (by simp)
  · have hex : ∃ c, c ∈ cs ∧ ok c = false := by
      apply Classical.byContradiction
      intro hn
      apply hall
      intro c hm
      cases hk : ok c with
      | true => rfl
      | false => exact absurd ⟨c, hm, hk⟩ hn
    obtain ⟨pre, c, post, e1, e2, e3, e4⟩ := h2 hex
    rw [e4]
    refine ⟨?_, pre ++ [c], by simp, ?_, ?_, by simp⟩
    · simp only [Bool.false_eq_true, false_iff]
      intro h
      rw [h c (by rw [e1]; simp)] at e3
      simp at e3
    · rw [e1] at hc
      simp only [List.mem_append, List.mem_cons, not_or] at hc ⊢
      exact ⟨hc.1, hc.2.1, by simp⟩
    · rw [e1]; exact ⟨post ++ [.wrap], by simp⟩

/-- C58: a listening socket is set up completely (options, address reuse, IPv6 mode) before it is bound to the address and listens; the descriptor never leaks. -/
theorem listen_stream (ok : Call → Bool) (o : SocketOptions) (network : Str) (domain : Nat) (a : Addr) :
    MadeBy ok ((if o.mark > 0 then [.mark o.mark] else []) ++ (if o.device ≠ [] then [.device o.device] else []) ++ [.reuseAddr] ++
      (if domain = 10 then [.v6only (network.getLast? = some 54)] else []) ++ [.bind a, .listen]) (listenStream ok o network domain a) := by
  have hv : (networkIPVersion network = 6) ↔ network.getLast? = some 54 := by
    unfold networkIPVersion
    by_cases h4 : network.getLast? = some 52
    · rw [if_pos h4, h4]; decide
    · rw [if_neg h4]
      by_cases h6 : network.getLast? = some 54
      · rw [if_pos h6]; simp [h6]
      · rw [if_neg h6]; simp [h6]
  have e : setupCalls o domain network ++ [.bind a, .listen] = (if o.mark > 0 then [.mark o.mark] else []) ++ (if o.device ≠ [] then [.device o.device] else []) ++ [.reuseAddr] ++
      (if domain = 10 then [.v6only (network.getLast? = some 54)] else []) ++ [.bind a, .listen] := by
    unfold setupCalls optionCalls
    simp only [hv]
  unfold listenStream
  rw [e]
  apply madeBy
  by_cases h1 : o.mark > 0 <;> by_cases h2 : o.device ≠ [] <;> by_cases h3 : domain = 10 <;> simp [h1, h2, h3]

/-- C58: the same for a datagram socket -/
theorem listen_packet (ok : Call → Bool) (o : SocketOptions) (network : Str) (domain : Nat) (a : Addr) :
    MadeBy ok (setupCalls o domain network ++ [.bind a]) (listenPacket ok o network domain a) := by
  apply madeBy
  unfold setupCalls optionCalls
  by_cases h1 : o.mark > 0 <;> by_cases h2 : o.device ≠ [] <;> by_cases h3 : domain = afInet6 <;> simp [h1, h2, h3]

private theorem unspecified_iff (ip : Str) : isUnspecified ip = true ↔ ip ∈ [[0, 0, 0, 0], [0, 0, 0, 0, 0, 0, 0, 0, 0, 0, 255, 255, 0, 0, 0, 0], List.replicate 16 0] := by
  unfold isUnspecified to4
  have ne : ∀ x : Str, x.length ≠ ip.length → (ip = x ↔ False) := fun x h => ⟨fun e => h (e ▸ rfl), False.elim⟩
  by_cases h4 : ip.length = 4
  · simp only [if_pos h4, List.mem_cons, List.not_mem_nil, or_false, decide_eq_true_eq]
    rw [ne [0, 0, 0, 0, 0, 0, 0, 0, 0, 0, 255, 255, 0, 0, 0, 0] (by rw [h4]; decide), ne (List.replicate 16 0) (by rw [h4]; decide)]
    simp
  · rw [if_neg h4]
    simp only [List.mem_cons, List.not_mem_nil, or_false]
    rw [ne [0, 0, 0, 0] (fun h => h4 h.symm)]
    by_cases h : ip.length = 16 ∧ ip.take 12 = v4Prefix
    · rw [if_pos h]
      simp only [decide_eq_true_eq, false_or]
      have e : ip = v4Prefix ++ ip.drop 12 := by rw [← h.2, List.take_append_drop]
      constructor
      · intro hd; left; rw [e, hd]; rfl
      · rintro (rfl | rfl)
        · rfl
        · exact absurd h.2 (by decide)
    · rw [if_neg h]
      simp only [decide_eq_true_eq, false_or]
      constructor
      · exact .inr
      · rintro (rfl | h1)
        · exact absurd ⟨rfl, rfl⟩ h
        · exact h1

/-- C58: a connection has the socket options and the local address (if one is set and not the unspecified one) before it is connected to the remote address. -/
theorem dial (ok : Call → Bool) (o : SocketOptions) (localAddr : Option Str) (a : Addr) :
    MadeBy ok ((if o.mark > 0 then [.mark o.mark] else []) ++ (if o.device ≠ [] then [.device o.device] else []) ++
      (match localAddr with
        | none => []
        | some ip => if ip ∈ [[0, 0, 0, 0], [0, 0, 0, 0, 0, 0, 0, 0, 0, 0, 255, 255, 0, 0, 0, 0], List.replicate 16 0] then [] else [.bind (sockaddrFromIP ip 0).2]) ++ [.connect a]) (dialConn ok o localAddr a) := by
  have : MadeBy ok (optionCalls o ++ localCalls localAddr ++ [.connect a]) (dialConn ok o localAddr a) := by
    apply madeBy
    unfold optionCalls
    cases localAddr with
    | none => by_cases h1 : o.mark > 0 <;> by_cases h2 : o.device ≠ [] <;> simp [h1, h2, localCalls]
    | some ip => by_cases h1 : o.mark > 0 <;> by_cases h2 : o.device ≠ [] <;> by_cases h3 : isUnspecified ip = true <;> simp [h1, h2, h3, localCalls]
  cases localAddr with
  | none => exact this
  | some ip =>
    have e : localCalls (some ip) = if ip ∈ [[0, 0, 0, 0], [0, 0, 0, 0, 0, 0, 0, 0, 0, 0, 255, 255, 0, 0, 0, 0], List.replicate 16 0] then [] else [.bind (sockaddrFromIP ip 0).2] := by
      simp only [localCalls, unspecified_iff]
    rw [e] at this
    exact this

/-- The socket address is that of the host and port, the domain is the one of the address, and a network restricted to IPv4 or IPv6 gets no address of the other kind. -/
private theorem sockaddr_parts (lib : NetLib) (network address : Str) (domain : Nat) (a : Addr) (h : sockaddrFor lib network address = some (domain, a)) :
    ∃ host port ip n, Spec.Validate.HostPort address host port ∧ lib.atoi port = some n ∧ hostIP lib (networkIPVersion network) host = some ip ∧
      ((∃ ip4, to4 ip = some ip4 ∧ domain = 2 ∧ a = .inet4 ip4 n ∧ network.getLast? ≠ some 54) ∨
       (to4 ip = none ∧ domain = 10 ∧ a = .inet6 (in16 ((to16 ip).getD [])) n ∧ network.getLast? ≠ some 52)) := by
  unfold sockaddrFor at h
  cases hs : Validate.splitHostPort address with
  | none => rw [hs] at h; simp at h
  | some hp =>
    obtain ⟨host, port⟩ := hp
    rw [hs] at h
    simp only [] at h
    cases hn : lib.atoi port with
    | none => rw [hn] at h; simp at h
    | some n =>
      rw [hn] at h
      simp only [] at h
      cases hi : hostIP lib (networkIPVersion network) host with
      | none => rw [hi] at h; simp at h
      | some ip =>
        rw [hi] at h
        simp only [] at h
        split at h
        · simp at h
        · rename_i h4
          split at h
          · simp at h
          · rename_i h6
            refine ⟨host, port, ip, n, (Validate.split_host_port address host port).mp hs, hn, hi, ?_⟩
            simp only [Option.some.injEq, sockaddrFromIP] at h
            cases ht : to4 ip with
            | some ip4 =>
              rw [ht] at h h6
              simp only [Prod.mk.injEq] at h
              refine Or.inl ⟨ip4, rfl, h.1.symm, h.2.symm, fun hl => h6 ⟨?_, rfl⟩⟩
              unfold networkIPVersion
              rw [hl]; decide
            | none =>
              rw [ht] at h h4
              simp only [Prod.mk.injEq] at h
              refine Or.inr ⟨rfl, h.1.symm, h.2.symm, fun hl => h4 ⟨?_, rfl⟩⟩
              unfold networkIPVersion
              rw [hl]; decide

/-- C58: the socket address is that of the host and port: the unspecified address for no host, an address as such, else what a look-up found first. The domain is the one of the address, and
a network restricted to IPv4 or IPv6 gets no address of the other kind. -/
theorem sockaddr_for (lib : NetLib) (network address : Str) (domain : Nat) (a : Addr) (h : sockaddrFor lib network address = some (domain, a)) :
    ∃ host port ip n, Spec.Validate.HostPort address host port ∧ lib.atoi port = some n ∧
      ((host = [] ∧ ip = if network.getLast? = some 52 then [0, 0, 0, 0, 0, 0, 0, 0, 0, 0, 255, 255, 0, 0, 0, 0] else List.replicate 16 0) ∨ (host ≠ [] ∧ lib.parseIP host = some ip) ∨
       (host ≠ [] ∧ lib.parseIP host = none ∧
        ∃ rest, lib.lookup (if network.getLast? = some 52 then str "ip4" else if network.getLast? = some 54 then str "ip6" else str "ip") host = some (ip :: rest))) ∧
      ((∃ ip4, to4 ip = some ip4 ∧ domain = 2 ∧ a = .inet4 ip4 n ∧ network.getLast? ≠ some 54) ∨
       (to4 ip = none ∧ domain = 10 ∧ (ip.length = 16 → a = .inet6 ip n) ∧ network.getLast? ≠ some 52)) := by
  obtain ⟨host, port, ip, n, h1, h2, h3, h4⟩ := sockaddr_parts lib network address domain a h
  refine ⟨host, port, ip, n, h1, h2, ?_, ?_⟩
  · unfold hostIP networkIPVersion at h3
    by_cases hh : host = []
    · refine Or.inl ⟨hh, ?_⟩
      rw [if_pos hh] at h3
      cases h3
      by_cases h5 : network.getLast? = some 52
      · simp [h5, v4Prefix]
      · by_cases h6 : network.getLast? = some 54 <;> simp [h5, h6]
    · rw [if_neg hh] at h3
      cases hp : lib.parseIP host with
      | some x => rw [hp] at h3; cases h3; exact Or.inr (Or.inl ⟨hh, rfl⟩)
      | none =>
        rw [hp] at h3
        refine Or.inr (Or.inr ⟨hh, rfl, ?_⟩)
        by_cases h5 : network.getLast? = some 52
        · simp only [h5, if_true] at h3 ⊢
          split at h3
          · cases h3
          · cases h3
          · rename_i y rest hl; cases h3; exact ⟨_, hl⟩
        · by_cases h6 : network.getLast? = some 54
          · simp only [h5, h6, if_true, if_false] at h3 ⊢
            simp only [reduceCtorEq, if_false, Nat.reduceEqDiff, Option.some.injEq, (by decide : ¬ (54 : UInt8) = 52), if_true] at h3 ⊢
            split at h3
            · cases h3
            · cases h3
            · rename_i y rest hl; cases h3; exact ⟨_, hl⟩
          · simp only [h5, h6, if_false, Nat.reduceEqDiff] at h3 ⊢
            split at h3
            · cases h3
            · cases h3
            · rename_i y rest hl; cases h3; exact ⟨_, hl⟩
  · rcases h4 with h4 | ⟨ha, hb, hc, hd⟩
    · exact Or.inl h4
    · refine Or.inr ⟨ha, hb, fun hl => ?_, hd⟩
      rw [hc]
      simp [to16, hl, in16, List.take_append]

/-- C58: what the program asks a server for is always within the allow-list, so a restricted server suffices. -/
theorem own_requests_harmless (lib : NetLib) (network address : Str) (domain typ : Nat) (a : Addr) (h : sockaddrFor lib network address = some (domain, a))
    (ht : dialType network = some typ) : Harmless domain typ 0 ∧ Harmless domain 1 0 ∧ Harmless domain 2 0 := by
  obtain ⟨_, _, _, _, _, _, _, hx⟩ := sockaddr_for lib network address domain a h
  have hd : domain = 2 ∨ domain = 10 := by
    rcases hx with ⟨_, _, h, _⟩ | ⟨_, h, _⟩
    · exact Or.inl h
    · exact Or.inr h
  have h1 : Harmless domain 1 0 := ⟨hd, Or.inl ⟨⟨0, by simp, rfl⟩, Or.inl rfl⟩⟩
  have h2 : Harmless domain 2 0 := ⟨hd, Or.inr ⟨⟨0, by simp, rfl⟩, Or.inl rfl⟩⟩
  refine ⟨?_, h1, h2⟩
  unfold dialType at ht
  split at ht
  · simp only [Option.some.injEq] at ht; subst ht; exact h1
  · split at ht
    · simp only [Option.some.injEq] at ht; subst ht; exact h2
    · simp at ht

/-! ### Examples -/

private def exEnv : Nat → Env := fun k => { socket := fun d t p => if d = 10 then .errno 97 else .fd (100 + k) }
example : handle false exEnv 0 [request 2 1 0, request 10 2 17, request 1 1 0, request 2 3 255, str "hello", request 2 1 0] =
    [{ asked := some (2, 0x80001, 0), response := response 0, fd := some 100, closed := [100] }, { asked := some (10, 0x80002, 17), response := response 97, fd := none, closed := [] },
     { asked := none, response := response 1, fd := none, closed := [] }, { asked := none, response := response 1, fd := none, closed := [] }] := by decide +kernel
example : Harmless 2 0x80801 6 := ⟨by simp, Or.inl ⟨⟨0x80800, by simp, rfl⟩, Or.inr rfl⟩⟩
example : getFd (exchange false exEnv (· + 5)) 2 2 0 = { fd := some 105, closed := [] } ∧ getFd (exchange false exEnv (· + 5)) 1 2 0 = { fd := none, closed := [] } := by decide +kernel
example : ∀ e, ¬ ∃ rest, str "XS0" = str "XS02" ++ beBytes 4 e ++ rest := by
  rintro e ⟨rest, h⟩
  have := congrArg List.length h
  simp [length_beBytes, str] at this

end Verif.Props.Xsocket
