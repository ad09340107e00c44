import Verif.Props.DnssecChain
import Verif.Props.DnssecJoin
/-
C47, continued: concrete validations, to show that the hypotheses of the theorems are met and to exhibit what is accepted although it should not be.
-/
set_option linter.unusedVariables false
set_option maxRecDepth 100000
namespace Verif.Props.Dnssec
open Verif Verif.Dnssec Verif.DnssecSpec

/-! ### A program run alone is one of the interleavings -/

theorem Reach.trans {C : Crypto} {s0 s1 s2 : Sys} (h1 : Sys.Reach C s0 s1) (h2 : Sys.Reach C s1 s2) : Sys.Reach C s0 s2 := by
  induction h2 with
  | refl => exact h1
  | step _ hs ih => exact .step ih hs

theorem run_reach {C : Crypto} {R : Nat → Str → Nat → Reply} {K : Nat → Int} {P : List RKey → List RKey} (hK : ∀ i : Nat, K i ≤ K (i + 1)) (hP : ∀ l : List RKey, (P l).Perm l)
    {p : Prog (Except VErr Unit)} {st st' : Store} {q c : Nat} {x : Except VErr Unit} (h : run R K P p st q c = some (x, st'))
    {now start : Int} {m : SMsg} {calls : List Call} (hnow : now ≤ K c) :
    ∃ now' : Int, now ≤ now' ∧ Sys.Reach C ⟨st, now, calls ++ [⟨start, m, p⟩]⟩ ⟨st', now', calls ++ [⟨start, m, .ret x⟩]⟩ := by
  induction p generalizing st q c now with
  | ret a => simp only [run, Option.some.injEq, Prod.mk.injEq] at h; obtain ⟨rfl, rfl⟩ := h; exact ⟨now, Int.le_refl _, .refl⟩
  | panic => simp [run] at h
  | clock k ih =>
    obtain ⟨n', h1, h2⟩ := ih (K c) (by simpa [run] using h) (now := K c) (hK c)
    refine ⟨n', Int.le_trans hnow h1, Reach.trans (.step .refl ?_) h2⟩
    have := Sys.Step.step (C := C) (s := ⟨st, now, calls ++ [⟨start, m, .clock k⟩]⟩) (i := calls.length) (c := ⟨start, m, .clock k⟩) (by simp) (.clock hnow)
    simpa using this
  | query n ty k ih =>
    obtain ⟨n', h1, h2⟩ := ih (R q n ty) (by simpa [run] using h) (now := now) hnow
    refine ⟨n', h1, Reach.trans (.step .refl ?_) h2⟩
    have := Sys.Step.step (C := C) (s := ⟨st, now, calls ++ [⟨start, m, .query n ty k⟩]⟩) (i := calls.length) (c := ⟨start, m, .query n ty k⟩) (by simp) (.query (R q n ty))
    simpa using this
  | order l k ih =>
    obtain ⟨n', h1, h2⟩ := ih (P l) (by simpa [run] using h) (now := now) hnow
    refine ⟨n', h1, Reach.trans (.step .refl ?_) h2⟩
    have := Sys.Step.step (C := C) (s := ⟨st, now, calls ++ [⟨start, m, .order l k⟩]⟩) (i := calls.length) (c := ⟨start, m, .order l k⟩) (by simp) (.order (hP l))
    simpa using this
  | getKeys z k ih =>
    obtain ⟨n', h1, h2⟩ := ih (st.keys z) (by simpa [run] using h) (now := now) hnow
    refine ⟨n', h1, Reach.trans (.step .refl ?_) h2⟩
    have := Sys.Step.step (C := C) (s := ⟨st, now, calls ++ [⟨start, m, .getKeys z k⟩]⟩) (i := calls.length) (c := ⟨start, m, .getKeys z k⟩) (by simp) .getKeys
    simpa using this
  | putKeys z ks k ih =>
    obtain ⟨n', h1, h2⟩ := ih (by simpa [run] using h) (now := now) hnow
    refine ⟨n', h1, Reach.trans (.step .refl ?_) h2⟩
    have := Sys.Step.step (C := C) (s := ⟨st, now, calls ++ [⟨start, m, .putKeys z ks k⟩]⟩) (i := calls.length) (c := ⟨start, m, .putKeys z ks k⟩) (by simp) .putKeys
    simpa using this
  | getDS z k ih =>
    obtain ⟨n', h1, h2⟩ := ih (st.ds z) (by simpa [run] using h) (now := now) hnow
    refine ⟨n', h1, Reach.trans (.step .refl ?_) h2⟩
    have := Sys.Step.step (C := C) (s := ⟨st, now, calls ++ [⟨start, m, .getDS z k⟩]⟩) (i := calls.length) (c := ⟨start, m, .getDS z k⟩) (by simp) .getDS
    simpa using this

/-- A validation run alone, as a reachable state of the validator -/
theorem run_validate {C : Crypto} {R : Nat → Str → Nat → Reply} {K : Nat → Int} {P : List RKey → List RKey} (hK : ∀ i : Nat, K i ≤ K (i + 1)) (hP : ∀ l : List RKey, (P l).Perm l)
    {st st' : Store} {x : Except VErr Unit} {m : SMsg} (h : run R K P (validate C m) st 0 0 = some (x, st')) :
    ∃ now : Int, Sys.Reach C ⟨st, K 0, []⟩ ⟨st', now, [⟨K 0, m, .ret x⟩]⟩ := by
  obtain ⟨now, _, h2⟩ := run_reach (calls := []) (start := K 0) (m := m) hK hP h (Int.le_refl _)
  refine ⟨now, Reach.trans (.step .refl ?_) h2⟩
  exact Sys.Step.call (Int.le_refl _)

/-! ### A small world: the root and `com.` are signed, an attacker has a key -/

private def hd (n : String) : Hdr := { name := str n, cls := 1, ttl := 100 }
private def rootKsk : Key := { hdr := hd ".", flags := 257, key := str "R" }
private def rootZsk : Key := { hdr := hd ".", flags := 256, key := str "r" }
private def comKsk : Key := { hdr := hd "com.", flags := 257, key := str "C" }
private def comZsk : Key := { hdr := hd "com.", flags := 256, key := str "c" }
private def evilKsk : Key := { hdr := hd "victim.com.", flags := 257, key := str "E" }
private def evilZsk : Key := { hdr := hd "victim.com.", flags := 256, key := str "e" }

private def sigFor (owner signer : String) (covered : Nat) (key : String) (expires : Nat := 1000) : Sig :=
  { hdr := hd owner, covered := covered, signer := str signer, signature := str key, expiration := expires }

private def rootDs : Ds := { hdr := hd ".", digest := str "dR" }
private def comDs : Ds := { hdr := hd "com.", digest := str "dC" }
/-- Registered in `com.` by the owner of `attacker.com.`: the digest is that of a key named `victim.com.` -/
private def attackerDs : Ds := { hdr := hd "attacker.com.", digest := str "dE" }

private def rootKeys : List Key := [rootZsk, rootKsk]
private def comKeys : List Key := [comZsk, comKsk]
private def evilKeys : List Key := [evilZsk, evilKsk]
private def wwwA : Rec := .other (hd "www.com.") 1 (str "1.2.3.4")
private def victimA : Rec := .other (hd "victim.com.") 1 (str "6.6.6.6")
private def noDsNsec : Rec := .nsec { hdr := hd "plain.com.", next := str "z.com.", types := [2, 47] }
private def plainA : Rec := .other (hd "plain.com.") 1 (str "1.1.1.1")

/-- A signature is the name of the key; `sets` is what was signed with which key -/
private def toyCrypto (sets : List (Str × List Rec)) : Crypto where
  lib := ⟨fun _ _ _ _ => [], false⟩
  keyTag := fun _ => 0
  toDS := fun k _ => if k = rootKsk then some (str "dR") else if k = comKsk then some (str "dC") else if k = evilKsk then some (str "dE") else none
  inPeriod := fun s t => decide ((s.inception : Int) ≤ t) && decide (t ≤ (s.expiration : Int) * 1000000000)
  check := fun s k l => decide (s.signature = k.key) && decide ((k.key, l) ∈ sets)

private def honestSets : List (Str × List Rec) :=
  [(str "R", rootKeys.map .dnskey), (str "r", [.ds comDs]), (str "C", comKeys.map .dnskey), (str "c", [wwwA]), (str "c", [noDsNsec])]

private def world (extra : Str → Nat → Option SMsg) (_ : Nat) (name : Str) (qtype : Nat) : Reply :=
  match extra name qtype with
  | some m => .msg m
  | none =>
    if name = str "." ∧ qtype = 48 then .msg { answer := [.dnskey rootZsk, .dnskey rootKsk, .rrsig (sigFor "." "." 48 "R")] }
    else if name = str "com." ∧ qtype = 48 then .msg { answer := [.dnskey comZsk, .dnskey comKsk, .rrsig (sigFor "com." "com." 48 "C")] }
    else if name = str "com." ∧ qtype = 43 then .msg { answer := [.ds comDs, .rrsig (sigFor "com." "." 43 "r")] }
    else if name = str "plain.com." ∧ qtype = 43 then .msg { ns := [noDsNsec, .rrsig (sigFor "plain.com." "com." 47 "c")] }
    else .msg {}

private def anchored : Store := { Store.empty with ds := fun z => if z = str "." then some ⟨100000000000, [rootDs]⟩ else none }

private def good : SMsg := { question := some (str "www.com.", 1), answer := [wwwA, .rrsig (sigFor "www.com." "com." 1 "c")] }

private def verdict (x : Option (Except VErr Unit × Store)) : Option (Except VErr Unit) := x.map (·.1)

instance : DecidableEq (Except VErr Unit)
  | .ok _, .ok _ => isTrue rfl
  | .error a, .error b => if h : a = b then isTrue (by rw [h]) else isFalse (by simp [h])
  | .ok _, .error _ => isFalse (by simp)
  | .error _, .ok _ => isFalse (by simp)

private theorem good_runs : verdict (run (world fun _ _ => none) (fun _ => 5) id (validate (toyCrypto honestSets) good) anchored 0 0) = some (.ok ()) := by
  decide +kernel

private theorem plain_runs : verdict (run (world fun _ _ => none) (fun _ => 5) id (validate (toyCrypto honestSets) { answer := [plainA] }) anchored 0 0)
    = some (.error .insecure) := by
  decide +kernel

private theorem anchored_fresh : Fresh ⟨anchored, 5, []⟩ [rootDs] := by
  refine ⟨fun _ => rfl, ?_, rfl⟩
  intro x hx d hd
  simp only [anchored] at hx
  rw [if_pos (by decide)] at hx
  simp only [Option.some.injEq] at hx
  subst hx
  exact hd

private theorem wire_of_labels {s : String} (n : Name) (h : present n = str s) (hn : ∀ l ∈ n, l ≠ []) : WireName (str s) := ⟨n, hn, h.symm⟩

private theorem good_wire : WireMsg good := by
  refine ⟨?_, ?_, ?_⟩
  · intro q hq
    simp only [good, Option.mem_def, Option.some.injEq] at hq
    subst hq
    exact wire_of_labels [str "www", str "com"] (by decide) (by decide)
  · intro r hr
    simp only [good, List.append_nil, List.mem_cons, List.not_mem_nil, or_false] at hr
    rcases hr with rfl | rfl <;> exact wire_of_labels [str "www", str "com"] (by decide) (by decide)
  · intro s hs
    simp only [good, List.append_nil, List.mem_cons, List.not_mem_nil, or_false, wwwA, reduceCtorEq, false_or, Rec.rrsig.injEq] at hs
    subst hs
    exact wire_of_labels [str "com"] (by decide) (by decide)

/-- The hypotheses of `validated_answers_signed` are met by a validation of `www.com.` -/
example : ∃ (s : Sys) (c : Call), Sys.Reach (toyCrypto honestSets) ⟨anchored, 5, []⟩ s ∧ (∀ c ∈ s.calls, WireMsg c.msg) ∧ c ∈ s.calls
    ∧ c.prog = .ret (.ok ()) ∧ c.msg.answer = [wwwA, .rrsig (sigFor "www.com." "com." 1 "c")] ∧ Fresh ⟨anchored, 5, []⟩ [rootDs] := by
  cases h : run (world fun _ _ => none) (fun _ => 5) id (validate (toyCrypto honestSets) good) anchored 0 0 with
  | none => have := good_runs; rw [h] at this; simp [verdict] at this
  | some x =>
    obtain ⟨x, st'⟩ := x
    have hx := good_runs
    rw [h] at hx
    simp only [verdict, Option.map_some, Option.some.injEq] at hx
    subst hx
    obtain ⟨now, hr⟩ := run_validate (fun _ => Int.le_refl _) (fun l => List.Perm.refl l) h
    exact ⟨_, ⟨5, good, .ret (.ok ())⟩, hr, by intro c hc; simp only [List.mem_singleton] at hc; subst hc; exact good_wire, by simp, rfl, rfl, anchored_fresh⟩

/-- The records of the pipeline, as the validator sees them in this world -/
private def toyRec (r : RR) : Rec :=
  if r.rtype = 46 then .rrsig { sigFor "www.com." "com." 1 "c" with hdr := { name := r.name, cls := 1, ttl := 100 } } else .other { name := r.name, cls := 1, ttl := 100 } r.rtype (str "1.2.3.4")

private theorem toy_faithful : Verif.Spec.DnssecJoin.Faithful toyRec := by
  refine ⟨?_, ?_, ?_⟩
  · intro r; unfold toyRec; split <;> rfl
  · intro r
    unfold toyRec
    split
    · rename_i h; rw [h]; rfl
    · rfl
  · intro r h; exact ⟨_, by unfold toyRec; rw [if_pos h]⟩

private def goodMsg : Msg :=
  { question := [{ name := str "www.com.", qtype := 1, qclass := 1 }]
    answer := [{ name := str "www.com.", rtype := 1, cls := 1, ttl := 100, data := .other [] }, { name := str "www.com.", rtype := 46, cls := 1, ttl := 100, data := .other [] }] }

/-- The hypotheses of `DnssecJoin.client_gets` are met by the same validation: this client gets the address, with AD set and without the signature. -/
example : ∃ (s : Sys) (c : Call) (m : Msg), Sys.Reach (toyCrypto honestSets) ⟨anchored, 5, []⟩ s ∧ (∀ c ∈ s.calls, WireMsg c.msg) ∧ c ∈ s.calls
    ∧ c.prog = .ret (.ok ()) ∧ Verif.Spec.DnssecJoin.Sees toyRec goodMsg c.msg ∧ Fresh ⟨anchored, 5, []⟩ [rootDs]
    ∧ DnssecResolver.resolve false (fun _ => DnssecJoin.verdictOf (.ok ())) (fun _ _ => .ok goodMsg) { question := goodMsg.question } {} = some (.ok m)
    ∧ m.ad = true ∧ m.answer = [{ name := str "www.com.", rtype := 1, cls := 1, ttl := 100, data := .other [] }] := by
  cases h : run (world fun _ _ => none) (fun _ => 5) id (validate (toyCrypto honestSets) good) anchored 0 0 with
  | none => have := good_runs; rw [h] at this; simp [verdict] at this
  | some x =>
    obtain ⟨x, st'⟩ := x
    have hx := good_runs
    rw [h] at hx
    simp only [verdict, Option.map_some, Option.some.injEq] at hx
    subst hx
    obtain ⟨now, hr⟩ := run_validate (fun _ => Int.le_refl _) (fun l => List.Perm.refl l) h
    exact ⟨_, ⟨5, good, .ret (.ok ())⟩, _, hr, by intro c hc; simp only [List.mem_singleton] at hc; subst hc; exact good_wire, by simp, rfl,
      ⟨rfl, rfl, by decide, rfl⟩, anchored_fresh, rfl, rfl, by decide⟩

private def owner (z : Str) (k : Key) : Prop := (z = str "." ∧ k ∈ rootKeys) ∨ (z = str "com." ∧ k ∈ comKeys)
private def published (z : Str) (l : List Rec) : Prop :=
  (z = str "." ∧ ((str "R", l) ∈ honestSets ∨ (str "r", l) ∈ honestSets)) ∨ (z = str "com." ∧ ((str "C", l) ∈ honestSets ∨ (str "c", l) ∈ honestSets))

private theorem honest_ds {D : List Ds} {z : Str} (h : published z (D.map .ds)) : D = [comDs] := by
  have key : ∀ p ∈ honestSets, p.2 = D.map Rec.ds → D = [comDs] := by
    intro p hp he
    cases D with
    | nil => simp only [honestSets, List.mem_cons, List.not_mem_nil, or_false] at hp; rcases hp with rfl | rfl | rfl | rfl | rfl <;> simp [rootKeys, comKeys] at he
    | cons d ds =>
      simp only [honestSets, List.mem_cons, List.not_mem_nil, or_false] at hp
      rcases hp with rfl | rfl | rfl | rfl | rfl <;> simp [rootKeys, comKeys, wwwA, noDsNsec] at he
      obtain ⟨rfl, rfl⟩ := he
      rfl
  rcases h with ⟨_, h | h⟩ | ⟨_, h | h⟩ <;> exact key _ h rfl

/-- ... and this world is an honest one: the hypotheses of `validated_is_published` are met, too -/
private theorem toy_honest : Honest (toyCrypto honestSets) [rootDs] owner published := by
  have hds : ∀ {k : Key} {D : List Ds} {d : Ds}, HasDs (toyCrypto honestSets) k D → D = [d] →
      ∃ x : Str, (toyCrypto honestSets).toDS k d.digestType = some x ∧ equalFold x d.digest = true := by
    rintro k D d ⟨d', hd', hx⟩ rfl
    simp only [List.mem_singleton] at hd'
    subst hd'
    exact hx
  refine ⟨?_, ?_, ?_, ?_⟩
  · intro k _ h
    obtain ⟨x, hx, he⟩ := hds h rfl
    simp only [toyCrypto] at hx
    split at hx
    · rename_i hk; subst hk; exact .inl ⟨rfl, by simp [rootKeys]⟩
    · split at hx
      · simp only [Option.some.injEq] at hx; subst hx; exact absurd he (by decide)
      · split at hx
        · simp only [Option.some.injEq] at hx; subst hx; exact absurd he (by decide)
        · simp at hx
  · intro z k s l ho hch
    simp only [toyCrypto, Bool.and_eq_true, decide_eq_true_eq] at hch
    rcases ho with ⟨rfl, hk⟩ | ⟨rfl, hk⟩
    · simp only [rootKeys, List.mem_cons, List.not_mem_nil, or_false] at hk
      rcases hk with rfl | rfl
      · exact .inl ⟨rfl, .inr hch.2⟩
      · exact .inl ⟨rfl, .inl hch.2⟩
    · simp only [comKeys, List.mem_cons, List.not_mem_nil, or_false] at hk
      rcases hk with rfl | rfl
      · exact .inr ⟨rfl, .inr hch.2⟩
      · exact .inr ⟨rfl, .inl hch.2⟩
  · intro z D k hp h
    have hD := honest_ds hp
    obtain ⟨x, hx, he⟩ := hds h hD
    simp only [toyCrypto] at hx
    split at hx
    · simp only [Option.some.injEq] at hx; subst hx; exact absurd he (by decide)
    · split at hx
      · rename_i hk; subst hk; exact .inr ⟨by decide, by simp [comKeys]⟩
      · split at hx
        · simp only [Option.some.injEq] at hx; subst hx; exact absurd he (by decide)
        · simp at hx
  · intro z keys k hp hk
    have key : ∀ p ∈ honestSets, p.2 = keys.map Rec.dnskey → (p.1 = str "R" ∧ keys = rootKeys) ∨ (p.1 = str "C" ∧ keys = comKeys) := by
      intro p hp he
      have hinj : ∀ l : List Key, l.map Rec.dnskey = keys.map Rec.dnskey → keys = l := by
        intro l hl
        exact ((List.map_inj_right (fun _ _ h => by simpa using h)).mp hl).symm
      simp only [honestSets, List.mem_cons, List.not_mem_nil, or_false] at hp
      rcases hp with rfl | rfl | rfl | rfl | rfl
      · exact .inl ⟨rfl, hinj _ he⟩
      · exfalso; cases keys <;> simp at he
      · exact .inr ⟨rfl, hinj _ he⟩
      · exfalso; cases keys <;> simp [wwwA] at he
      · exfalso; cases keys <;> simp [noDsNsec] at he
    rcases hp with ⟨rfl, h | h⟩ | ⟨rfl, h | h⟩ <;> rcases key _ h rfl with ⟨hs, rfl⟩ | ⟨hs, rfl⟩
    · exact .inl ⟨rfl, hk⟩
    · exact absurd hs (by decide)
    · exact absurd hs (by decide)
    · exact absurd hs (by decide)
    · exact absurd hs (by decide)
    · exact .inr ⟨rfl, hk⟩
    · exact absurd hs (by decide)
    · exact absurd hs (by decide)

/-- An unsigned answer of an unsigned delegation, an unsigned one of a signed zone, and a forged one -/
example : verdict (run (world fun _ _ => none) (fun _ => 5) id (validate (toyCrypto honestSets) { answer := [plainA] }) anchored 0 0) = some (.error .insecure)
    ∧ verdict (run (world fun _ _ => none) (fun _ => 5) id (validate (toyCrypto honestSets) { answer := [wwwA] }) anchored 0 0) = some (.error .bogusDenial)
    ∧ verdict (run (world fun _ _ => none) (fun _ => 5) id (validate (toyCrypto honestSets)
        { answer := [.other (hd "www.com.") 1 (str "6.6.6.6"), .rrsig (sigFor "www.com." "com." 1 "c")] }) anchored 0 0) = some (.error .sigInvalid) := by
  decide +kernel

/-! ### Findings -/

/-- Finding (C47): the owner name of DS records is not checked. In this world, `com.` has signed only DS records of `com.`'s own choice: its key set, and the DS record
that the owner of `attacker.com.` registered for their own domain, with the digest of a key whose name is `victim.com.`. When that record set is sent in
response to the query for the DS records of `victim.com.`, the attacker's keys are taken for those of `victim.com.`, and a forged address is validated. -/
theorem ds_owner_ignored :
    let sets := [(str "R", rootKeys.map .dnskey), (str "r", [.ds comDs]), (str "C", comKeys.map .dnskey), (str "c", [.ds attackerDs]),
      (str "E", evilKeys.map .dnskey), (str "e", [victimA])]
    let evil : Str → Nat → Option SMsg := fun n t =>
      if n = str "victim.com." ∧ t = 43 then some { answer := [.ds attackerDs, .rrsig (sigFor "attacker.com." "com." 43 "c")] }
      else if n = str "victim.com." ∧ t = 48 then some { answer := [.dnskey evilZsk, .dnskey evilKsk, .rrsig (sigFor "victim.com." "victim.com." 48 "E")] }
      else none
    attackerDs.hdr.name = str "attacker.com."
    ∧ verdict (run (world evil) (fun _ => 5) id
        (validate (toyCrypto sets) { question := some (str "victim.com.", 1), answer := [victimA, .rrsig (sigFor "victim.com." "victim.com." 1 "e")] }) anchored 0 0)
      = some (.ok ()) := by
  decide +kernel

/-- Finding (C47): the verdict on a response depends on the order in which Go iterates over a map: an answer with an unsigned record of an unsigned zone and a forged
record is "insecure" (and passed on) if the former happens to be looked at first, and bogus otherwise. -/
theorem verdict_depends_on_map_order :
    verdict (run (world fun _ _ => none) (fun _ => 5) id (validate (toyCrypto honestSets) { answer := [plainA, victimA] }) anchored 0 0) = some (.error .insecure)
    ∧ verdict (run (world fun _ _ => none) (fun _ => 5) List.reverse (validate (toyCrypto honestSets) { answer := [plainA, victimA] }) anchored 0 0)
      = some (.error .bogusDenial) := by
  decide +kernel

/-- Finding (C47): keys are kept for the TTL of the DNSKEY records, which the upstream resolver sets, also after the signature on them expired: here the
signatures on keys and DS records expire after one second, and the keys are used for 99 more seconds. -/
theorem keys_outlive_signatures :
    let short : Str → Nat → Option SMsg := fun n t =>
      if n = str "." ∧ t = 48 then some { answer := [.dnskey rootZsk, .dnskey rootKsk, .rrsig (sigFor "." "." 48 "R" 1)] }
      else if n = str "com." ∧ t = 48 then some { answer := [.dnskey comZsk, .dnskey comKsk, .rrsig (sigFor "com." "com." 48 "C" 1)] }
      else if n = str "com." ∧ t = 43 then some { answer := [.ds comDs, .rrsig (sigFor "com." "." 43 "r" 1)] }
      else none
    verdict ((run (world short) (fun _ => 5) id (validate (toyCrypto honestSets) good) anchored 0 0).bind fun r =>
      run (world short) (fun _ => 99000000000) id (validate (toyCrypto honestSets) good) r.2 0 0) = some (.ok ())
    ∧ verdict (run (world short) (fun _ => 99000000000) id (validate (toyCrypto honestSets) good) anchored 0 0) = some (.error .sigInvalid) := by
  decide +kernel

end Verif.Props.Dnssec
