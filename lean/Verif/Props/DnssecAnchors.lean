import Verif.Props.DnssecRuns
/-
C47, continued: trust anchors for names other than the root have no effect.
-/
set_option linter.unusedVariables false
namespace Verif.Props.Dnssec
open Verif Verif.Dnssec Verif.DnssecSpec

/-- The program asks the store for DS records of the root only -/
def RootOnly {α : Type} : Prog α → Prop
  | .ret _ => True
  | .panic => True
  | .clock k => ∀ t : Int, RootOnly (k t)
  | .query _ _ k => ∀ r : Reply, RootOnly (k r)
  | .order _ k => ∀ l : List RKey, RootOnly (k l)
  | .getKeys _ k => ∀ r : Option KeySet, RootOnly (k r)
  | .putKeys _ _ k => RootOnly k
  | .getDS z k => z = root ∧ ∀ r : Option DsSet, RootOnly (k r)

theorem RootOnly.bind {α β : Type} {p : Prog α} {f : α → Prog β} (hp : RootOnly p) (hf : ∀ x : α, RootOnly (f x)) : RootOnly (p.bind f) := by
  induction p with
  | ret a => exact hf a
  | panic => trivial
  | clock k ih => exact fun t => ih t (hp t)
  | query n ty k ih => exact fun r => ih r (hp r)
  | order l k ih => exact fun l' => ih l' (hp l')
  | getKeys z k ih => exact fun r => ih r (hp r)
  | putKeys z ks k ih => exact ih hp
  | getDS z k ih => exact ⟨hp.1, fun r => ih r (hp.2 r)⟩

theorem anySig_rootOnly {C : Crypto} {keys : List Key} {l : List Rec} : ∀ sigs : List Sig, RootOnly (anySigVerifies C keys l sigs)
  | [] => trivial
  | s :: rest => by
    intro t
    show RootOnly (match verifyRRSIG C s keys l t with | .ok _ => .ret true | .error _ => anySigVerifies C keys l rest)
    cases verifyRRSIG C s keys l t
    · exact anySig_rootOnly rest
    · trivial

theorem getDNSKEY_rootOnly (z : Str) : RootOnly (getDNSKEY z) := by
  intro r
  cases r
  · trivial
  · intro t; simp only; split <;> trivial

theorem getDS_rootOnly : RootOnly (getDS root) := by
  refine ⟨by decide, fun r => ?_⟩
  cases r
  · trivial
  · intro t; simp only; split <;> trivial

theorem lookupDNSKEY_rootOnly (z : Str) : RootOnly (lookupDNSKEY z) := by
  intro r
  cases r
  · trivial
  · trivial
  · simp only; split <;> trivial

theorem lookupDS_rootOnly (z : Str) : RootOnly (lookupDS z) := by
  intro r
  cases r
  · trivial
  · trivial
  · simp only; split <;> trivial

theorem checkDS_rootOnly {C : Crypto} (z : Str) (ds : List Ds) (sigs : List Sig) (ns : List Rec) (keys : List Key) : RootOnly (checkDS C z ds sigs ns keys) := by
  unfold checkDS
  split
  · intro t; simp only; split <;> trivial
  · split
    · trivial
    · exact (anySig_rootOnly _).bind fun x => by split <;> trivial

theorem acceptKeys_rootOnly {C : Crypto} (z : Str) (zsk ksk : List Key) (sigs : List Sig) (ds : List Ds) : RootOnly (acceptKeys C z zsk ksk sigs ds) := by
  unfold acceptKeys
  simp only
  split
  · trivial
  · refine (anySig_rootOnly _).bind fun x => ?_
    split
    · trivial
    · split
      · exact RootOnly.bind (fun t => trivial) fun _ => trivial
      · trivial

theorem buildChain_rootOnly {C : Crypto} : ∀ (fuel : Nat) (z : Str), RootOnly (buildChain C fuel z)
  | 0, _ => trivial
  | fuel + 1, z => by
    unfold buildChain
    simp only
    refine (getDNSKEY_rootOnly _).bind fun cached => ?_
    split
    · trivial
    · refine (lookupDNSKEY_rootOnly _).bind fun r => ?_
      cases r with
      | error e => trivial
      | ok r =>
        simp only
        split
        · trivial
        · split
          · refine getDS_rootOnly.bind fun ds => ?_
            split
            · trivial
            · exact acceptKeys_rootOnly _ _ _ _ _
          · refine (lookupDS_rootOnly _).bind fun r => ?_
            cases r with
            | error e => trivial
            | ok r =>
              refine (buildChain_rootOnly fuel _).bind fun p => ?_
              cases p with
              | error e => trivial
              | ok p =>
                refine (checkDS_rootOnly _ _ _ _ _).bind fun r => ?_
                cases r with
                | error e => trivial
                | ok ds => exact acceptKeys_rootOnly _ _ _ _ _

theorem proveNoDS_rootOnly {C : Crypto} (z : Str) : RootOnly (proveNoDS C z) := by
  unfold proveNoDS
  refine (lookupDS_rootOnly _).bind fun r => ?_
  cases r with
  | error e => trivial
  | ok r =>
    simp only
    split
    · trivial
    · refine (buildChain_rootOnly _ _).bind fun p => ?_
      cases p with
      | error e => simp only; split <;> trivial
      | ok p => intro t; simp only; split <;> trivial

theorem proveNoDSAny_rootOnly {C : Crypto} : ∀ l : List Str, RootOnly (proveNoDSAny C l)
  | [] => trivial
  | z :: rest => by
    unfold proveNoDSAny
    refine (proveNoDS_rootOnly z).bind fun r => ?_
    cases r with
    | error e => trivial
    | ok b =>
      cases b
      · exact proveNoDSAny_rootOnly rest
      · trivial

theorem checkInsecure_rootOnly {C : Crypto} (n : Str) : RootOnly (checkInsecure C n) := by
  unfold checkInsecure
  simp only
  split
  · trivial
  · exact proveNoDSAny_rootOnly _

theorem trySigs_rootOnly {C : Crypto} {o : Str} {l : List Rec} : ∀ (last : Except VErr Unit) (sigs : List Sig), RootOnly (trySigs C o l last sigs)
  | _, [] => trivial
  | _, s :: rest => by
    unfold trySigs
    simp only
    split
    · exact trySigs_rootOnly _ rest
    · refine (buildChain_rootOnly _ _).bind fun r => ?_
      cases r with
      | error e => exact trySigs_rootOnly _ rest
      | ok r =>
        intro t
        simp only
        split
        · exact trySigs_rootOnly _ rest
        · trivial

theorem signedFromAncestor_rootOnly {C : Crypto} {q : Str} {l : List Rec} : ∀ sigs : List Sig, RootOnly (signedFromAncestor C l q sigs)
  | [] => trivial
  | s :: rest => by
    unfold signedFromAncestor
    simp only
    split
    · exact signedFromAncestor_rootOnly rest
    · refine (buildChain_rootOnly _ _).bind fun r => ?_
      cases r with
      | error e => exact signedFromAncestor_rootOnly rest
      | ok r =>
        intro t
        simp only
        split
        · trivial
        · exact signedFromAncestor_rootOnly rest

theorem validateSets_rootOnly {C : Crypto} {l : List Rec} : ∀ keys : List RKey, RootOnly (validateSets C l keys)
  | [] => trivial
  | k :: rest => by
    unfold validateSets
    simp only
    split
    · refine (checkInsecure_rootOnly _).bind fun r => ?_
      cases r <;> trivial
    · refine RootOnly.bind (trySigs_rootOnly _ _) fun r => ?_
      cases r
      · trivial
      · exact validateSets_rootOnly rest

theorem collect_rootOnly {C : Crypto} {l : List Rec} {q : Str} : ∀ keys : List RKey, RootOnly (collect C l q keys)
  | [] => trivial
  | k :: rest => by
    unfold collect
    split
    · exact collect_rootOnly rest
    · refine (signedFromAncestor_rootOnly _).bind fun ok => ?_
      refine (collect_rootOnly rest).bind fun r => ?_
      split <;> trivial

theorem validate_rootOnly {C : Crypto} (m : SMsg) : RootOnly (validate C m) := by
  unfold validate
  split
  · unfold validateDenial
    split
    · trivial
    · intro keys
      refine (collect_rootOnly _).bind fun l => ?_
      split
      · trivial
      · split
        · trivial
        · refine (checkInsecure_rootOnly _).bind fun r => ?_
          cases r <;> trivial
  · exact fun keys => validateSets_rootOnly keys

theorem run_rootOnly {α : Type} {R : Nat → Str → Nat → Reply} {K : Nat → Int} {P : List RKey → List RKey} {p : Prog α} (hp : RootOnly p)
    {st st2 : Store} (hk : st.keys = st2.keys) (hd : st.ds root = st2.ds root) (q c : Nat) :
    (run R K P p st q c).map (fun r => (r.1, r.2.keys)) = (run R K P p st2 q c).map (fun r => (r.1, r.2.keys)) := by
  induction p generalizing st st2 q c with
  | ret a => simp [run, hk]
  | panic => rfl
  | clock k ih => exact ih _ (hp _) hk hd _ _
  | query n ty k ih => exact ih _ (hp _) hk hd _ _
  | order l k ih => exact ih _ (hp _) hk hd _ _
  | getKeys z k ih => simp only [run, ← hk]; exact ih _ (hp _) hk hd _ _
  | putKeys z ks k ih => 
    simp only [run]
    exact ih (st := { st with keys := fun z' => if z' = z then some ks else st.keys z' }) (st2 := { st2 with keys := fun z' => if z' = z then some ks else st2.keys z' })
      hp (by simp only [hk]) hd _ _
  | getDS z k ih => obtain ⟨rfl, hp⟩ := hp; simp only [run, ← hd]; exact ih _ (hp _) hk hd _ _

/-- Finding (C47): contrary to the documentation of `SetAnchor` ("other anchors on sub-domains can be set as well"), an anchor for a name other than the root
has no effect on any validation: verdict and store of keys are the same with and without it, whatever the resolver does. -/
theorem sub_anchor_ignored {C : Crypto} {m : SMsg} {R : Nat → Str → Nat → Reply} {K : Nat → Int} {P : List RKey → List RKey} {st : Store} (now : Int) {owner : Str}
    (ho : canonicalName owner ≠ root) (tag alg dt : Nat) (digest : Str) (q c : Nat) :
    (run R K P (validate C m) (setAnchor st now owner tag alg dt digest) q c).map (fun r => (r.1, r.2.keys))
      = (run R K P (validate C m) st q c).map (fun r => (r.1, r.2.keys)) := by
  refine run_rootOnly (st := setAnchor st now owner tag alg dt digest) (st2 := st) (validate_rootOnly m) rfl ?_ q c
  simp only [setAnchor]
  rw [if_neg (Ne.symm ho)]

example : canonicalName (str "Corp.Example") ≠ root := by decide

/-- The anchors of the root add up -/
theorem root_anchors_add_up (st : Store) (now : Int) (tag alg dt : Nat) (digest : Str) :
    ∃ x : DsSet, (setAnchor st now root tag alg dt digest).ds root = some x
      ∧ x.records = (match st.ds root with | some s => s.records | none => [])
          ++ [{ hdr := { name := root, cls := 1, ttl := 4294967295 }, keyTag := tag, alg := alg, digestType := dt, digest := upper digest }] := by
  have : canonicalName root = root := by decide
  simp only [setAnchor, this, if_true]
  exact ⟨_, rfl, rfl⟩

end Verif.Props.Dnssec
