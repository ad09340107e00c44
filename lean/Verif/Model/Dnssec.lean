import Verif.Model.DnssecDenial
/-
dnssec/validator.go, the parts of dnssec/denial*.go that look at signatures, and dnssec/keystore.go as seen by the validator.

A validation is a program (`Prog`) that reads the clock, queries the upstream resolver, iterates over maps in whatever order the Go runtime chooses, and
reads and writes the store of keys. `Sys` is any number of validations that share one store and are interleaved step by step; the clock, the resolver
and the order of maps are not determined: the resolver may be in the hands of an attacker.

The cryptography and the parts of `miekg/dns` that are about signatures are the parameter `Crypto`.
-/
namespace Verif.Dnssec
open Verif

/-- `dns.RRSIG`. miekg/dns; used in dnssec/validator.go:400-432. -/
structure Sig where
  hdr : Hdr
  covered : Nat
  alg : Nat := 8
  labels : Nat := 0
  origTtl : Nat := 0
  expiration : Nat := 0
  inception : Nat := 0
  keyTag : Nat := 0
  signer : Str
  signature : Str := []
deriving DecidableEq, Repr

/-- `dns.DNSKEY`. miekg/dns; used in dnssec/validator.go:382-450. -/
structure Key where
  hdr : Hdr
  flags : Nat
  protocol : Nat := 3
  alg : Nat := 8
  key : Str
deriving DecidableEq, Repr

/-- `dns.DS`. miekg/dns; used in dnssec/validator.go:434-450. -/
structure Ds where
  hdr : Hdr
  keyTag : Nat := 0
  alg : Nat := 8
  digestType : Nat := 2
  digest : Str
deriving DecidableEq, Repr

/-- `dns.RR`, as far as the validator tells records apart. Used in dnssec/validator.go:462-484. -/
inductive Rec where
  | rrsig (r : Sig)
  | dnskey (r : Key)
  | ds (r : Ds)
  | nsec (r : Nsec)
  | nsec3 (r : Nsec3)
  | other (hdr : Hdr) (rtype : Nat) (data : Str)
deriving DecidableEq, Repr

/-- `Header()` of miekg/dns, as in dnssec/validator.go:462-484 -/
def Rec.hdr : Rec → Hdr
  | .rrsig r => r.hdr | .dnskey r => r.hdr | .ds r => r.hdr | .nsec r => r.hdr | .nsec3 r => r.hdr | .other h _ _ => h

/-- `Header().Rrtype`, as in dnssec/validator.go:462-484 -/
def Rec.rtype : Rec → Nat
  | .rrsig _ => typeRRSIG | .dnskey _ => typeDNSKEY | .ds _ => typeDS | .nsec _ => typeNSEC | .nsec3 _ => typeNSEC3 | .other _ t _ => t

/-- A response as the validator sees it. dnssec/validator.go:87-114. -/
structure SMsg where
  rcode : Nat := 0
  question : Option (Str × Nat) := none
  answer : List Rec := []
  ns : List Rec := []
deriving DecidableEq, Repr

/-- What the resolver given to the validator returns: an error, a response, or neither (`nil, nil`). dnssec/validator.go:45-49, 308-366. -/
inductive Reply where
  | err
  | none
  | msg (m : SMsg)
deriving DecidableEq, Repr

/-- Signatures: what is used of `miekg/dns`. Used in dnssec/validator.go:400-450. -/
structure Crypto where
  lib : Lib
  /-- `DNSKEY.KeyTag` -/
  keyTag : Key → Nat
  /-- `DNSKEY.ToDS`: the digest, if the digest type is supported -/
  toDS : Key → Nat → Option Str
  /-- `RRSIG.ValidityPeriod` at a time -/
  inPeriod : Sig → Int → Bool
  /-- the cryptographic verification at the end of `RRSIG.Verify` -/
  check : Sig → Key → List Rec → Bool

/-- dnssec/validator.go:14-24, dnssec/denial.go:16; `lookup` stands for errors of the resolver and for DNSKEY responses with an error code.
`outOfFuel` is no error of the code, see `buildChain`. -/
inductive VErr where
  | noSignature | noKey | sigInvalid | expired | dsMismatch | noAnchor | insecure | outOfBailiwick | denial | bogusDenial | lookup | outOfFuel
deriving DecidableEq, Repr

/-- dnssec/validator.go:451-455 -/
abbrev RKey := Str × Nat

/-- dnssec/keystore.go:29-33; times in nanoseconds -/
structure KeySet where
  expiresAt : Int
  zsk : List Key
  ksk : List Key
deriving DecidableEq, Repr

/-- dnssec/keystore.go:35-38 -/
structure DsSet where
  expiresAt : Int
  records : List Ds
deriving DecidableEq, Repr

/-! ### Programs -/

/-- The control flow of dnssec/validator.go: what a function does up to its next look at the clock, at the keys kept, or its next query -/
inductive Prog (α : Type) where
  | ret (a : α)
  /-- dereference of a `nil` response -/
  | panic
  | clock (k : Int → Prog α)
  | query (name : Str) (qtype : Nat) (k : Reply → Prog α)
  /-- the next iteration over a map with these keys, in any order -/
  | order (keys : List RKey) (k : List RKey → Prog α)
  | getKeys (zone : Str) (k : Option KeySet → Prog α)
  | putKeys (zone : Str) (ks : KeySet) (k : Prog α)
  | getDS (zone : Str) (k : Option DsSet → Prog α)

/-- One statement of dnssec/validator.go after the other -/
def Prog.bind {α β : Type} : Prog α → (α → Prog β) → Prog β
  | .ret a, f => f a
  | .panic, _ => .panic
  | .clock k, f => .clock fun t => (k t).bind f
  | .query n t k, f => .query n t fun r => (k r).bind f
  | .order l k, f => .order l fun r => (k r).bind f
  | .getKeys z k, f => .getKeys z fun r => (k r).bind f
  | .putKeys z ks k, f => .putKeys z ks (k.bind f)
  | .getDS z k, f => .getDS z fun r => (k r).bind f

/-- The same as notation for the functions of dnssec/validator.go -/
instance : Monad Prog where
  pure := .ret
  bind := .bind

/-- `v.now()`, dnssec/validator.go:36-40 -/
def readClock : Prog Int := .clock .ret

/-! ### Signatures -/

/-- `dns.IsRRset`. miekg/dns; called by `RRSIG.Verify`, dnssec/validator.go:400-421. -/
def isRRset : List Rec → Bool
  | [] => false
  | r :: rs => rs.all fun x => x.rtype = r.rtype && x.hdr.cls = r.hdr.cls && x.hdr.name = r.hdr.name

/-- `dns.RRSIG.Verify`: the checks of the fields, then the cryptographic one. miekg/dns; called in dnssec/validator.go:400-421. -/
def verify (C : Crypto) (sig : Sig) (key : Key) (rrset : List Rec) : Bool :=
  isRRset rrset && decide (C.keyTag key = sig.keyTag) && decide (sig.hdr.cls = key.hdr.cls) && decide (sig.alg = key.alg)
    && equalFold (canonicalName sig.signer) key.hdr.name && decide (key.protocol = 3)
    && (match rrset with
      | [] => false
      | r :: _ => decide (r.hdr.cls = sig.hdr.cls) && decide (r.rtype = sig.covered) && (canonicalName sig.signer).isSuffixOf (canonicalName r.hdr.name))
    && C.check sig key rrset

/-- dnssec/validator.go:382-417 `findKeysByTag`, `verifyRRSIG` -/
def verifyRRSIG (C : Crypto) (sig : Sig) (keys : List Key) (rrset : List Rec) (now : Int) : Except VErr Unit :=
  if C.inPeriod sig now = false then .error .expired
  else
    let matching := keys.filter fun k => C.keyTag k = sig.keyTag && k.alg = sig.alg
    if matching = [] then .error .noKey
    else if matching.any fun k => verify C sig k rrset then .ok ()
    else .error .sigInvalid

/-- dnssec/validator.go:423-430 `verifyAnyRRSIG` -/
def verifyAnyRRSIG (C : Crypto) (sigs : List Sig) (keys : List Key) (rrset : List Rec) (now : Int) : Bool :=
  sigs.any fun s => match verifyRRSIG C s keys rrset now with | .ok _ => true | .error _ => false

/-- dnssec/validator.go:434-449 `filterKeysByDS` -/
def filterKeysByDS (C : Crypto) (keys : List Key) (ds : List Ds) : List Key :=
  keys.filter fun k => ds.any fun d => match C.toDS k d.digestType with | some digest => equalFold digest d.digest | none => false

/-- dnssec/validator.go:462-484 `groupRRsByTypeAndName`: the keys of the map of record sets, each once -/
def rkey (r : Rec) : RKey := (canonicalName r.hdr.name, r.rtype)
/-- dnssec/validator.go:462-484: signatures are put aside -/
def isSig : Rec → Bool | .rrsig _ => true | _ => false
/-- dnssec/validator.go:452-484: the keys of the map -/
def rrsetKeys (section_ : List Rec) : List RKey := ((section_.filter fun r => !isSig r).map rkey).eraseDups
/-- the record set of a key. dnssec/validator.go:462-484. -/
def rrsetOf (section_ : List Rec) (k : RKey) : List Rec := section_.filter fun r => !isSig r && rkey r = k
/-- the signatures of a key. dnssec/validator.go:462-484. -/
def sigsOf (section_ : List Rec) (k : RKey) : List Sig := section_.filterMap fun r => match r with
  | .rrsig s => if (canonicalName s.hdr.name, s.covered) = k then some s else none
  | _ => none

/-! ### Key store, as operations of the validator -/

/-- The least TTL (dnssec/keystore.go:76-84), and the time it stands for -/
def minTtl (keys : List Key) : Nat := keys.foldl (fun m k => min m k.hdr.ttl) 4294967295
/-- `time.Second`, dnssec/keystore.go:47-99 -/
def seconds (n : Nat) : Int := n * 1000000000

/-- dnssec/keystore.go:101-115 `getDNSKEY` -/
def getDNSKEY (zone : Str) : Prog (List Key × List Key) :=
  .getKeys (canonicalName zone) fun r => match r with
    | none => .ret ([], [])
    | some ks => .clock fun now => if now > ks.expiresAt then .ret ([], []) else .ret (ks.zsk, ks.ksk)

/-- dnssec/keystore.go:117-131 `getDS` -/
def getDS (zone : Str) : Prog (List Ds) :=
  .getDS (canonicalName zone) fun r => match r with
    | none => .ret []
    | some ds => .clock fun now => if now > ds.expiresAt then .ret [] else .ret ds.records

/-- dnssec/keystore.go:75-99 `addDNSKEY` -/
def addDNSKEY (zone : Str) (keys : List Key) : Prog Unit :=
  .clock fun now =>
    .putKeys (canonicalName zone) ⟨now + seconds (minTtl keys), keys.filter fun k => k.flags = 256, keys.filter fun k => k.flags = 257⟩ (.ret ())

/-! ### Chain of trust -/

/-- dnssec/validator.go:308-337: the keys of a reply -/
def keysOf (l : List Rec) (flags : Nat) : List Key := l.filterMap fun r => match r with
  | .dnskey k => if k.flags = flags then some k else none
  | _ => none
/-- dnssec/validator.go:308-366: the signatures of a reply -/
def allSigs (l : List Rec) : List Sig := l.filterMap fun r => match r with
  | .rrsig s => some s
  | _ => none
/-- dnssec/validator.go:339-366: the DS records of a reply -/
def allDs (l : List Rec) : List Ds := l.filterMap fun r => match r with
  | .ds d => some d
  | _ => none

/-- dnssec/validator.go:308-334 `lookupDNSKEY`: ZSKs, KSKs and signatures -/
def lookupDNSKEY (zone : Str) : Prog (Except VErr (List Key × List Key × List Sig)) :=
  .query (canonicalName zone) typeDNSKEY fun r => match r with
    | .err => .ret (.error .lookup)
    | .none => .panic
    | .msg a =>
      if a.rcode ≠ rcodeSuccess then .ret (.error .lookup)
      else .ret (.ok (keysOf a.answer 256, keysOf a.answer 257, allSigs a.answer))

/-- dnssec/validator.go:339-365 `lookupDS`: DS records, their signatures, and the authority section of the response -/
def lookupDS (zone : Str) : Prog (Except VErr (List Ds × List Sig × List Rec)) :=
  .query (canonicalName zone) typeDS fun r => match r with
    | .err => .ret (.error .lookup)
    | .none => .panic
    | .msg a =>
      if a.rcode = rcodeSuccess then .ret (.ok (allDs a.answer, (allSigs a.answer).filter fun s => s.covered = typeDS, a.ns))
      else .ret (.ok ([], [], a.ns))

/-- dnssec/denial.go:51-70 -/
def deniesDS (L : Lib) (name : Str) : Rec → Bool
  | .nsec r => nsecDeniesDS r name
  | .nsec3 r => nsec3DeniesDS L r name
  | _ => false

/-- dnssec/denial.go:21-46 `verifyDSDenial`. The code returns at the first record set that proves the absence, in the order of the map; whether there is
one does not depend on the order. -/
def verifyDSDenial (C : Crypto) (ns : List Rec) (name : Str) (parentKeys : List Key) (now : Int) : Except VErr Unit :=
  let name := canonicalName name
  if (rrsetKeys ns).any fun k =>
      (k.2 = typeNSEC || k.2 = typeNSEC3) && verifyAnyRRSIG C (sigsOf ns k) parentKeys (rrsetOf ns k) now && (rrsetOf ns k).any (deniesDS C.lib name)
  then .ok () else .error .bogusDenial

/-- dnssec/validator.go:262-267: one of the signatures verifies; the clock is read for each -/
def anySigVerifies (C : Crypto) (keys : List Key) (rrset : List Rec) : List Sig → Prog Bool
  | [] => .ret false
  | s :: rest => .clock fun now => match verifyRRSIG C s keys rrset now with
    | .ok _ => .ret true
    | .error _ => anySigVerifies C keys rrset rest

/-- dnssec/validator.go:247-270: the DS records of a zone below the root must be signed by the parent's keys, and their absence must be proven -/
def checkDS (C : Crypto) (zone : Str) (ds : List Ds) (dsSigs : List Sig) (ns : List Rec) (parentZSK : List Key) : Prog (Except VErr (List Ds)) :=
  if ds = [] then .clock fun now => match verifyDSDenial C ns zone parentZSK now with
    | .error e => .ret (.error e)
    | .ok _ => .ret (.error .insecure)
  else if dsSigs = [] then .ret (.error .noSignature)
  else (anySigVerifies C parentZSK (ds.map .ds) dsSigs).bind fun ok => if ok then .ret (.ok ds) else .ret (.error .sigInvalid)

/-- dnssec/validator.go:276-303: keys are accepted if they are signed by one of them that has a DS record, and then kept -/
def acceptKeys (C : Crypto) (zone : Str) (zsk ksk : List Key) (sigs : List Sig) (ds : List Ds) : Prog (Except VErr (List Key × List Key)) :=
  let trusted := filterKeysByDS C ksk ds
  if trusted = [] then .ret (.error .dsMismatch)
  else
    let own := sigs.filter fun s => canonicalName s.signer = zone && s.covered = typeDNSKEY
    (anySigVerifies C trusted ((zsk ++ ksk).map .dnskey) own).bind fun ok =>
      if own = [] then .ret (.error .noSignature)
      else if ok then (addDNSKEY zone (zsk ++ ksk)).bind fun _ => .ret (.ok (zsk, ksk))
      else .ret (.error .sigInvalid)

/-- dnssec/validator.go:198-304 `buildChainOfTrust`. The recursion into the parent is bounded by the first argument, for which `chain` gives the length of
the name: a parent is shorter. -/
def buildChain (C : Crypto) : Nat → Str → Prog (Except VErr (List Key × List Key))
  | 0, _ => .ret (.error .outOfFuel)
  | fuel + 1, zone =>
    let zone := canonicalName zone
    (getDNSKEY zone).bind fun cached =>
      if cached.1 ≠ [] ∨ cached.2 ≠ [] then .ret (.ok cached)
      else (lookupDNSKEY zone).bind fun r => match r with
        | .error e => .ret (.error e)
        | .ok (zsk, ksk, sigs) =>
          if ksk = [] then .ret (.error .noKey)
          else if zone = root then
            (getDS root).bind fun ds => if ds = [] then .ret (.error .noAnchor) else acceptKeys C zone zsk ksk sigs ds
          else
            (lookupDS zone).bind fun r => match r with
              | .error e => .ret (.error e)
              | .ok (ds, dsSigs, ns) =>
                (buildChain C fuel (parentZone zone)).bind fun p => match p with
                  | .error e => .ret (.error e)
                  | .ok (parentZSK, _) =>
                    (checkDS C zone ds dsSigs ns parentZSK).bind fun r => match r with
                      | .error e => .ret (.error e)
                      | .ok ds => acceptKeys C zone zsk ksk sigs ds

/-- dnssec/validator.go:198-305, with the number of labels as the bound of the recursion -/
def chain (C : Crypto) (zone : Str) : Prog (Except VErr (List Key × List Key)) := buildChain C ((canonicalName zone).length + 1) zone

/-! ### Validation -/

/-- dnssec/validator.go:139-159 `proveNoDS` -/
def proveNoDS (C : Crypto) (zone : Str) : Prog (Except VErr Bool) :=
  (lookupDS zone).bind fun r => match r with
    | .error e => .ret (.error e)
    | .ok (ds, _, ns) =>
      if ds ≠ [] then .ret (.ok false)
      else (chain C (parentZone zone)).bind fun p => match p with
        | .error e => if e = .insecure then .ret (.ok true) else .ret (.error e)
        | .ok (parentZSK, _) => .clock fun now => match verifyDSDenial C ns zone parentZSK now with
          | .error e => .ret (.error e)
          | .ok _ => .ret (.ok true)

/-- dnssec/validator.go:122-132: the zones from the top down -/
def proveNoDSAny (C : Crypto) : List Str → Prog (Except VErr Unit)
  | [] => .ret (.ok ())
  | zone :: rest => (proveNoDS C zone).bind fun r => match r with
    | .error e => .ret (.error e)
    | .ok true => .ret (.error .insecure)
    | .ok false => proveNoDSAny C rest

/-- The names made of the last 1, 2, … labels. dnssec/validator.go:116-137: the candidates of the loop. -/
def zonesAbove (labels : List Str) : List Str :=
  (List.range labels.length).map fun i => Blocklist.fqdn (joinWith 46 (labels.drop (labels.length - 1 - i)))

/-- dnssec/validator.go:116-133 `checkInsecureDelegation` -/
def checkInsecure (C : Crypto) (name : Str) : Prog (Except VErr Unit) :=
  let name := canonicalName name
  if name = root then .ret (.ok ()) else proveNoDSAny C (zonesAbove (splitName name))

/-- dnssec/validator.go:168-192: the loop over the signatures of a record set -/
def trySigs (C : Crypto) (owner : Str) (rrset : List Rec) : Except VErr Unit → List Sig → Prog (Except VErr Unit)
  | last, [] => .ret last
  | _, sig :: rest =>
    let signer := canonicalName sig.signer
    if isSubDomain signer owner = false then trySigs C owner rrset (.error .outOfBailiwick) rest
    else (chain C signer).bind fun r => match r with
      | .error e => trySigs C owner rrset (.error e) rest
      | .ok (zsk, _) => .clock fun now => match verifyRRSIG C sig zsk rrset now with
        | .error e => trySigs C owner rrset (.error e) rest
        | .ok _ => .ret (.ok ())

/-- dnssec/validator.go:166-193 `validateRRset` -/
def validateRRset (C : Crypto) (rrset : List Rec) (sigs : List Sig) : Prog (Except VErr Unit) :=
  trySigs C (canonicalName ((rrset.head?.map fun r => r.hdr.name).getD [])) rrset (.ok ()) sigs

/-- dnssec/validator.go:94-108: the loop over the record sets -/
def validateSets (C : Crypto) (section_ : List Rec) : List RKey → Prog (Except VErr Unit)
  | [] => .ret (.ok ())
  | k :: rest =>
    let rrset := rrsetOf section_ k
    if sigsOf section_ k = [] then
      (checkInsecure C ((rrset.head?.map fun r => r.hdr.name).getD [])).bind fun r => match r with
        | .error e => .ret (.error e)
        | .ok _ => .ret (.error .noSignature)
    else (validateRRset C rrset (sigsOf section_ k)).bind fun r => match r with
      | .error e => .ret (.error e)
      | .ok _ => validateSets C section_ rest

/-- dnssec/denial_existence.go:79-94 `rrsetSignedFromAncestor` -/
def signedFromAncestor (C : Crypto) (rrset : List Rec) (qname : Str) : List Sig → Prog Bool
  | [] => .ret false
  | sig :: rest =>
    let signer := canonicalName sig.signer
    if isSubDomain signer qname = false then signedFromAncestor C rrset qname rest
    else (chain C signer).bind fun r => match r with
      | .error _ => signedFromAncestor C rrset qname rest
      | .ok (zsk, _) => .clock fun now => match verifyRRSIG C sig zsk rrset now with
        | .ok _ => .ret true
        | .error _ => signedFromAncestor C rrset qname rest

/-- dnssec/denial_existence.go:53-77: the NSEC records of a list -/
def nsecsOf (l : List Rec) : List Nsec := l.filterMap fun r => match r with
  | .nsec n => some n
  | _ => none
/-- dnssec/denial_existence.go:53-77: the NSEC3 records of a list -/
def nsec3sOf (l : List Rec) : List Nsec3 := l.filterMap fun r => match r with
  | .nsec3 n => some n
  | _ => none

/-- dnssec/denial_existence.go:53-72 `collectVerifiedDenialRecords`: the records of the sets that are signed -/
def collect (C : Crypto) (ns : List Rec) (qname : Str) : List RKey → Prog (List Rec)
  | [] => .ret []
  | k :: rest =>
    if k.2 ≠ typeNSEC ∧ k.2 ≠ typeNSEC3 then collect C ns qname rest
    else (signedFromAncestor C (rrsetOf ns k) qname (sigsOf ns k)).bind fun ok =>
      (collect C ns qname rest).bind fun l => if ok then .ret (rrsetOf ns k ++ l) else .ret l

/-- dnssec/denial_existence.go:22-47 `validateDenial` -/
def validateDenial (C : Crypto) (m : SMsg) : Prog (Except VErr Unit) := match m.question with
  | none => .ret (.error .denial)
  | some (name, qtype) =>
    let qname := canonicalName name
    .order (rrsetKeys m.ns) fun keys =>
      (collect C m.ns qname keys).bind fun l =>
        if nsecProvesDenial (nsecsOf l) qname qtype m.rcode then .ret (.ok ())
        else if nsec3ProvesDenial C.lib (nsec3sOf l) qname qtype m.rcode then .ret (.ok ())
        else (checkInsecure C qname).bind fun r => match r with
          | .error e => .ret (.error e)
          | .ok _ => .ret (.error .denial)

/-- dnssec/validator.go:87-109 `Validate` -/
def validate (C : Crypto) (m : SMsg) : Prog (Except VErr Unit) :=
  if m.answer = [] then validateDenial C m
  else .order (rrsetKeys m.answer) fun keys => validateSets C m.answer keys

/-! ### Interleaved validations -/

/-- The store of keys: what is kept for every zone. dnssec/keystore.go:11-38. -/
structure Store where
  keys : Str → Option KeySet
  ds : Str → Option DsSet

/-- A call of `Validate`: when it began, its argument, what is left to do. dnssec/validator.go:87-114. -/
structure Call where
  start : Int
  msg : SMsg
  prog : Prog (Except VErr Unit)

/-- The validator with its calls; `now` is the latest time the clock showed. dnssec/validator.go:26-31. -/
structure Sys where
  store : Store
  now : Int
  calls : List Call

/-- One step of a program. `lo` is a lower bound of the clock: time does not go backwards. dnssec/validator.go and dnssec/keystore.go:101-133. -/
inductive Step {α : Type} : Store → Int → Prog α → Store → Int → Prog α → Prop where
  | clock {st lo t k} (h : lo ≤ t) : Step st lo (.clock k) st t (k t)
  | query {st lo n ty k} (r : Reply) : Step st lo (.query n ty k) st lo (k r)
  | order {st lo l k l'} (h : l'.Perm l) : Step st lo (.order l k) st lo (k l')
  | getKeys {st lo z k} : Step st lo (.getKeys z k) st lo (k (st.keys z))
  | putKeys {st lo z ks k} : Step st lo (.putKeys z ks k) { st with keys := fun z' => if z' = z then some ks else st.keys z' } lo k
  | getDS {st lo z k} : Step st lo (.getDS z k) st lo (k (st.ds z))

/-- The validator: calls begin at any time, and any call makes its next step. dnssec/validator.go:87-114, called from dnssec.go. -/
inductive Sys.Step (C : Crypto) : Sys → Sys → Prop where
  | call {s : Sys} {m : SMsg} {t : Int} (h : s.now ≤ t) : Sys.Step C s { s with now := t, calls := s.calls ++ [⟨t, m, validate C m⟩] }
  | step {s : Sys} {i : Nat} {c : Call} {st : Store} {t : Int} {p : Prog (Except VErr Unit)} (hi : s.calls[i]? = some c)
      (h : Dnssec.Step s.store s.now c.prog st t p) : Sys.Step C s { store := st, now := t, calls := s.calls.set i { c with prog := p } }

/-- The states after any number of steps. Any interleaving of calls of dnssec/validator.go:87-114. -/
inductive Sys.Reach (C : Crypto) (s0 : Sys) : Sys → Prop where
  | refl : Sys.Reach C s0 s0
  | step {s s' : Sys} (h : Sys.Reach C s0 s) (hs : Sys.Step C s s') : Sys.Reach C s0 s'

/-- dnssec/validator.go:68-82 `SetAnchor` (dnssec/keystore.go:47-73 `addDS`) at time `now` -/
def setAnchor (st : Store) (now : Int) (owner : Str) (tag alg digestType : Nat) (digest : Str) : Store :=
  let d : Ds := { hdr := { name := canonicalName owner, cls := 1, ttl := 4294967295 }, keyTag := tag, alg := alg, digestType := digestType, digest := upper digest }
  let old := match st.ds (canonicalName owner) with | some s => s.records | none => []
  let records := old ++ [d]
  let ttl := records.foldl (fun m r => min m r.hdr.ttl) 4294967295
  { st with ds := fun z => if z = canonicalName owner then some ⟨now + seconds ttl, records⟩ else st.ds z }

/-- dnssec/keystore.go:40-45 -/
def Store.empty : Store := ⟨fun _ => none, fun _ => none⟩

/-- Run a program alone, with a resolver that is a function of the number of queries so far, the name and the type, with a clock that is a function of the
number of readings, and maps iterated in the order given. For examples. Used in examples; dnssec/validator.go:87-114. -/
def run {α : Type} (resolver : Nat → Str → Nat → Reply) (clockAt : Nat → Int) (perm : List RKey → List RKey) : Prog α → Store → Nat → Nat → Option (α × Store)
  | .ret a, st, _, _ => some (a, st)
  | .panic, _, _, _ => none
  | .clock k, st, q, c => run resolver clockAt perm (k (clockAt c)) st q (c + 1)
  | .query n t k, st, q, c => run resolver clockAt perm (k (resolver q n t)) st (q + 1) c
  | .order l k, st, q, c => run resolver clockAt perm (k (perm l)) st q c
  | .getKeys z k, st, q, c => run resolver clockAt perm (k (st.keys z)) st q c
  | .putKeys z ks k, st, q, c => run resolver clockAt perm k { st with keys := fun z' => if z' = z then some ks else st.keys z' } q c
  | .getDS z k, st, q, c => run resolver clockAt perm (k (st.ds z)) st q c

end Verif.Dnssec
