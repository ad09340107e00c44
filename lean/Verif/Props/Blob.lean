import Verif.Lemmas.Blob
/-
C05: the stored form of a cache entry.

The specification is the plain inverse-function reading: whatever goes in comes out, and the key
comparison is equality. No layout detail occurs in the statements.
-/
namespace Verif.Props.Blob
open Verif Verif.Blob

/-- C05 (round trip): every field that was encoded can be read back unchanged. -/
theorem blob_roundtrip {k : LruKey} {prefetch : Bool} {ts ex : Int} {wire b : Str}
    (hk : k.Valid) (hts : InI64 ts) (hex : InI64 ex)
    (henc : newFromWire k prefetch ts ex wire = some b) :
    key? b = some k ∧ timestamp? b = some ts ∧ expiry? b = some ex ∧ prefetch? b = some prefetch
      ∧ message? b = some wire := by
  obtain ⟨h1, h2, rfl⟩ := newFromWire_some henc
  refine ⟨?_, timestamp_layout _ _ _ _ _ hts, expiry_layout _ _ _ _ _ hex, prefetch_layout .., ?_⟩
  · simp only [key?, netLen_layout _ _ _ _ _ h2, nameLen_layout _ _ _ _ _ h1, name_layout, net_layout,
      qtype_layout _ _ _ _ _ hk.1, qclass_layout _ _ _ _ _ hk.2.1, flags_layout, mask_layout,
      Option.bind_eq_bind, Option.bind_some, flag_do, flag_cd, maskToNat _ hk.2.2]
    rfl
  · simp only [message?, netLen_layout _ _ _ _ _ h2, nameLen_layout _ _ _ _ _ h1, msg_layout,
      Option.bind_eq_bind, Option.bind_some]

/-- C05 (exact comparison): a stored entry matches a key iff it was stored under that very key. -/
theorem blob_matches_iff {k k' : LruKey} {prefetch : Bool} {ts ex : Int} {wire b : Str}
    (hk : k.Valid) (henc : newFromWire k prefetch ts ex wire = some b) :
    matchesKey? b k' = some (decide (k' = k)) := by
  obtain ⟨h1, h2, rfl⟩ := newFromWire_some henc
  unfold matchesKey?
  rw [if_neg (by rw [length_layout]; unfold hdrLen; omega)]
  simp only [netLen_layout _ _ _ _ _ h2, nameLen_layout _ _ _ _ _ h1, name_layout, net_layout,
      qtype_layout _ _ _ _ _ hk.1, qclass_layout _ _ _ _ _ hk.2.1, flags_layout, mask_layout,
      Option.bind_eq_bind, Option.bind_some, maskToNat _ hk.2.2]
  rw [if_neg (by rw [length_layout]; omega)]
  split
  · rename_i h
    have : ¬ k' = k := by
      rintro rfl; simp at h
    simp [this]
  · rename_i h
    simp only [not_or, Decidable.not_not] at h
    obtain ⟨hf, hm, hn, hnm, hq, hc⟩ := h
    obtain ⟨hd, hcd⟩ := keyFlags_inj hf
    simp only [pure, Option.some.injEq]
    rw [Bool.eq_iff_iff]
    simp only [Bool.and_eq_true, beq_iff_eq, decide_eq_true_eq]
    constructor
    · rintro ⟨a, b⟩
      obtain ⟨n, t, c, ne, d, cd, m⟩ := k
      obtain ⟨n', t', c', ne', d', cd', m'⟩ := k'
      simp_all
    · rintro rfl; simp

/-- C05: encoding is refused exactly for over-long names or ECS strings. -/
theorem blob_encode_isSome (k : LruKey) (prefetch : Bool) (ts ex : Int) (wire : Str) :
    (newFromWire k prefetch ts ex wire).isSome = true ↔ k.name.length ≤ 65535 ∧ k.net.length ≤ 65535 := by
  constructor
  · intro h
    obtain ⟨b, hb⟩ := Option.isSome_iff_exists.mp h
    exact ⟨(newFromWire_some hb).1, (newFromWire_some hb).2.1⟩
  · rintro ⟨h1, h2⟩
    rw [newFromWire_layout _ _ _ _ _ h1 h2]; rfl

/-- C05: comparing arbitrary bytes with a key never reads outside the buffer (no panic). -/
theorem blob_matches_total (b : Str) (k : LruKey) : (matchesKey? b k).isSome = true := by
  unfold matchesKey?
  split
  · rfl
  · rename_i hlen
    have hlen : 28 ≤ b.length := by unfold hdrLen at hlen; omega
    obtain ⟨nl, hnl⟩ := be16_ge_of_lt b offNetLen (by unfold offNetLen; omega)
    obtain ⟨ml, hml⟩ := be16_ge_of_lt b offNameLen (by unfold offNameLen; omega)
    obtain ⟨qt, hqt⟩ := be16_ge_of_lt b offQtype (by unfold offQtype; omega)
    obtain ⟨qc, hqc⟩ := be16_ge_of_lt b offQclass (by unfold offQclass; omega)
    have g : ∀ i, i < b.length → ∃ x, b[i]? = some x := fun i hi => ⟨b[i], List.getElem?_eq_getElem hi⟩
    obtain ⟨x1, e1⟩ := g offKeyFlags (by unfold offKeyFlags; omega)
    obtain ⟨x2, e2⟩ := g offECSMask (by unfold offECSMask; omega)
    simp only [netLen?, nameLen?, hnl, hml, hqt, hqc, e1, e2, Option.bind_eq_bind, Option.bind_some]
    split
    · rfl
    · rename_i hl
      split
      · rfl
      · have s1 : slice? b hdrLen (hdrLen + nl) = some ((b.drop hdrLen).take (hdrLen + nl - hdrLen)) := by
          unfold slice?; rw [if_pos ⟨by omega, by omega⟩]
        have s2 : slice? b (hdrLen + nl) (hdrLen + nl + ml)
            = some ((b.drop (hdrLen + nl)).take (hdrLen + nl + ml - (hdrLen + nl))) := by
          unfold slice?; rw [if_pos ⟨by omega, by omega⟩]
        rw [s1, s2]; rfl

/-- C05: the key region depends on the key only and tells keys apart. -/
theorem blob_keyRegion_eq_iff {k k' : LruKey} {p p' : Bool} {ts ex ts' ex' : Int} {w w' b b' : Str}
    (hk : k.Valid) (hk' : k'.Valid)
    (h : newFromWire k p ts ex w = some b) (h' : newFromWire k' p' ts' ex' w' = some b') :
    keyRegion? b = keyRegion? b' ↔ k = k' := by
  obtain ⟨h1, h2, rfl⟩ := newFromWire_some h
  obtain ⟨h1', h2', rfl⟩ := newFromWire_some h'
  simp only [keyRegion?, netLen_layout _ _ _ _ _ h2, nameLen_layout _ _ _ _ _ h1, netLen_layout _ _ _ _ _ h2',
    nameLen_layout _ _ _ _ _ h1', Option.bind_eq_bind, Option.bind_some, keyRegion_layout, Option.some.injEq]
  constructor
  · intro he
    have inj2 : ∀ m n : Nat, m < 65536 → n < 65536 → beBytes 2 m = beBytes 2 n → m = n := by
      intro m n hm hn hh
      rw [← beVal_beBytes_lt (k := 2) (n := m) (by omega), hh, beVal_beBytes_lt (by omega)]
    simp only [List.append_assoc] at he
    obtain ⟨ef, he⟩ := List.append_inj he (by simp)
    obtain ⟨eq_, he⟩ := List.append_inj he (by simp [length_beBytes])
    obtain ⟨ec, he⟩ := List.append_inj he (by simp [length_beBytes])
    obtain ⟨em, he⟩ := List.append_inj he (by simp)
    obtain ⟨en, he⟩ := List.append_inj he (by simp [length_beBytes])
    obtain ⟨enm, he⟩ := List.append_inj he (by simp [length_beBytes])
    have l1 := inj2 _ _ (by unfold maxUint16 at *; omega) (by unfold maxUint16 at *; omega) en
    obtain ⟨enet, ename⟩ := List.append_inj he l1
    have q1 := inj2 _ _ hk.1 hk'.1 eq_
    have c1 := inj2 _ _ hk.2.1 hk'.2.1 ec
    have m1 : k.ecsMask = k'.ecsMask := by
      rw [← maskToNat _ hk.2.2, ← maskToNat _ hk'.2.2]
      rw [(List.cons.inj em).1]
    obtain ⟨hd, hcd⟩ := keyFlags_inj (List.cons.inj ef).1
    obtain ⟨n, t, c, ne, d, cd, m⟩ := k
    obtain ⟨n', t', c', ne', d', cd', m'⟩ := k'
    simp_all
  · rintro rfl; rfl

/-! Non-vacuity: a key with all fields set, a negative and a positive timestamp. -/
def exKey : LruKey := { name := str "www.example.com.", qtype := 28, qclass := 1, net := str "10.1.0.0",
                        dnssecOk := true, cd := false, ecsMask := 16 }
example : exKey.Valid := by unfold LruKey.Valid; decide
example : InI64 (-5) ∧ InI64 1790000000000000000 := by unfold InI64; decide
example : (newFromWire exKey true (-5) 1790000000000000000 [1, 2, 3]).isSome = true := by decide
set_option maxRecDepth 4000 in
example : ((newFromWire exKey true (-5) 1790000000000000000 [1, 2, 3]).bind key?) = some exKey := by decide
example : matchesKey? [1, 2, 3] exKey = some false := by decide

end Verif.Props.Blob
