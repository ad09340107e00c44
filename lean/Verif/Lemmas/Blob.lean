import Verif.Model.Blob
import Verif.Lemmas.Bytes
set_option linter.unusedSimpArgs false
namespace Verif.Blob

/-- The byte layout the encoder produces, as one concatenation. -/
def layout (k : LruKey) (prefetch : Bool) (ts ex : Int) (wire : Str) : Str :=
  [0, if prefetch then 1 else 0] ++ beBytes 8 (toU64 ts) ++ beBytes 8 (toU64 ex) ++ [keyFlags k]
    ++ beBytes 2 k.qtype ++ beBytes 2 k.qclass ++ [k.ecsMask.toUInt8]
    ++ beBytes 2 k.net.length ++ beBytes 2 k.name.length ++ k.net ++ k.name ++ wire

theorem newFromWire_layout (k : LruKey) (p : Bool) (ts ex : Int) (w : Str)
    (h1 : k.name.length ≤ maxUint16) (h2 : k.net.length ≤ maxUint16) :
    newFromWire k p ts ex w = some (layout k p ts ex w) := by
  unfold newFromWire
  rw [if_neg (by omega), if_neg (by omega)]
  simp only [Option.some.injEq]
  have hr : List.replicate (hdrLen + k.net.length + k.name.length + w.length) (0 : UInt8)
      = List.replicate 28 0 ++ (List.replicate k.net.length 0 ++ (List.replicate k.name.length 0
        ++ List.replicate w.length 0)) := by
    simp only [List.replicate_append_replicate, hdrLen]
    congr 1; omega
  rw [hr]
  have e28 : List.replicate 28 (0 : UInt8) =
    [0,0,0,0,0,0,0,0,0,0,0,0,0,0,0,0,0,0,0,0,0,0,0,0,0,0,0,0] := rfl
  rw [e28]
  generalize hn : List.replicate k.net.length (0 : UInt8) = rn
  generalize hm : List.replicate k.name.length (0 : UInt8) = rm
  generalize hw : List.replicate w.length (0 : UInt8) = rw_
  have ln : rn.length = k.net.length := by rw [← hn]; simp
  have lm : rm.length = k.name.length := by rw [← hm]; simp
  have lw : rw_.length = w.length := by rw [← hw]; simp
  have b8 : ∀ n, ∃ a b c d e f g h, beBytes 8 n = [a,b,c,d,e,f,g,h] := fun n => ⟨_,_,_,_,_,_,_,_,rfl⟩
  have b2 : ∀ n, ∃ a b, beBytes 2 n = [a,b] := fun n => ⟨_,_,rfl⟩
  obtain ⟨t0,t1,t2,t3,t4,t5,t6,t7,ht⟩ := b8 (toU64 ts)
  obtain ⟨x0,x1,x2,x3,x4,x5,x6,x7,hx⟩ := b8 (toU64 ex)
  obtain ⟨q0,q1,hq⟩ := b2 k.qtype
  obtain ⟨c0,c1,hc⟩ := b2 k.qclass
  obtain ⟨n0,n1,hnl⟩ := b2 k.net.length
  obtain ⟨m0,m1,hml⟩ := b2 k.name.length
  have hpf : ∀ (l : Str), (if p = true then copyAt (0 :: 0 :: l) offMetaFlags [1] else 0 :: 0 :: l)
      = 0 :: (if p then 1 else 0) :: l := by
    intro l; cases p
    · rfl
    · simp only [if_true]; rw [copyAt_fit (by simp [offMetaFlags])]; rfl
  simp only [List.cons_append, List.nil_append, hpf]
  simp only [layout, ht, hx, hq, hc, hnl, hml]
  rw [copyAt_fit (buf := 0 :: _ ) (off := offTimestamp) (by simp [offTimestamp])]
  simp only [offTimestamp, List.take_succ_cons, List.take_zero, List.length_cons, List.length_nil,
    List.drop_succ_cons, List.drop_zero, List.cons_append, List.nil_append]
  rw [copyAt_fit (off := offExpiry) (by simp [offExpiry])]
  simp only [offExpiry, List.take_succ_cons, List.take_zero, List.length_cons, List.length_nil,
    List.drop_succ_cons, List.drop_zero, List.cons_append, List.nil_append]
  rw [copyAt_fit (off := offKeyFlags) (by simp [offKeyFlags])]
  simp only [offKeyFlags, List.take_succ_cons, List.take_zero, List.length_cons, List.length_nil,
    List.drop_succ_cons, List.drop_zero, List.cons_append, List.nil_append]
  rw [copyAt_fit (off := offQtype) (by simp [offQtype])]
  simp only [offQtype, List.take_succ_cons, List.take_zero, List.length_cons, List.length_nil,
    List.drop_succ_cons, List.drop_zero, List.cons_append, List.nil_append]
  rw [copyAt_fit (off := offQclass) (by simp [offQclass])]
  simp only [offQclass, List.take_succ_cons, List.take_zero, List.length_cons, List.length_nil,
    List.drop_succ_cons, List.drop_zero, List.cons_append, List.nil_append]
  rw [copyAt_fit (off := offECSMask) (by simp [offECSMask])]
  simp only [offECSMask, List.take_succ_cons, List.take_zero, List.length_cons, List.length_nil,
    List.drop_succ_cons, List.drop_zero, List.cons_append, List.nil_append]
  rw [copyAt_fit (off := offNetLen) (by simp [offNetLen])]
  simp only [offNetLen, List.take_succ_cons, List.take_zero, List.length_cons, List.length_nil,
    List.drop_succ_cons, List.drop_zero, List.cons_append, List.nil_append]
  rw [copyAt_fit (off := offNameLen) (by simp [offNameLen])]
  simp only [offNameLen, List.take_succ_cons, List.take_zero, List.length_cons, List.length_nil,
    List.drop_succ_cons, List.drop_zero, List.cons_append, List.nil_append]
  rw [copyAt_fit (off := hdrLen) (by simp [hdrLen]; omega)]
  rw [show hdrLen + k.net.length = k.net.length + 28 from by unfold hdrLen; omega]
  simp only [hdrLen, List.take_succ_cons, List.take_zero, List.length_cons, List.length_nil,
    List.drop_succ_cons, List.drop_zero, List.cons_append, List.nil_append]
  rw [← ln, List.drop_left]
  rw [copyAt_fit (off := rn.length + 28) (by simp; omega)]
  rw [show rn.length + 28 + k.name.length = (k.name.length + rn.length) + 28 from by omega]
  simp only [List.take_succ_cons, List.take_zero, List.length_cons, List.length_nil,
    List.drop_succ_cons, List.drop_zero, List.cons_append, List.nil_append]
  rw [ln, List.take_left]
  rw [show k.name.length + k.net.length = k.net.length + k.name.length from by omega,
    ← List.drop_drop, List.drop_left, ← lm, List.drop_left]
  rw [show k.net.length + rm.length + 28 = rm.length + k.net.length + 28 from by omega]
  rw [copyAt_fit (off := rm.length + k.net.length + 28) (by simp; omega)]
  rw [show rm.length + k.net.length + 28 + w.length = (w.length + (rm.length + k.net.length)) + 28 from by omega]
  simp only [List.take_succ_cons, List.take_zero, List.length_cons, List.length_nil,
    List.drop_succ_cons, List.drop_zero, List.cons_append, List.nil_append]
  rw [lm, show k.name.length + k.net.length = (k.net ++ k.name).length from by simp; omega,
    List.take_left]
  rw [show w.length + (k.net ++ k.name).length = (k.net ++ k.name).length + w.length from by omega,
    ← List.drop_drop, List.drop_left, ← lw]
  simp

end Verif.Blob

namespace Verif.Blob
variable (k : LruKey) (p : Bool) (ts ex : Int) (w : Str)

theorem netLen_layout (h2 : k.net.length ≤ maxUint16) :
    netLen? (layout k p ts ex w) = some k.net.length := by
  unfold netLen? be16?
  rw [slice?_mid (a := [0, if p then 1 else 0] ++ beBytes 8 (toU64 ts) ++ beBytes 8 (toU64 ex) ++ [keyFlags k]
    ++ beBytes 2 k.qtype ++ beBytes 2 k.qclass ++ [k.ecsMask.toUInt8]) (b := beBytes 2 k.net.length)
    (c := beBytes 2 k.name.length ++ k.net ++ k.name ++ w)]
  · simp only [Option.map_some]; rw [beVal_beBytes_lt]; unfold maxUint16 at h2; omega
  · simp [layout]
  · simp [length_beBytes, offNetLen]
  · simp [length_beBytes, offNetLen]

theorem nameLen_layout (h1 : k.name.length ≤ maxUint16) :
    nameLen? (layout k p ts ex w) = some k.name.length := by
  unfold nameLen? be16?
  rw [slice?_mid (a := [0, if p then 1 else 0] ++ beBytes 8 (toU64 ts) ++ beBytes 8 (toU64 ex) ++ [keyFlags k]
    ++ beBytes 2 k.qtype ++ beBytes 2 k.qclass ++ [k.ecsMask.toUInt8] ++ beBytes 2 k.net.length) (b := beBytes 2 k.name.length)
    (c := k.net ++ k.name ++ w)]
  · simp only [Option.map_some]; rw [beVal_beBytes_lt]; unfold maxUint16 at h1; omega
  · simp [layout]
  · simp [length_beBytes, offNameLen]
  · simp [length_beBytes, offNameLen]

theorem timestamp_layout (h : InI64 ts) : timestamp? (layout k p ts ex w) = some ts := by
  unfold timestamp? be64?
  rw [slice?_mid (a := [0, if p then 1 else 0]) (b := beBytes 8 (toU64 ts))
    (c := beBytes 8 (toU64 ex) ++ [keyFlags k]
    ++ beBytes 2 k.qtype ++ beBytes 2 k.qclass ++ [k.ecsMask.toUInt8] ++ beBytes 2 k.net.length ++ beBytes 2 k.name.length ++ k.net ++ k.name ++ w)]
  · simp only [Option.map_some]; rw [beVal_beBytes_lt, toI64_toU64 h]; exact toU64_lt ts
  · simp [layout]
  · simp [offTimestamp]
  · simp [length_beBytes, offTimestamp]

theorem expiry_layout (h : InI64 ex) : expiry? (layout k p ts ex w) = some ex := by
  unfold expiry? be64?
  rw [slice?_mid (a := [0, if p then 1 else 0] ++ beBytes 8 (toU64 ts)) (b := beBytes 8 (toU64 ex))
    (c := [keyFlags k]
    ++ beBytes 2 k.qtype ++ beBytes 2 k.qclass ++ [k.ecsMask.toUInt8] ++ beBytes 2 k.net.length ++ beBytes 2 k.name.length ++ k.net ++ k.name ++ w)]
  · simp only [Option.map_some]; rw [beVal_beBytes_lt, toI64_toU64 h]; exact toU64_lt ex
  · simp [layout]
  · simp [offExpiry, length_beBytes]
  · simp [length_beBytes, offExpiry]

theorem prefetch_layout : prefetch? (layout k p ts ex w) = some p := by
  unfold prefetch? layout offMetaFlags
  cases p <;> rfl

theorem be16_ge_of_lt (b : Str) (off : Nat) (h : off + 2 ≤ b.length) : ∃ n, be16? b off = some n := by
  unfold be16? slice?
  rw [if_pos ⟨by omega, h⟩]; exact ⟨_, rfl⟩

theorem qtype_layout (h : k.qtype < 65536) : be16? (layout k p ts ex w) offQtype = some k.qtype := by
  unfold be16?
  rw [slice?_mid (a := [0, if p then 1 else 0] ++ beBytes 8 (toU64 ts) ++ beBytes 8 (toU64 ex) ++ [keyFlags k]) (b := beBytes 2 k.qtype)
    (c := beBytes 2 k.qclass ++ [k.ecsMask.toUInt8] ++ beBytes 2 k.net.length ++ beBytes 2 k.name.length ++ k.net ++ k.name ++ w)]
  · simp only [Option.map_some]; rw [beVal_beBytes_lt]; omega
  · simp [layout]
  · simp [length_beBytes, offQtype]
  · simp [length_beBytes, offQtype]

theorem qclass_layout (h : k.qclass < 65536) : be16? (layout k p ts ex w) offQclass = some k.qclass := by
  unfold be16?
  rw [slice?_mid (a := [0, if p then 1 else 0] ++ beBytes 8 (toU64 ts) ++ beBytes 8 (toU64 ex) ++ [keyFlags k] ++ beBytes 2 k.qtype) (b := beBytes 2 k.qclass)
    (c := [k.ecsMask.toUInt8] ++ beBytes 2 k.net.length ++ beBytes 2 k.name.length ++ k.net ++ k.name ++ w)]
  · simp only [Option.map_some]; rw [beVal_beBytes_lt]; omega
  · simp [layout]
  · simp [length_beBytes, offQclass]
  · simp [length_beBytes, offQclass]

theorem flags_layout : (layout k p ts ex w)[offKeyFlags]? = some (keyFlags k) := by
  unfold layout offKeyFlags
  rw [show beBytes 8 (toU64 ts) = [_,_,_,_,_,_,_,_] from rfl, show beBytes 8 (toU64 ex) = [_,_,_,_,_,_,_,_] from rfl]
  rfl

theorem mask_layout : (layout k p ts ex w)[offECSMask]? = some k.ecsMask.toUInt8 := by
  unfold layout offECSMask
  rw [show beBytes 8 (toU64 ts) = [_,_,_,_,_,_,_,_] from rfl, show beBytes 8 (toU64 ex) = [_,_,_,_,_,_,_,_] from rfl,
    show beBytes 2 k.qtype = [_,_] from rfl, show beBytes 2 k.qclass = [_,_] from rfl]
  rfl

theorem length_layout : (layout k p ts ex w).length = hdrLen + k.net.length + k.name.length + w.length := by
  simp [layout, length_beBytes, hdrLen]; omega

theorem net_layout : slice? (layout k p ts ex w) hdrLen (hdrLen + k.net.length) = some k.net := by
  apply slice?_mid (a := [0, if p then 1 else 0] ++ beBytes 8 (toU64 ts) ++ beBytes 8 (toU64 ex) ++ [keyFlags k]
    ++ beBytes 2 k.qtype ++ beBytes 2 k.qclass ++ [k.ecsMask.toUInt8]
    ++ beBytes 2 k.net.length ++ beBytes 2 k.name.length) (c := k.name ++ w)
  · simp [layout]
  · simp [length_beBytes, hdrLen]
  · simp [length_beBytes, hdrLen]

theorem name_layout : slice? (layout k p ts ex w) (hdrLen + k.net.length)
    (hdrLen + k.net.length + k.name.length) = some k.name := by
  apply slice?_mid (a := [0, if p then 1 else 0] ++ beBytes 8 (toU64 ts) ++ beBytes 8 (toU64 ex) ++ [keyFlags k]
    ++ beBytes 2 k.qtype ++ beBytes 2 k.qclass ++ [k.ecsMask.toUInt8]
    ++ beBytes 2 k.net.length ++ beBytes 2 k.name.length ++ k.net) (c := w)
  · simp [layout]
  · simp [length_beBytes, hdrLen]; omega
  · simp [length_beBytes, hdrLen]; omega

theorem msg_layout : slice? (layout k p ts ex w)
    (hdrLen + k.net.length + k.name.length) (layout k p ts ex w).length = some w := by
  apply slice?_mid (a := [0, if p then 1 else 0] ++ beBytes 8 (toU64 ts) ++ beBytes 8 (toU64 ex) ++ [keyFlags k]
    ++ beBytes 2 k.qtype ++ beBytes 2 k.qclass ++ [k.ecsMask.toUInt8]
    ++ beBytes 2 k.net.length ++ beBytes 2 k.name.length ++ k.net ++ k.name) (c := [])
  · simp [layout]
  · simp [length_beBytes, hdrLen]; omega
  · simp [layout, length_beBytes, hdrLen]; omega

theorem keyRegion_layout : slice? (layout k p ts ex w) offKeyFlags (hdrLen + k.net.length + k.name.length)
    = some ([keyFlags k]
    ++ beBytes 2 k.qtype ++ beBytes 2 k.qclass ++ [k.ecsMask.toUInt8]
    ++ beBytes 2 k.net.length ++ beBytes 2 k.name.length ++ k.net ++ k.name) := by
  apply slice?_mid (a := [0, if p then 1 else 0] ++ beBytes 8 (toU64 ts) ++ beBytes 8 (toU64 ex)) (c := w)
  · simp [layout]
  · simp [length_beBytes, offKeyFlags]
  · simp [length_beBytes, hdrLen]; omega

theorem maskToNat (h : k.ecsMask < 256) : k.ecsMask.toUInt8.toNat = k.ecsMask := by
  simp; omega

theorem keyFlags_inj {a b : LruKey} (h : keyFlags a = keyFlags b) : a.dnssecOk = b.dnssecOk ∧ a.cd = b.cd := by
  unfold keyFlags at h
  revert h
  cases a.dnssecOk <;> cases a.cd <;> cases b.dnssecOk <;> cases b.cd <;> decide

theorem flag_do : (keyFlags k &&& 1 != 0) = k.dnssecOk := by
  unfold keyFlags; cases k.dnssecOk <;> cases k.cd <;> decide
theorem flag_cd : (keyFlags k &&& 2 != 0) = k.cd := by
  unfold keyFlags; cases k.dnssecOk <;> cases k.cd <;> decide

theorem newFromWire_some {k : LruKey} {p ts ex w b} (h : newFromWire k p ts ex w = some b) :
    k.name.length ≤ maxUint16 ∧ k.net.length ≤ maxUint16 ∧ b = layout k p ts ex w := by
  by_cases h1 : k.name.length > maxUint16
  · simp [newFromWire, h1] at h
  · by_cases h2 : k.net.length > maxUint16
    · simp [newFromWire, h2] at h
    · rw [newFromWire_layout _ _ _ _ _ (by omega) (by omega)] at h
      refine ⟨by omega, by omega, ?_⟩
      simpa using h.symm
end Verif.Blob
