import Verif.Lemmas.Pack

/-!
# Properties of packing: C08 .. C10
-/

namespace Zinx.Props

open Zinx Zinx.Spec Zinx.Pack Zinx.Frame

/-! ## C08, C09 -/

/-- **C08.** TLV round trip, whatever follows in the stream: the packed bytes are exactly type, length, payload, and `Unpack` of the
stream gives the ID and the length back, and the payload is what follows the header. -/
theorem C08_tlv_roundtrip (maxPacketSize id : UInt32) (data rest : Bytes) (hlen : data.length < 2 ^ 32)
    (hmax : maxPacketSize = 0 ∨ data.length ≤ maxPacketSize.toNat) :
    packTlv (newMsgPackage id data) = tlvWire id data ∧
    ∃ m, unpackTlv maxPacketSize (packTlv (newMsgPackage id data) ++ rest) = .ok m ∧ m.id = id ∧
      m.dataLen.toNat = data.length ∧
      ((packTlv (newMsgPackage id data) ++ rest).drop 8).take m.dataLen.toNat = data := by
  rw [packTlv_eq id data hlen]
  refine ⟨rfl, { id := id, dataLen := UInt32.ofNat data.length, data := [], rawData := [] }, ?_, rfl, ?_, ?_⟩
  · have e1 : (tlvWire id data ++ rest).take 4 = be32 id.toNat := by
      unfold tlvWire; rw [List.append_assoc, List.append_assoc]; rfl
    have e2 : (tlvWire id data ++ rest).drop 4 = be32 data.length ++ (data ++ rest) := by
      unfold tlvWire; rw [List.append_assoc, List.append_assoc]; rfl
    have l1 : ¬ (tlvWire id data ++ rest).length < 4 := by simp [tlvWire, be32]
    unfold unpackTlv
    simp only [readUint32, if_neg l1, e1, e2]
    rw [if_neg (by simp [be32])]
    have e3 : (be32 data.length ++ (data ++ rest)).take 4 = be32 data.length := rfl
    simp only [e3]
    rw [getUint32_be32 _ (UInt32.toNat_lt id), getUint32_be32 _ hlen, UInt32.ofNat_toNat]
    rw [if_neg]
    rintro ⟨h1, h2⟩
    rcases hmax with h | h
    · subst h; exact absurd h1 (by decide)
    · have h2' : maxPacketSize.toNat < (UInt32.ofNat data.length).toNat := UInt32.lt_iff_toNat_lt.1 h2
      rw [UInt32.toNat_ofNat', Nat.mod_eq_of_lt hlen] at h2'
      omega
  · rw [UInt32.toNat_ofNat', Nat.mod_eq_of_lt hlen]
  · simp only
    rw [UInt32.toNat_ofNat', Nat.mod_eq_of_lt hlen]
    have : (tlvWire id data ++ rest).drop 8 = data ++ rest := by
      unfold tlvWire; rw [List.append_assoc, List.append_assoc]; rfl
    rw [this]; simp

example : ∃ m, unpackTlv 4096 (packTlv (newMsgPackage 70000 [1, 2, 3]) ++ [9, 9]) = .ok m ∧ m.id = 70000 ∧
      m.dataLen.toNat = 3 ∧ ((packTlv (newMsgPackage 70000 [1, 2, 3]) ++ [9, 9]).drop 8).take m.dataLen.toNat = [1, 2, 3] :=
  (C08_tlv_roundtrip 4096 70000 [1, 2, 3] [9, 9] (by decide) (.inr (by decide))).2

/-- **C08.** A message whose setters were used is packed with the ID, length and data set last, whatever its raw data. -/
theorem C08_any_message (m : Message) (hd : m.dataLen.toNat = m.data.length) : packTlv m = tlvWire m.id m.data := by
  have hlt : m.data.length < 2 ^ 32 := hd ▸ m.dataLen.toNat_lt
  have e : m.dataLen = UInt32.ofNat m.data.length := by rw [← hd, UInt32.ofNat_toNat]
  rw [← packTlv_eq m.id m.data hlt]
  simp only [packTlv, newMsgPackage, e]

example : (((newMsgPackage 1 [1]).setData [2, 3]).setDataLen 2).dataLen.toNat = (((newMsgPackage 1 [1]).setData [2, 3]).setDataLen 2).data.length := rfl

/-- **C09.** A message whose setters were used is packed with the ID, length and data set last, whatever its raw data. -/
theorem C09_any_message (m : Message) (hd : m.dataLen.toNat = m.data.length) : packLtv m = ltvWire m.id m.data := by
  have hlt : m.data.length < 2 ^ 32 := hd ▸ m.dataLen.toNat_lt
  have e : m.dataLen = UInt32.ofNat m.data.length := by rw [← hd, UInt32.ofNat_toNat]
  rw [← packLtv_eq m.id m.data hlt]
  simp only [packLtv, newMsgPackage, e]

example : (((newMsgPackage 1 [1]).setData [2, 3]).setDataLen 2).dataLen.toNat = (((newMsgPackage 1 [1]).setData [2, 3]).setDataLen 2).data.length := rfl

/-- **C09.** LTV round trip. -/
theorem C09_ltv_roundtrip (maxPacketSize id : UInt32) (data rest : Bytes) (hlen : data.length < 2 ^ 32)
    (hmax : maxPacketSize = 0 ∨ data.length ≤ maxPacketSize.toNat) :
    packLtv (newMsgPackage id data) = ltvWire id data ∧
    ∃ m, unpackLtv maxPacketSize (packLtv (newMsgPackage id data) ++ rest) = .ok m ∧ m.id = id ∧
      m.dataLen.toNat = data.length ∧
      ((packLtv (newMsgPackage id data) ++ rest).drop 8).take m.dataLen.toNat = data := by
  rw [packLtv_eq id data hlen]
  refine ⟨rfl, { id := id, dataLen := UInt32.ofNat data.length, data := [], rawData := [] }, ?_, rfl, ?_, ?_⟩
  · have e1 : (ltvWire id data ++ rest).take 4 = le32 data.length := by
      unfold ltvWire; rw [List.append_assoc, List.append_assoc]; rfl
    have e2 : (ltvWire id data ++ rest).drop 4 = le32 id.toNat ++ (data ++ rest) := by
      unfold ltvWire; rw [List.append_assoc, List.append_assoc]; rfl
    have l1 : ¬ (ltvWire id data ++ rest).length < 4 := by simp [ltvWire, le32, be32]
    unfold unpackLtv
    simp only [readUint32, if_neg l1, e1, e2]
    rw [if_neg (by simp [le32, be32])]
    have e3 : (le32 id.toNat ++ (data ++ rest)).take 4 = le32 id.toNat := rfl
    simp only [e3]
    rw [getUint32_le32 _ (UInt32.toNat_lt id), getUint32_le32 _ hlen, UInt32.ofNat_toNat]
    rw [if_neg]
    rintro ⟨h1, h2⟩
    rcases hmax with h | h
    · subst h; exact absurd h1 (by decide)
    · have h2' : maxPacketSize.toNat < (UInt32.ofNat data.length).toNat := UInt32.lt_iff_toNat_lt.1 h2
      rw [UInt32.toNat_ofNat', Nat.mod_eq_of_lt hlen] at h2'
      omega
  · rw [UInt32.toNat_ofNat', Nat.mod_eq_of_lt hlen]
  · simp only
    rw [UInt32.toNat_ofNat', Nat.mod_eq_of_lt hlen]
    have : (ltvWire id data ++ rest).drop 8 = data ++ rest := by
      unfold ltvWire; rw [List.append_assoc, List.append_assoc]; rfl
    rw [this]; simp

example : ∃ m, unpackLtv 3 (packLtv (newMsgPackage 70000 [1, 2, 3]) ++ [9, 9]) = .ok m ∧ m.id = 70000 ∧
      m.dataLen.toNat = 3 ∧ ((packLtv (newMsgPackage 70000 [1, 2, 3]) ++ [9, 9]).drop 8).take m.dataLen.toNat = [1, 2, 3] :=
  (C09_ltv_roundtrip 3 70000 [1, 2, 3] [9, 9] (by decide) (.inr (by decide))).2

/-! ## C10 -/

theorem getUint32_toNat (o : Order) (s : Bytes) (h : s.length ≤ 4) : (getUint32 o s).toNat = uintValue o s := by
  unfold getUint32
  rw [binaryUint_eq, UInt32.toNat_ofNat', Nat.mod_eq_of_lt]
  have h1 := uintValue_lt o s
  have h2 : 256 ^ s.length ≤ 256 ^ 4 := Nat.pow_le_pow_right (by decide) h
  have : (256 : Nat) ^ 4 = 2 ^ 32 := by decide
  omega

/-- **C10 (TLV).** The three outcomes of `Unpack`, and exactly when each occurs. -/
theorem C10_unpack_tlv (maxPacketSize : UInt32) (s : Bytes) :
    (s.length < 8 → unpackTlv maxPacketSize s = .error .short) ∧
    (8 ≤ s.length → 0 < maxPacketSize.toNat → maxPacketSize.toNat < beValue ((s.drop 4).take 4) →
      unpackTlv maxPacketSize s = .error .tooLarge) ∧
    (8 ≤ s.length → (maxPacketSize.toNat = 0 ∨ beValue ((s.drop 4).take 4) ≤ maxPacketSize.toNat) →
      ∃ m, unpackTlv maxPacketSize s = .ok m ∧ m.id.toNat = beValue (s.take 4) ∧
        m.dataLen.toNat = beValue ((s.drop 4).take 4) ∧ m.data = []) := by
  have hv1 := getUint32_toNat .big (s.take 4) (by simp; omega)
  have hv2 := getUint32_toNat .big ((s.drop 4).take 4) (by simp; omega)
  have hz : (0 : UInt32).toNat = 0 := rfl
  refine ⟨?_, ?_, ?_⟩
  · intro h
    unfold unpackTlv readUint32
    by_cases h4 : s.length < 4
    · simp only [if_pos h4]
    · simp only [if_neg h4]
      rw [if_pos (by simp; omega)]
  · intro h h0 hlt
    unfold unpackTlv readUint32
    simp only [if_neg (show ¬ s.length < 4 by omega)]
    rw [if_neg (by simp; omega)]
    simp only
    rw [if_pos]
    exact ⟨UInt32.lt_iff_toNat_lt.2 (by rw [hz]; omega), UInt32.lt_iff_toNat_lt.2 (by rw [hv2]; exact hlt)⟩
  · intro h hle
    refine ⟨{ id := getUint32 .big (s.take 4), dataLen := getUint32 .big ((s.drop 4).take 4), data := [], rawData := [] },
      ?_, hv1, hv2, rfl⟩
    · unfold unpackTlv readUint32
      simp only [if_neg (show ¬ s.length < 4 by omega)]
      rw [if_neg (by simp; omega)]
      simp only
      rw [if_neg]
      rintro ⟨h1, h2⟩
      have h1' := UInt32.lt_iff_toNat_lt.1 h1
      have h2' := UInt32.lt_iff_toNat_lt.1 h2
      rw [hv2] at h2'
      rw [hz] at h1'
      simp only [uintValue] at h2'
      omega

/-- **C10 (LTV).** -/
theorem C10_unpack_ltv (maxPacketSize : UInt32) (s : Bytes) :
    (s.length < 8 → unpackLtv maxPacketSize s = .error .short) ∧
    (8 ≤ s.length → 0 < maxPacketSize.toNat → maxPacketSize.toNat < leValue (s.take 4) →
      unpackLtv maxPacketSize s = .error .tooLarge) ∧
    (8 ≤ s.length → (maxPacketSize.toNat = 0 ∨ leValue (s.take 4) ≤ maxPacketSize.toNat) →
      ∃ m, unpackLtv maxPacketSize s = .ok m ∧ m.dataLen.toNat = leValue (s.take 4) ∧
        m.id.toNat = leValue ((s.drop 4).take 4) ∧ m.data = []) := by
  have hv1 := getUint32_toNat .little (s.take 4) (by simp; omega)
  have hv2 := getUint32_toNat .little ((s.drop 4).take 4) (by simp; omega)
  have hz : (0 : UInt32).toNat = 0 := rfl
  refine ⟨?_, ?_, ?_⟩
  · intro h
    unfold unpackLtv readUint32
    by_cases h4 : s.length < 4
    · simp only [if_pos h4]
    · simp only [if_neg h4]
      rw [if_pos (by simp; omega)]
  · intro h h0 hlt
    unfold unpackLtv readUint32
    simp only [if_neg (show ¬ s.length < 4 by omega)]
    rw [if_neg (by simp; omega)]
    simp only
    rw [if_pos]
    exact ⟨UInt32.lt_iff_toNat_lt.2 (by rw [hz]; omega), UInt32.lt_iff_toNat_lt.2 (by rw [hv1]; exact hlt)⟩
  · intro h hle
    refine ⟨{ dataLen := getUint32 .little (s.take 4), id := getUint32 .little ((s.drop 4).take 4), data := [], rawData := [] },
      ?_, hv1, hv2, rfl⟩
    · unfold unpackLtv readUint32
      simp only [if_neg (show ¬ s.length < 4 by omega)]
      rw [if_neg (by simp; omega)]
      simp only
      rw [if_neg]
      rintro ⟨h1, h2⟩
      have h1' := UInt32.lt_iff_toNat_lt.1 h1
      have h2' := UInt32.lt_iff_toNat_lt.1 h2
      rw [hv1] at h2'
      rw [hz] at h1'
      simp only [uintValue] at h2'
      omega

example : unpackTlv 10 [0, 0, 0, 5, 0, 0, 0, 11] = .error .tooLarge :=
  (C10_unpack_tlv 10 _).2.1 (by decide) (by decide) (by decide)
example : ∃ m, unpackLtv 0 [11, 0, 0, 1, 5, 0, 0, 0, 7] = .ok m ∧ m.dataLen.toNat = 16777227 ∧ m.id.toNat = 5 ∧ m.data = [] :=
  (C10_unpack_ltv 0 [11, 0, 0, 1, 5, 0, 0, 0, 7]).2.2 (by decide) (.inl rfl)
example : unpackLtv 0 [11, 0, 0, 1, 5, 0, 0] = .error .short := (C10_unpack_ltv 0 _).1 (by decide)

end Zinx.Props
