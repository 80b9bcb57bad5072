import Verif.Lemmas.Frame
import Verif.Model.Decoder
import Verif.Spec.Wire

namespace Zinx.Pack

open Zinx Zinx.Spec Zinx.Frame

theorem uint8_ofNat_mod (n : Nat) : (UInt8.ofNat n).toNat = n % 256 := by simp [UInt8.toNat_ofNat']

theorem be32_length (n : Nat) : (be32 n).length = 4 := rfl
theorem le32_length (n : Nat) : (le32 n).length = 4 := rfl

theorem beValue_be32 (n : Nat) (h : n < 2 ^ 32) : beValue (be32 n) = n := by
  simp only [be32, beValue, uint8_ofNat_mod, List.length_cons, List.length_nil]
  omega

theorem leValue_le32 (n : Nat) (h : n < 2 ^ 32) : leValue (le32 n) = n := by
  simp only [le32, be32, List.reverse_cons, List.reverse_nil, List.nil_append, List.cons_append, leValue, uint8_ofNat_mod]
  omega

theorem putUint32_big (v : UInt32) : putUint32 .big v = be32 v.toNat := by
  simp only [putUint32, be32, List.cons.injEq, and_true]
  refine ⟨?_, ?_, ?_, ?_⟩ <;> apply UInt8.toNat_inj.1 <;>
    simp [Nat.shiftRight_eq_div_pow]

theorem putUint32_little (v : UInt32) : putUint32 .little v = le32 v.toNat := by
  have := putUint32_big v
  simp only [putUint32] at *
  simp only [le32, ← this]
  rfl

theorem getUint32_be32 (n : Nat) (h : n < 2 ^ 32) : getUint32 .big (be32 n) = UInt32.ofNat n := by
  rw [getUint32, binaryUint_eq, uintValue, beValue_be32 n h]

theorem getUint32_le32 (n : Nat) (h : n < 2 ^ 32) : getUint32 .little (le32 n) = UInt32.ofNat n := by
  rw [getUint32, binaryUint_eq, uintValue, leValue_le32 n h]

/-- The packers produce the reference format whenever the payload length fits. -/
theorem packTlv_eq (id : UInt32) (data : Bytes) (h : data.length < 2 ^ 32) :
    packTlv (newMsgPackage id data) = tlvWire id data := by
  simp only [packTlv, newMsgPackage, putUint32_big, tlvWire]
  rw [UInt32.toNat_ofNat', Nat.mod_eq_of_lt h]

theorem packLtv_eq (id : UInt32) (data : Bytes) (h : data.length < 2 ^ 32) :
    packLtv (newMsgPackage id data) = ltvWire id data := by
  simp only [packLtv, newMsgPackage, putUint32_little, ltvWire]
  rw [UInt32.toNat_ofNat', Nat.mod_eq_of_lt h]

end Zinx.Pack
