import Verif.Lemmas.CrcDetect

/-!
# Properties of the checksum: C14, C15, C68
-/

namespace Zinx.Props

open Zinx Zinx.Spec Zinx.Crc

/-- **C14.** The table-driven function is CRC-16/MODBUS on every byte string; and the table lookups are always in range. -/
theorem C14_crc_is_modbus (s : Bytes) :
    getCrC s = crcTrailer s ∧ crc16_h.size = 256 ∧ crc16_l.size = 256 := ⟨getCrC_eq s, crc_index⟩

/-- The standard check value of CRC-16/MODBUS: "123456789" gives 0x4B37. -/
example : getCrC [0x31, 0x32, 0x33, 0x34, 0x35, 0x36, 0x37, 0x38, 0x39] = [0x37, 0x4B] := by decide +kernel
example : crcModbus [0x31, 0x32, 0x33, 0x34, 0x35, 0x36, 0x37, 0x38, 0x39] = 0x4B37#16 := by decide +kernel

/-- A frame (data followed by two checksum bytes) passes the checksum test of the HTLV decoder. -/
def Accepted (fr : Bytes) : Prop := 2 ≤ fr.length ∧ checkCRC (fr.take (fr.length - 2)) (fr.drop (fr.length - 2)) = true

theorem accepted_iff (fr : Bytes) (h : 2 ≤ fr.length) : Accepted fr ↔ foldBits 0xFFFF#16 (bitsOf fr) = 0#16 := by
  have h2 : (fr.drop (fr.length - 2)).length = 2 := by simp; omega
  match hd : fr.drop (fr.length - 2), h2 with
  | [x, y], _ =>
    have hfr : fr = fr.take (fr.length - 2) ++ [x, y] := by rw [← hd, List.take_append_drop]
    unfold Accepted
    rw [hd, checkCRC_iff, ← hfr, crcModbus_bits]
    simp [h]

theorem accepted_neq {a b : Bytes} (ha : Accepted a)
    (h : foldBits 0xFFFF#16 (bitsOf a) ≠ foldBits 0xFFFF#16 (bitsOf b)) : ¬ Accepted b := by
  intro hb
  rw [accepted_iff a ha.1] at ha
  rw [accepted_iff b hb.1] at hb
  exact h (ha.trans hb.symm)

/-- **C15.** Changing one byte or two adjacent bytes anywhere changes the checksum. -/
theorem C15_adjacent_bytes_change_crc (pre post : Bytes) (x y x' y' : UInt8) :
    ((x, y) ≠ (x', y') → getCrC (pre ++ [x, y] ++ post) ≠ getCrC (pre ++ [x', y'] ++ post)) ∧
    (x ≠ x' → getCrC (pre ++ [x] ++ post) ≠ getCrC (pre ++ [x'] ++ post)) := by
  have key : ∀ w w' : Bytes, w.length = w'.length → w.length ≤ 2 → w ≠ w' →
      getCrC (pre ++ w ++ post) ≠ getCrC (pre ++ w' ++ post) := by
    intro w w' hl h2 hne h
    rw [getCrC_eq, getCrC_eq] at h
    have hreg : crcModbus (pre ++ w ++ post) = crcModbus (pre ++ w' ++ post) := by
      unfold crcTrailer at h
      simp only [List.cons.injEq, and_true] at h
      rw [← reg_trailer (crcModbus (pre ++ w ++ post)), h.1, h.2, reg_trailer]
    rw [crcModbus_bits, crcModbus_bits] at hreg
    simp only [bitsOf_append] at hreg
    exact burst_detected (bitsOf pre) (bitsOf w) (bitsOf w') (bitsOf post)
      (by rw [bitsOf_length, bitsOf_length, hl]) (by rw [bitsOf_length]; omega) (fun h => hne (bitsOf_inj h)) _ hreg
  exact ⟨fun h => key [x, y] [x', y'] rfl (by simp) (by simpa using h),
    fun h => key [x] [x'] rfl (by simp) (by simpa using h)⟩

example : getCrC ([1, 2] ++ [3, 4] ++ [5]) ≠ getCrC ([1, 2] ++ [4, 3] ++ [5]) :=
  (C15_adjacent_bytes_change_crc [1, 2] [5] 3 4 4 3).1 (by decide)

/-- **C15.** A frame accepted by the checksum test is rejected after changing one or two adjacent bytes anywhere in it, also
across the border between data and checksum and inside the checksum. -/
theorem C15_corrupted_frame_rejected (pre post w w' : Bytes) (hl : w.length = w'.length) (h2 : w.length ≤ 2) (hne : w ≠ w')
    (ha : Accepted (pre ++ w ++ post)) : ¬ Accepted (pre ++ w' ++ post) := by
  apply accepted_neq ha
  simp only [bitsOf_append]
  exact burst_detected _ _ _ _ (by rw [bitsOf_length, bitsOf_length, hl]) (by rw [bitsOf_length]; omega)
    (fun h => hne (bitsOf_inj h)) _

theorem exAccepted : Accepted [1, 2, 3, 4, 161, 43] := ⟨by decide, by decide +kernel⟩

example : ¬ Accepted [1, 2, 3, 5, 160, 43] :=
  C15_corrupted_frame_rejected [1, 2, 3] [43] [4, 161] [5, 160] rfl (by decide) (by decide) exAccepted

/-! ## C68 -/

/-- **C68 (bursts).** Any change confined to sixteen consecutive bits of an accepted frame is detected. -/
theorem C68_burst_rejected (a b : Bytes) (p w w' r : List Bool) (hab : bitsOf a = p ++ w ++ r) (hb : bitsOf b = p ++ w' ++ r)
    (hl : w.length = w'.length) (h16 : w.length ≤ 16) (hne : a ≠ b) (ha : Accepted a) : ¬ Accepted b := by
  apply accepted_neq ha
  rw [hab, hb]
  refine burst_detected _ _ _ _ hl h16 ?_ _
  rintro rfl
  exact hne (bitsOf_inj (hab.trans hb.symm))

/-- Sixteen bits spread over three bytes. -/
example : ¬ Accepted [1, 2 ^^^ 0xF0, 3 ^^^ 0xFF, 4 ^^^ 0x0F, 161, 43] :=
  C68_burst_rejected [1, 2, 3, 4, 161, 43] _ ((bitsOf [1, 2, 3, 4, 161, 43]).take 12)
    (((bitsOf [1, 2, 3, 4, 161, 43]).drop 12).take 16)
    (((bitsOf [1, 2 ^^^ 0xF0, 3 ^^^ 0xFF, 4 ^^^ 0x0F, 161, 43]).drop 12).take 16)
    ((bitsOf [1, 2, 3, 4, 161, 43]).drop 28) (by decide) (by decide) (by decide) (by decide) (by decide) exAccepted

/-- **C68 (odd).** Flipping an odd number of bits of an accepted frame is detected. -/
theorem C68_odd_rejected (a b : Bytes) (hl : a.length = b.length)
    (hodd : ((List.zipWith xor (bitsOf a) (bitsOf b)).count true) % 2 = 1) (ha : Accepted a) : ¬ Accepted b :=
  accepted_neq ha (odd_detected (by rw [bitsOf_length, bitsOf_length, hl]) hodd _)

example : ¬ Accepted [1, 2, 3 ^^^ 1, 4, 161 ^^^ 0x80, 43 ^^^ 0x10] :=
  C68_odd_rejected [1, 2, 3, 4, 161, 43] _ rfl (by decide) exAccepted

/-- **C68 (two bits).** Flipping any two bits of an accepted frame of less than 2048 bytes is detected (the frames of the shipped
decoder have at most 260 bytes). -/
theorem C68_two_bits_rejected (a b : Bytes) (hlen : a.length < 2048) (p q r : List Bool) (x y : Bool)
    (hab : bitsOf a = p ++ x :: (q ++ y :: r)) (hb : bitsOf b = p ++ (!x) :: (q ++ (!y) :: r)) (ha : Accepted a) :
    ¬ Accepted b := by
  apply accepted_neq ha
  rw [hab, hb]
  refine two_detected _ _ _ _ _ ?_ _
  have := congrArg List.length hab
  rw [bitsOf_length] at this
  simp at this
  omega

example : ¬ Accepted [1 ^^^ 1, 2, 3, 4, 161, 43 ^^^ 0x80] :=
  C68_two_bits_rejected [1, 2, 3, 4, 161, 43] _ (by decide) [] (((bitsOf [1, 2, 3, 4, 161, 43]).drop 1).take 46) []
    true false (by decide) (by decide) exAccepted

end Zinx.Props
