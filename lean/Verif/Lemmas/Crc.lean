import Verif.Model.Crc
import Verif.Spec.Crc

namespace Zinx.Crc

open Zinx Zinx.Spec

/-! ## Algebra of the shift register -/

theorem crcShift_eq (c : BitVec 16) : crcShift c = (c >>> 1) ^^^ (if c.getLsbD 0 then 0xA001#16 else 0#16) := by
  unfold crcShift; split <;> simp

theorem crcShift_xor (x y : BitVec 16) : crcShift (x ^^^ y) = crcShift x ^^^ crcShift y := by
  have h : ∀ a b : Bool, (if (a ^^ b) then 0xA001#16 else 0#16) =
      (if a then 0xA001#16 else 0#16) ^^^ (if b then 0xA001#16 else 0#16) := by decide
  rw [crcShift_eq, crcShift_eq, crcShift_eq, BitVec.getLsbD_xor, h, BitVec.ushiftRight_xor_distrib]
  ac_rfl

theorem crcShifts_xor (n : Nat) (x y : BitVec 16) : crcShifts n (x ^^^ y) = crcShifts n x ^^^ crcShifts n y := by
  induction n generalizing x y with
  | zero => rfl
  | succ n ih => rw [crcShifts, crcShift_xor, ih]; rfl

theorem crcShift_zero : crcShift 0#16 = 0#16 := by decide

theorem crcShifts_zero (n : Nat) : crcShifts n 0#16 = 0#16 := by
  induction n with
  | zero => rfl
  | succ n ih => rw [crcShifts, crcShift_zero, ih]

theorem crcShifts_add (m n : Nat) (x : BitVec 16) : crcShifts (m + n) x = crcShifts n (crcShifts m x) := by
  induction m generalizing x with
  | zero => simp [crcShifts]
  | succ m ih => rw [Nat.succ_add, crcShifts, ih]; rfl

/-- Only zero shifts to zero: the top bit of the polynomial remembers the bit shifted out. -/
theorem crcShift_eq_zero {c : BitVec 16} (h : crcShift c = 0#16) : c = 0#16 := by
  rw [crcShift_eq] at h
  have h15 : c.getLsbD 0 = false := by
    have := congrArg (fun v : BitVec 16 => v.getLsbD 15) h
    simp only [BitVec.getLsbD_xor, BitVec.getLsbD_ushiftRight] at this
    cases hc : c.getLsbD 0 with
    | false => rfl
    | true =>
      rw [hc, if_pos rfl] at this
      rw [BitVec.getLsbD_of_ge c (1 + 15) (by omega)] at this
      exact absurd this (by decide)
  rw [h15] at h
  simp only [Bool.false_eq_true, if_false, BitVec.xor_zero] at h
  apply BitVec.eq_of_getLsbD_eq
  intro i hi
  rw [BitVec.getLsbD_zero]
  match i with
  | 0 => exact h15
  | i + 1 =>
    have := congrArg (fun v : BitVec 16 => v.getLsbD i) h
    simp only [BitVec.getLsbD_ushiftRight, BitVec.getLsbD_zero] at this
    rwa [Nat.add_comm] at this

theorem crcShifts_eq_zero {n : Nat} {c : BitVec 16} (h : crcShifts n c = 0#16) : c = 0#16 := by
  induction n generalizing c with
  | zero => exact h
  | succ n ih => exact crcShift_eq_zero (ih h)

theorem xor_eq_zero_iff {w : Nat} {x y : BitVec w} : x ^^^ y = 0#w ↔ x = y := by
  constructor
  · intro h
    have : x ^^^ y ^^^ y = 0#w ^^^ y := by rw [h]
    rwa [BitVec.xor_assoc, BitVec.xor_self, BitVec.xor_zero, BitVec.zero_xor] at this
  · rintro rfl; exact BitVec.xor_self

theorem crcShifts_inj {n : Nat} {x y : BitVec 16} : crcShifts n x = crcShifts n y ↔ x = y := by
  constructor
  · intro h
    apply xor_eq_zero_iff.1
    apply crcShifts_eq_zero (n := n)
    rw [crcShifts_xor, h, BitVec.xor_self]
  · rintro rfl; rfl

/-- A byte in the high half is just moved down by eight shifts. -/
theorem crcShifts_high (b : BitVec 8) : crcShifts 8 (b.setWidth 16 <<< 8) = b.setWidth 16 := by
  have h : ∀ i : Fin 256, crcShifts 8 ((BitVec.ofFin i : BitVec 8).setWidth 16 <<< 8) =
      (BitVec.ofFin i : BitVec 8).setWidth 16 := by decide +kernel
  exact h b.toFin

/-! ## The tables -/

/-- The two tables hold the high and low byte of the register after eight shifts of the index. -/
theorem tables_correct : ∀ i : Fin 256, crcShifts 8 ((BitVec.ofFin i : BitVec 8).setWidth 16) =
    (crc16_l.getD i 0).toBitVec.setWidth 16 <<< 8 ^^^ (crc16_h.getD i 0).toBitVec.setWidth 16 := by
  decide +kernel

/-- Both tables have 256 entries, so the masked index is always in range. -/
theorem crc_index : crc16_h.size = 256 ∧ crc16_l.size = 256 := by decide +kernel

/-- The register represented by the two halves used in the code. -/
def reg (hi low : UInt8) : BitVec 16 := hi.toBitVec.setWidth 16 <<< 8 ^^^ low.toBitVec.setWidth 16

theorem pos_eq (low b : UInt8) : (low.toUInt16 ^^^ b.toUInt16) &&& 0x00ff = (low ^^^ b).toUInt16 := by
  have h : ∀ i : Fin 256, (UInt8.ofFin i).toUInt16 &&& 0x00ff = (UInt8.ofFin i).toUInt16 := by decide +kernel
  have := h (low ^^^ b).toFin
  rw [← UInt8.toUInt16_xor]
  exact this

theorem step_eq (hi low b : UInt8) :
    ∃ hi' low' : UInt8, step (hi.toUInt16, low.toUInt16) b = (hi'.toUInt16, low'.toUInt16) ∧
      reg hi' low' = crcByte (reg hi low) b := by
  have ht := tables_correct (low ^^^ b).toBitVec.toFin
  have e1 : ((low ^^^ b).toBitVec.toFin : Nat) = (low ^^^ b).toNat := rfl
  rw [e1] at ht
  have e2 : (BitVec.ofFin (low ^^^ b).toBitVec.toFin : BitVec 8) = low.toBitVec ^^^ b.toBitVec := rfl
  rw [e2, BitVec.setWidth_xor] at ht
  have hs : step (hi.toUInt16, low.toUInt16) b =
      ((crc16_l.getD (low ^^^ b).toNat 0).toUInt16, hi.toUInt16 ^^^ (crc16_h.getD (low ^^^ b).toNat 0).toUInt16) := by
    simp only [step, pos_eq, UInt8.toNat_toUInt16]
  rw [hs]
  generalize crc16_l.getD (low ^^^ b).toNat 0 = tl at *
  generalize crc16_h.getD (low ^^^ b).toNat 0 = th at *
  refine ⟨tl, hi ^^^ th, by rw [UInt8.toUInt16_xor], ?_⟩
  unfold reg crcByte
  rw [BitVec.xor_assoc, crcShifts_xor, crcShifts_high, ht, UInt8.toBitVec_xor, BitVec.setWidth_xor]
  ac_rfl

theorem foldl_step (s : Bytes) (hi low : UInt8) :
    ∃ hi' low' : UInt8, s.foldl step (hi.toUInt16, low.toUInt16) = (hi'.toUInt16, low'.toUInt16) ∧
      reg hi' low' = s.foldl crcByte (reg hi low) := by
  induction s generalizing hi low with
  | nil => exact ⟨hi, low, rfl, rfl⟩
  | cons b s ih =>
    obtain ⟨h1, l1, e1, r1⟩ := step_eq hi low b
    obtain ⟨h2, l2, e2, r2⟩ := ih h1 l1
    exact ⟨h2, l2, by rw [List.foldl_cons, e1, e2], by rw [r2, r1]; rfl⟩

theorem reg_low (hi low : UInt8) : UInt8.ofBitVec ((reg hi low).setWidth 8) = low := by
  apply UInt8.toBitVec_inj.1
  apply BitVec.eq_of_getLsbD_eq
  intro i h
  have h1 : i < 16 := by omega
  simp [reg, h]

theorem reg_high (hi low : UInt8) : UInt8.ofBitVec ((reg hi low >>> 8).setWidth 8) = hi := by
  apply UInt8.toBitVec_inj.1
  apply BitVec.eq_of_getLsbD_eq
  intro i h
  have h1 : 8 + i < 16 := by omega
  have h2 : low.toBitVec.getLsbD (8 + i) = false := BitVec.getLsbD_of_ge _ _ (by omega)
  have h3 : i < 16 := by omega
  simp [reg, h, h1, h3]

theorem ff8 : ∀ i : Fin 8, (0xff#8)[i.val] = true := by decide
theorem ff16 : ∀ i : Fin 8, (0xff#16)[i.val] = true := by decide

theorem getCrC_eq (s : Bytes) : getCrC s = crcTrailer s := by
  obtain ⟨hi, low, h1, h2⟩ := foldl_step s 0xff 0xff
  have e1 : (0xff : UInt8).toUInt16 = 0x00ff := by decide
  have e2 : reg 0xff 0xff = 0xFFFF#16 := by decide
  rw [e1] at h1
  rw [e2] at h2
  have hr : crcModbus s = reg hi low := h2.symm
  unfold getCrC crcTrailer
  rw [h1, hr, reg_low, reg_high]
  have hlo : ((((hi.toUInt16 &&& 0x00ff) <<< 8) ||| ((low.toUInt16 &&& 0x00ff) &&& 0xffff)) &&& 0xff).toUInt8 = low := by
    apply UInt8.toBitVec_inj.1
    apply BitVec.eq_of_getLsbD_eq
    intro i h
    simp [h]
    exact fun _ => ff8 ⟨i, h⟩
  have hhi : (((((hi.toUInt16 &&& 0x00ff) <<< 8) ||| ((low.toUInt16 &&& 0x00ff) &&& 0xffff)) >>> 8) &&& 0xff).toUInt8 = hi := by
    apply UInt8.toBitVec_inj.1
    apply BitVec.eq_of_getLsbD_eq
    intro i h
    have h1 : i < 16 := by omega
    have h4 : 8 + i < 16 := by omega
    have h5 : (0xff#8)[i] = true := ff8 ⟨i, h⟩
    have h6 : (0xff#16)[i] = true := ff16 ⟨i, h⟩
    simp [h, h1, h4, h5, h6]
  simp only [hlo, hhi]

end Zinx.Crc
