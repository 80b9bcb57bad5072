import Verif.Model.Basic

/-!
# Reference description of CRC-16/MODBUS

The textbook bit-by-bit algorithm: reflected polynomial 0xA001, initial value 0xFFFF, result low byte first.
-/

namespace Zinx.Spec

open Zinx

/-- One shift of the register. -/
def crcShift (c : BitVec 16) : BitVec 16 :=
  if c.getLsbD 0 then (c >>> 1) ^^^ 0xA001#16 else c >>> 1

/-- `n` shifts. -/
def crcShifts : Nat → BitVec 16 → BitVec 16
  | 0, c => c
  | n + 1, c => crcShifts n (crcShift c)

/-- Feed one byte: xor it into the low half, shift eight times. -/
def crcByte (c : BitVec 16) (b : UInt8) : BitVec 16 := crcShifts 8 (c ^^^ b.toBitVec.setWidth 16)

/-- CRC-16/MODBUS register after a byte string. -/
def crcModbus (s : Bytes) : BitVec 16 := s.foldl crcByte 0xFFFF#16

/-- The two checksum bytes, low byte first. -/
def crcTrailer (s : Bytes) : Bytes :=
  [UInt8.ofBitVec ((crcModbus s).setWidth 8), UInt8.ofBitVec ((crcModbus s >>> 8).setWidth 8)]

/-- The bits of a byte string in the order in which the checksum sees them (least significant first). -/
def bitsOf (s : Bytes) : List Bool :=
  s.flatMap fun b => (List.range 8).map fun i => b.toBitVec.getLsbD i

end Zinx.Spec
