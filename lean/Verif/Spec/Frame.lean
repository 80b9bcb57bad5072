import Verif.Model.Basic

/-!
# Reference description of length-field framing

Independent of the decoder model: a byte stream, a format, and which lists of frames a stream spells.
-/

namespace Zinx.Spec

open Zinx

/-- Value of a byte string in positional notation, most significant byte first. -/
def beValue : Bytes → Nat
  | [] => 0
  | b :: bs => b.toNat * 256 ^ bs.length + beValue bs

/-- Value of a byte string in positional notation, least significant byte first. -/
def leValue : Bytes → Nat
  | [] => 0
  | b :: bs => b.toNat + 256 * leValue bs

/-- Value of a byte string in the given byte order. -/
def uintValue : Order → Bytes → Nat
  | .big => beValue
  | .little => leValue

/-- A length-field format. -/
structure FrameFormat where
  offset : Nat
  width : Nat
  adjust : Int
  strip : Nat
  order : Order
  max : Nat

/-- The formats the library documents: a supported width and sizes that fit a 64-bit platform. -/
structure FrameFormat.Valid (f : FrameFormat) : Prop where
  width : f.width = 1 ∨ f.width = 2 ∨ f.width = 3 ∨ f.width = 4 ∨ f.width = 8
  fits : f.offset + f.width < 2 ^ 63
  maxFits : f.max < 2 ^ 63

/-- The bytes of the length field. -/
def FrameFormat.field (f : FrameFormat) (s : Bytes) : Bytes := (s.drop f.offset).take f.width

/-- The number in the length field: unsigned, except that an eight byte field is two's complement. -/
def FrameFormat.fieldValue (f : FrameFormat) (s : Bytes) : Int :=
  let v : Int := uintValue f.order (f.field s)
  if f.width = 8 ∧ v ≥ 2 ^ 63 then v - 2 ^ 64 else v

/-- The total frame length announced by the first bytes of the stream. -/
def FrameFormat.announced (f : FrameFormat) (s : Bytes) : Int :=
  f.fieldValue s + f.adjust + (f.offset + f.width : Nat)

/-- The stream starts with a complete header. -/
def FrameFormat.HasHeader (f : FrameFormat) (s : Bytes) : Prop := f.offset + f.width ≤ s.length

instance (f : FrameFormat) (s : Bytes) : Decidable (f.HasHeader s) := inferInstanceAs (Decidable (_ ≤ _))

/-- The stream starts with the header of an acceptable frame of total length `n`. -/
structure FrameFormat.Starts (f : FrameFormat) (s : Bytes) (n : Nat) : Prop where
  header : f.HasHeader s
  nonneg : 0 ≤ f.fieldValue s
  length : f.announced s = n
  pos : 1 ≤ n
  le_max : n ≤ f.max
  strip : f.strip ≤ n

/-- No complete frame yet: header incomplete, or an acceptable frame is announced but not all there. -/
def FrameFormat.Incomplete (f : FrameFormat) (s : Bytes) : Prop :=
  s.length < f.offset + f.width ∨ ∃ n, f.Starts s n ∧ s.length < n

/-- `f.Spells s fs t`: the stream `s` is made of complete acceptable frames whose stripped contents are
`fs`, followed by the incomplete rest `t`. -/
inductive FrameFormat.Spells (f : FrameFormat) : Bytes → List Bytes → Bytes → Prop
  | wait {s} : f.Incomplete s → Spells f s [] s
  | frame {s n fs t} : f.Starts s n → n ≤ s.length → Spells f (s.drop n) fs t →
      Spells f s ((s.take n).drop f.strip :: fs) t

/-- One whole acceptable frame. -/
def FrameFormat.IsFrame (f : FrameFormat) (fr : Bytes) : Prop := f.Starts fr fr.length

end Zinx.Spec
