import Verif.Model.Basic

/-!
# Model of `zinterceptor/framedecoder.go` (length-field frame decoder)
-/

namespace Zinx.Frame

open Zinx

/-- `ziface.LengthField` (ziface/idecoder.go; copied field by field in
zinterceptor/framedecoder.go:318-338). `Order == nil` is `none`. -/
structure LengthField where
  maxFrameLength : Nat
  lengthFieldOffset : Int
  lengthFieldLength : Int
  lengthAdjustment : Int
  initialBytesToStrip : Int
  order : Option Order
deriving DecidableEq, Repr

/-- `FrameDecoder` (zinterceptor/framedecoder.go:307-316). The field `failFast` is never assigned in the
repository, so it is the constant `false`; it only guards calls of the empty method `fail` (351-360)
and is left out together with those calls. -/
structure FrameDecoder where
  maxFrameLength : Nat
  lengthFieldOffset : Int
  lengthFieldLength : Int
  lengthAdjustment : Int
  initialBytesToStrip : Int
  order : Order
  lengthFieldEndOffset : Int
  discardingTooLongFrame : Bool
  tooLongFrameLength : Int
  bytesToDiscard : Int
  inBuf : Bytes
deriving DecidableEq, Repr

/-- `NewFrameDecoder` (zinterceptor/framedecoder.go:318-338). -/
def newFrameDecoder (lf : LengthField) : FrameDecoder where
  maxFrameLength := lf.maxFrameLength
  lengthFieldOffset := lf.lengthFieldOffset
  lengthFieldLength := lf.lengthFieldLength
  lengthAdjustment := lf.lengthAdjustment
  initialBytesToStrip := lf.initialBytesToStrip
  order := match lf.order with
    | none => .big
    | some o => o
  lengthFieldEndOffset := wrap64 (lf.lengthFieldOffset + lf.lengthFieldLength)
  discardingTooLongFrame := false
  tooLongFrameLength := 0
  bytesToDiscard := 0
  inBuf := []

/-- `bytes.Buffer.Next` from the Go standard library, as used at zinterceptor/framedecoder.go:372, 428,
472, 482, 490, 565: returns (drops) at most `n` bytes, panics when `n` is negative. The argument is the unread
part of the buffer, the result the unread part afterwards. -/
def bufNext (s : Bytes) (n : Int) : Except Panic Bytes :=
  if n < 0 then .error .sliceBounds else .ok (s.drop n.toNat)

/-- `binary.Read` of a fixed-width unsigned integer (`encoding/binary` of the standard library) on exactly
that many bytes, as used at zinterceptor/framedecoder.go:396, 401, 416, 420. -/
def binaryUint : Order → Bytes → Nat
  | .big, s => s.foldl (fun acc b => acc * 256 + b.toNat) 0
  | .little, s => s.foldr (fun b acc => b.toNat + 256 * acc) 0

/-- `getUnadjustedFrameLength` (zinterceptor/framedecoder.go:383-425). The slice expression of line 388 may in Go
reach into spare capacity; the caller has checked `in.Len() >= LengthFieldEndOffset` (504), so the model makes
the out-of-length case a panic without changing any reachable behaviour. -/
def getUnadjustedFrameLength (buf : Bytes) (offset length : Int) (order : Order) : Except Panic Int :=
  if offset < 0 ∨ length < 0 ∨ offset + length > buf.length then .error .sliceBounds
  else
    let arr := (buf.drop offset.toNat).take length.toNat
    if length = 1 ∨ length = 2 ∨ length = 4 then
      .ok (binaryUint order arr)
    else if length = 3 then
      match arr with
      | [a0, a1, a2] =>
        match order with
        | .little => .ok ((a0.toNat ||| a1.toNat <<< 8 ||| a2.toNat <<< 16 : Nat) : Int)
        | .big => .ok ((a2.toNat ||| a1.toNat <<< 8 ||| a0.toNat <<< 16 : Nat) : Int)
      | _ => .error .sliceBounds
    else if length = 8 then
      .ok (wrap64 (binaryUint order arr))
    else .error .unsupportedLength

/-- `failIfNecessary` (zinterceptor/framedecoder.go:432-455); the calls of the empty method `fail` are left out,
hence the argument `firstDetectionOfTooLongFrame` has no effect. -/
def failIfNecessary (d : FrameDecoder) : FrameDecoder :=
  if d.bytesToDiscard = 0 then
    { d with tooLongFrameLength := 0, discardingTooLongFrame := false }
  else d

/-- `discardingTooLongFrameFunc` (zinterceptor/framedecoder.go:362-381) on the local buffer. `math.Min` on
`float64` is modelled by the integer minimum: it is exact for buffer lengths below 2^53. -/
def discardingTooLongFrameFunc (d : FrameDecoder) (buffer : Bytes) :
    Except Panic (FrameDecoder × Bytes) := do
  let localBytesToDiscard := min d.bytesToDiscard (buffer.length : Int)
  let buffer ← bufNext buffer localBytesToDiscard
  let d := { d with bytesToDiscard := d.bytesToDiscard - localBytesToDiscard }
  return (failIfNecessary d, buffer)

/-- `exceededFrameLength` (zinterceptor/framedecoder.go:459-487). The local buffer `in` is dropped by the caller
(540-541), only the panic of `in.Next` on a negative length is observable. -/
def exceededFrameLength (d : FrameDecoder) (inb : Bytes) (frameLength : Int) :
    Except Panic FrameDecoder := do
  let discard := wrap64 (frameLength - inb.length)
  let d := { d with tooLongFrameLength := frameLength }
  if discard < 0 then
    let _ ← bufNext inb frameLength
    return failIfNecessary d
  else
    let d := { d with discardingTooLongFrame := true, bytesToDiscard := discard }
    return failIfNecessary d

/-- Start of `decode` (zinterceptor/framedecoder.go:495-500): the local buffer over `d.in`, shortened in discard mode. -/
def beginDecode (d : FrameDecoder) : Except Panic (FrameDecoder × Bytes) :=
  if d.discardingTooLongFrame then discardingTooLongFrameFunc d d.inBuf else .ok (d, d.inBuf)

/-- `decode` (zinterceptor/framedecoder.go:494-576), applied to `d.in` as at line 584. Result: the frame (`none` is the
Go `nil`) and the new decoder fields; `d.in` itself is not changed by this function. -/
def decode (d : FrameDecoder) : Except Panic (Option Bytes × FrameDecoder) := do
  let (d, inb) ← beginDecode d
  if (inb.length : Int) < d.lengthFieldEndOffset then
    return (none, d)
  else
    let frameLength ← getUnadjustedFrameLength inb d.lengthFieldOffset d.lengthFieldLength d.order
    if frameLength < 0 then
      .error .negativeLength
    else
      let frameLength := wrap64 (frameLength + wrap64 (d.lengthAdjustment + d.lengthFieldEndOffset))
      if toU64 frameLength > d.maxFrameLength then
        let d ← exceededFrameLength d inb frameLength
        return (none, d)
      else if (inb.length : Int) < frameLength then
        return (none, d)
      else if d.initialBytesToStrip > frameLength then
        .error .stripTooLong
      else
        let inb ← bufNext inb d.initialBytesToStrip
        return (some (inb.take (frameLength - d.initialBytesToStrip).toNat), d)

/-- What a call of `Decode` can do. `hang` is an endless loop. zinterceptor/framedecoder.go:578-598. -/
inductive Outcome where
  | ret (frames : List Bytes) (d : FrameDecoder)
  | panic (p : Panic)
  | hang
deriving DecidableEq, Repr

/-- The loop of `Decode` (zinterceptor/framedecoder.go:583-597), with the number of iterations bounded by the first argument;
running out of it is `hang`. `resp` is the accumulated result. -/
def decodeLoop : Nat → FrameDecoder → List Bytes → Outcome
  | 0, _, _ => .hang
  | n + 1, d, resp =>
    match decode d with
    | .error p => .panic p
    | .ok (none, d') => .ret resp d'
    | .ok (some arr, d') =>
      let size : Int := arr.length + d'.initialBytesToStrip
      if size > 0 then
        if size > d'.inBuf.length then .panic .sliceBounds
        else decodeLoop n { d' with inBuf := d'.inBuf.drop size.toNat } (resp ++ [arr])
      else decodeLoop n d' (resp ++ [arr])

/-- `Decode` (zinterceptor/framedecoder.go:578-598). The iteration bound is not in the code; `Lemmas/Frame.lean` proves
(`decodeLoop_fuel`, `decode_hang_iff`) that it is large enough: the result is `hang` exactly when the Go loop never ends. -/
def Decode (d : FrameDecoder) (buff : Bytes) : Outcome :=
  decodeLoop (2 * (d.inBuf.length + buff.length) + 3) { d with inBuf := d.inBuf ++ buff } []

/-- Decoding a sequence of reads, as the reader loop does (znet/connection.go:241-287): the frames of all reads, in
order, and the final decoder. -/
def decodeReads (d : FrameDecoder) : List Bytes → Outcome
  | [] => .ret [] d
  | r :: rs =>
    match Decode d r with
    | .ret fs d' =>
      match decodeReads d' rs with
      | .ret fs' d'' => .ret (fs ++ fs') d''
      | .panic p => .panic p
      | .hang => .hang
    | .panic p => .panic p
    | .hang => .hang

end Zinx.Frame
