/-!
# Shared conventions of the model

Go values used throughout: bytes, fixed-width integers with wrap-around, panics as values.
-/

namespace Zinx

/-- A Go `[]byte` (contents only; aliasing is modelled separately where it matters). As in zinterceptor/framedecoder.go:307-316 and everywhere else. -/
abbrev Bytes := List UInt8

/-- Reasons for a Go run-time panic or an explicit `panic(...)` call in the modelled code. -/
inductive Panic where
  | sliceBounds          -- slice/index out of range, negative `bytes.Buffer.Next`
  | unsupportedLength    -- zinterceptor/framedecoder.go:422
  | negativeLength       -- zinterceptor/framedecoder.go:429
  | stripTooLong         -- zinterceptor/framedecoder.go:491
  | nilDeref             -- nil pointer dereference / nil function call
  | closedChannel        -- send on closed channel, close of closed channel
  | nilChannel           -- close of nil channel
  | explicit             -- any other explicit `panic(...)`
deriving DecidableEq, Repr

/-- Two's complement wrap-around of Go `int64`/`int` (64-bit platform). As in the arithmetic of zinterceptor/framedecoder.go:494-576. -/
def wrap64 (x : Int) : Int := Int.bmod x (2 ^ 64)

/-- Go conversion `uint64(x)` of an `int64`. As in zinterceptor/framedecoder.go:459-487. -/
def toU64 (x : Int) : Nat := (x % 2 ^ 64).toNat

/-- Byte order of a length field (`binary.ByteOrder`). zinterceptor/framedecoder.go:307-316, ziface/ilengthfield.go:21. -/
inductive Order where
  | big
  | little
deriving DecidableEq, Repr

deriving instance DecidableEq for Except

end Zinx
