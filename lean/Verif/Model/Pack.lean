import Verif.Model.Frame

/-!
# Model of `zpack` (messages, TLV big-endian and LTV little-endian packing)
-/

namespace Zinx.Pack

open Zinx Zinx.Frame

/-- `Message` (zpack/message.go:4-9). -/
structure Message where
  dataLen : UInt32
  id : UInt32
  data : Bytes
  rawData : Bytes
deriving DecidableEq, Repr

/-- `NewMsgPackage` (zpack/message.go:11-18); `uint32(len(data))` truncates. -/
def newMsgPackage (id : UInt32) (data : Bytes) : Message :=
  { id := id, dataLen := UInt32.ofNat data.length, data := data, rawData := data }

/-- `NewMessage` (zpack/message.go:20-26); the ID is left zero. -/
def newMessage (len : UInt32) (data : Bytes) : Message :=
  { id := 0, dataLen := len, data := data, rawData := data }

/-- `NewMessageByMsgId` (zpack/message.go:28-35). -/
def newMessageByMsgId (id len : UInt32) (data : Bytes) : Message :=
  { id := id, dataLen := len, data := data, rawData := data }

/-- `Init` (zpack/message.go:37-42). -/
def Message.init (_m : Message) (id : UInt32) (data : Bytes) : Message :=
  { id := id, data := data, rawData := data, dataLen := UInt32.ofNat data.length }

/-- `SetDataLen` (zpack/message.go:60-62). -/
def Message.setDataLen (m : Message) (n : UInt32) : Message := { m with dataLen := n }

/-- `SetMsgID` (zpack/message.go:64-66). -/
def Message.setMsgID (m : Message) (i : UInt32) : Message := { m with id := i }

/-- `SetData` (zpack/message.go:68-70); `rawData` is untouched. -/
def Message.setData (m : Message) (d : Bytes) : Message := { m with data := d }

/-- Calls that change a message (zpack/message.go:37-42, 60-70). -/
inductive MsgOp where
  | init (id : UInt32) (data : Bytes)
  | setDataLen (n : UInt32)
  | setMsgID (i : UInt32)
  | setData (d : Bytes)
deriving DecidableEq, Repr

/-- One such call. zpack/message.go:37-70. -/
def Message.op (m : Message) : MsgOp → Message
  | .init id data => m.init id data
  | .setDataLen n => m.setDataLen n
  | .setMsgID i => m.setMsgID i
  | .setData d => m.setData d

/-- `binary.Write` of a `uint32` (standard library), used by zpack/datapack_tlv_bigendian.go:37,42 and
zpack/datapack_ltv_littleendian.go:38,43. Writing to a `bytes.Buffer` never returns an error. -/
def putUint32 : Order → UInt32 → Bytes
  | .big, v => [(v >>> 24).toUInt8, (v >>> 16).toUInt8, (v >>> 8).toUInt8, v.toUInt8]
  | .little, v => [v.toUInt8, (v >>> 8).toUInt8, (v >>> 16).toUInt8, (v >>> 24).toUInt8]

/-- `binary.ByteOrder.Uint32` (standard library) on four bytes. Called through `binary.Read` in zpack/datapack_tlv_bigendian.go:65-72. -/
def getUint32 (o : Order) (s : Bytes) : UInt32 := UInt32.ofNat (binaryUint o s)

/-- `binary.Read` of a `uint32` from a reader (standard library): the value and the rest, or an error (`none`) when
fewer than four bytes are left. Used by zpack/datapack_tlv_bigendian.go:65,70 and
zpack/datapack_ltv_littleendian.go:66,71. -/
def readUint32 (o : Order) (s : Bytes) : Option (UInt32 × Bytes) :=
  if s.length < 4 then none else some (getUint32 o (s.take 4), s.drop 4)

/-- `DataPack.Pack` (zpack/datapack_tlv_bigendian.go:31-52). -/
def packTlv (m : Message) : Bytes := putUint32 .big m.id ++ putUint32 .big m.dataLen ++ m.data

/-- `DataPackLtv.Pack` (zpack/datapack_ltv_littleendian.go:32-53). -/
def packLtv (m : Message) : Bytes := putUint32 .little m.dataLen ++ putUint32 .little m.id ++ m.data

/-- Errors of `Unpack`: `binary.Read` failed, or "too large msg data received". zpack/datapack_tlv_bigendian.go:56-83. -/
inductive UnpackErr where
  | short
  | tooLarge
deriving DecidableEq, Repr

/-- `DataPack.Unpack` (zpack/datapack_tlv_bigendian.go:56-83); `maxPacketSize` is
`zconf.GlobalObject.MaxPacketSize`. Only the header is decoded, the data stays empty. -/
def unpackTlv (maxPacketSize : UInt32) (s : Bytes) : Except UnpackErr Message :=
  match readUint32 .big s with
  | none => .error .short
  | some (id, s) =>
    match readUint32 .big s with
    | none => .error .short
    | some (len, _) =>
      if maxPacketSize > 0 ∧ len > maxPacketSize then .error .tooLarge
      else .ok { id := id, dataLen := len, data := [], rawData := [] }

/-- `DataPackLtv.Unpack` (zpack/datapack_ltv_littleendian.go:57-84). -/
def unpackLtv (maxPacketSize : UInt32) (s : Bytes) : Except UnpackErr Message :=
  match readUint32 .little s with
  | none => .error .short
  | some (len, s) =>
    match readUint32 .little s with
    | none => .error .short
    | some (id, _) =>
      if maxPacketSize > 0 ∧ len > maxPacketSize then .error .tooLarge
      else .ok { id := id, dataLen := len, data := [], rawData := [] }

end Zinx.Pack
