import Verif.Model.Decoder

/-!
# Model of how a server or client chooses packing and decoding (`znet/options.go`, setters of `znet/server.go` and `znet/client.go`)

A side keeps its packing, its decoder, and the decoders its message handler has as interceptors. A connection takes over the packing and the length field of the decoder when it is made
(`newServerConn`, `newClientConn`), while the decoders of the message handler are those that `Start` put there. Simplifications: interceptors of the user are left out (C18, C19 are about them); decoders
are the three shipped ones; the calls of the user come before the connection, one after the other.
-/

namespace Zinx.Options

open Zinx Zinx.Frame Zinx.Pack Zinx.Decoder

/-- The packings of zpack: `DataPack` and `DataPackLtv` (zpack/datapack_tlv_bigendian.go, zpack/datapack_ltv_littleendian.go). -/
inductive PackKind where
  | tlv
  | ltv
deriving DecidableEq, Repr

/-- `Pack` of the packing (zpack/datapack_tlv_bigendian.go:31-52, zpack/datapack_ltv_littleendian.go:32-53). -/
def PackKind.pack : PackKind → Message → Bytes
  | .tlv => packTlv
  | .ltv => packLtv

/-- `NewPack` of the factory (zpack/packfactory.go:30-47); the names are at ziface/idatapack.go:17-18. -/
def newPack (kind : String) : PackKind :=
  if kind = "zinx_pack_tlv_big_endian" then .tlv
  else if kind = "zinx_pack_ltv_little_endian" then .ltv
  else .tlv

/-- The fields of `Server` and `Client` that matter here: `packet` and `decoder` (znet/server.go:66-76, znet/client.go:36-44), and the decoders among head and body of the chain of the message handler
(znet/chainbuilder.go:16-19). -/
structure Side where
  packet : PackKind
  decoder : Option Kind
  head : Option Kind
  body : List Kind
deriving DecidableEq, Repr

/-- A new server or client without options (znet/server.go:147-148, znet/client.go:65-66 and 89-90). -/
def newSide : Side := { packet := newPack "zinx_pack_tlv_big_endian", decoder := some .tlv, head := none, body := [] }

/-- Calls: `SetPacket` (znet/server.go:525-527, znet/client.go:293-295; `WithPacket` and `WithPacketClient` at znet/options.go:16-20 and 27-31 call it), `SetDecoder` (znet/server.go:588-590,
znet/client.go:305-307; nil is `none`), `Start`. -/
inductive Op where
  | setPacket (p : PackKind)
  | setDecoder (d : Option Kind)
  | start
deriving DecidableEq, Repr

/-- The calls on a server; `Start` makes the decoder the head of the chain (znet/server.go:428-430). -/
def Side.serverOp (s : Side) : Op → Side
  | .setPacket p => { s with packet := p }
  | .setDecoder d => { s with decoder := d }
  | .start =>
    match s.decoder with
    | some k => { s with head := some k }
    | none => s

/-- The calls on a client; `Start` appends the decoder to the chain (znet/client.go:202-204). -/
def Side.clientOp (s : Side) : Op → Side
  | .setPacket p => { s with packet := p }
  | .setDecoder d => { s with decoder := d }
  | .start =>
    match s.decoder with
    | some k => { s with body := s.body ++ [k] }
    | none => s

/-- A server after calls. znet/server.go:168-175. -/
def server (ops : List Op) : Side := ops.foldl Side.serverOp newSide

/-- A client after calls. znet/client.go:72-74, :97-99. -/
def client (ops : List Op) : Side := ops.foldl Side.clientOp newSide

/-- The decoders of the chain in the order in which `Execute` runs them (znet/chainbuilder.go:44-63). -/
def Side.chain (s : Side) : List Kind := s.head.toList ++ s.body

/-- The decoders of a chain, one after the other, on one message. zinterceptor/chain.go:28-36. -/
def interceptAll : List Kind → Message → Except Panic Message
  | [], m => .ok m
  | k :: ks, m =>
    match intercept k m with
    | .error p => .error p
    | .ok (m', _) => interceptAll ks m'

/-- The frames (or raw reads) of one read through the chain (znet/connection.go:271-284): the messages that reach the message handler, and the panic that ended the loop, if any. -/
def deliverAll (ks : List Kind) : List Bytes → List Message × Option Panic
  | [] => ([], none)
  | fr :: frs =>
    match interceptAll ks (newMessage (UInt32.ofNat fr.length) fr) with
    | .error p => ([], some p)
    | .ok m =>
      let (ms, e) := deliverAll ks frs
      (m :: ms, e)

/-- The reader of a connection (znet/connection.go:241-287) with its frame decoder, if it has one, over a list of reads: the messages that reach the message handler. After a panic nothing
more is read. -/
def hears (ks : List Kind) : Option FrameDecoder → List Bytes → List Message
  | _, [] => []
  | none, r :: rs =>
    match deliverAll ks [r] with
    | (ms, some _) => ms
    | (ms, none) => ms ++ hears ks none rs
  | some d, r :: rs =>
    match Decode d r with
    | .panic _ => []
    | .hang => []
    | .ret fs d' =>
      match deliverAll ks fs with
      | (ms, some _) => ms
      | (ms, none) => ms ++ hears ks (some d') rs

/-- A connection of the side made now: `GetLengthField` (znet/server.go:592-597, znet/client.go:308-313) gives the frame decoder (znet/connection.go:139-142 and 177-180), the chain is that of the message
handler. -/
def Side.hears (s : Side) (reads : List Bytes) : List Message :=
  Options.hears s.chain (s.decoder.map fun k => newFrameDecoder (lengthField k)) reads

/-- What `SendMsg` of a connection of the side writes (znet/connection.go:441 and 457) for a message. -/
def Side.says (s : Side) (m : UInt32 × Bytes) : Bytes := s.packet.pack (newMsgPackage m.1 m.2)

end Zinx.Options
