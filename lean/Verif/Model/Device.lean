import Verif.Model.Decoder

/-!
# Model of the device server of the decoder example (`examples/zinx_decoder/bili`)

The server gets frames of head, function code, length, body and checksum from water dispensers and answers them. Here: the five `pack` functions, the routing to them, and the chain of decoders with the
response of the request, which the single-decoder model of `Model/Decoder.lean` does not need. Simplifications: printing and logging are left out; the replies are listed in the order of the requests (that
is C105); a panic of a `pack` function is recovered by the worker (C26) and gives no reply; `Send` is taken to write its argument (C84).
-/

namespace Zinx.Device

open Zinx Zinx.Frame Zinx.Pack Zinx.Decoder Zinx.Crc

/-- `_data.Body[:k]`. `Body` is `data[3 : len-2]` (zdecoder/htlvcrcdecoder.go:100), whose capacity reaches to the end of the frame: the frame decoder makes the frame with exactly its length
(zinterceptor/framedecoder.go:572). So a body that is too short is first completed from the checksum, and only then the slice is out of bounds. -/
def bodyTo (data : Bytes) (k : Nat) : Except Panic Bytes :=
  if k ≤ data.length - 3 then .ok ((data.drop 3).take k) else .error .sliceBounds

/-- Append the checksum (`crc := zdecoder.GetCrC(buffer.Bytes()); buffer.Write(crc)`). examples/zinx_decoder/bili/router/bili0x10router.go:60-61. -/
def withCrc (b : Bytes) : Bytes := b ++ getCrC b

/-- `pack10` (examples/zinx_decoder/bili/router/bili0x10router.go:34-64). -/
def pack10 (data : Bytes) (funcode : UInt8) : Except Panic Bytes :=
  match bodyTo data 7 with
  | .error p => .error p
  | .ok b => .ok (withCrc ([0xA1, funcode, 0x1E] ++ b ++ [10, 11, 12, 13, 14] ++ [15, 16, 17, 18] ++ [0x02] ++ [20, 21, 22, 23, 24, 25, 26, 27] ++ [0x01] ++ [29, 30, 31, 32]))

/-- `pack13` (examples/zinx_decoder/bili/router/bili0x13router.go:33-61). -/
def pack13 (data : Bytes) (funcode : UInt8) : Except Panic Bytes :=
  match bodyTo data 4 with
  | .error p => .error p
  | .ok b => .ok (withCrc ([0xA1, funcode, 0x0E] ++ b ++ [0x01] ++ [8, 9] ++ [10, 11] ++ [12, 13, 14, 15, 16]))

/-- `pack14` and `pack16` (examples/zinx_decoder/bili/router/bili0x14router.go:33-40, bili0x16router.go:35-42): the frame itself with another head and a new checksum. Both are written into the array of
the request; a frame that the decoder accepted has at least five bytes. -/
def pack14 (data : Bytes) : Bytes := withCrc (0xA1 :: (data.take (data.length - 2)).drop 1)

/-- `pack15` (examples/zinx_decoder/bili/router/bili0x15router.go:33-223), byte for byte. -/
def pack15 (data : Bytes) (funcode : UInt8) : Except Panic Bytes :=
  match bodyTo data 7 with
  | .error p => .error p
  | .ok b => .ok (withCrc ([0xA1, funcode, 0x26] ++ b ++ [0xA8, 0x01, 0x01, 0x01, 0x01, 0x1A, 0x27, 0x01, 0x00, 0x00, 0x00, 0x01, 0x01, 0x30] ++ [23, 24] ++ [25, 26] ++ [27, 28] ++ [0x00] ++
      [30, 31, 32, 33] ++ [0x30] ++ [0x00, 0x00]))

/-- The routers of the server (examples/zinx_decoder/bili/main.go:32-36) with their `Handle` (e.g. examples/zinx_decoder/bili/router/bili0x10router.go:16-28): a reply only if the response of the request
is that of the HTLV decoder. `none`: nothing is sent. -/
def reply (m : Message × Option Resp) : Option Bytes :=
  match m.2 with
  | some (.htlv data _ funcode _ _ _) =>
    if m.1.id = 0x10 then (pack10 data funcode).toOption
    else if m.1.id = 0x13 then (pack13 data funcode).toOption
    else if m.1.id = 0x14 then some (pack14 data)
    else if m.1.id = 0x15 then (pack15 data funcode).toOption
    else if m.1.id = 0x16 then some (pack14 data)
    else none
  | _ => none

/-- The decoders of a chain on one request, message and response (znet/chainbuilder.go:44-63 with zinterceptor/chain.go:56-75: a decoder that gives no response leaves the one there was). -/
def through : List Kind → Message × Option Resp → Except Panic (Message × Option Resp)
  | [], x => .ok x
  | k :: ks, x =>
    match intercept k x.1 with
    | .error p => .error p
    | .ok (m, r) => through ks (m, r.orElse fun _ => x.2)

/-- The frames of one read through the chain (znet/connection.go:271-284): the requests that reach a router, and the panic that ended the loop, if any. -/
def deliverVia (ks : List Kind) : List Bytes → List (Message × Option Resp) × Option Panic
  | [] => ([], none)
  | fr :: frs =>
    match through ks (newMessage (UInt32.ofNat fr.length) fr, none) with
    | .error p => ([], some p)
    | .ok m =>
      let (ms, e) := deliverVia ks frs
      (m :: ms, e)

/-- The reader of a connection over a list of reads (znet/connection.go:241-287). After a panic nothing more is read. -/
def receiveVia (ks : List Kind) : FrameDecoder → List Bytes → List (Message × Option Resp)
  | _, [] => []
  | d, r :: rs =>
    match Decode d r with
    | .panic _ => []
    | .hang => []
    | .ret fs d' =>
      match deliverVia ks fs with
      | (ms, some _) => ms
      | (ms, none) => ms ++ receiveVia ks d' rs

/-- What the server of examples/zinx_decoder/bili/main.go:16-38 writes to a device for the reads of the connection: the decoder of `NewServer` is the TLV one (znet/server.go:148), which gives the length
field and, as head of the chain (znet/server.go:428-430), comes before the HTLV interceptor that main.go adds. -/
def bili (reads : List Bytes) : List Bytes :=
  (receiveVia [.tlv, .htlv] (newFrameDecoder (lengthField .tlv)) reads).filterMap reply

/-- The same server with `SetDecoder` in place of `AddInterceptor`, as in examples/zinx_decoder/server/server.go:32: what the five routers are written for. -/
def biliHtlv (reads : List Bytes) : List Bytes :=
  (receiveVia [.htlv] (newFrameDecoder (lengthField .htlv)) reads).filterMap reply

end Zinx.Device
