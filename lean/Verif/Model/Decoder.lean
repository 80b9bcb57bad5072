import Verif.Model.Pack
import Verif.Model.Crc

/-!
# Model of `zdecoder` (TLV, LTV, HTLV-CRC interceptors) and of the receive loop of a connection
-/

namespace Zinx.Decoder

open Zinx Zinx.Frame Zinx.Pack Zinx.Crc

/-- The decoders shipped in `zdecoder`. zdecoder/tlvdecoder.go, zdecoder/ltvdecoder_little.go, zdecoder/htlvcrcdecoder.go. -/
inductive Kind where
  | tlv
  | ltv
  | htlv
deriving DecidableEq, Repr

/-- `GetLengthField` of TLV (zdecoder/tlvdecoder.go:72-95), LTV (zdecoder/ltvdecoder_little.go:71-96) and HTLV
(zdecoder/htlvcrcdecoder.go:68-90). -/
def lengthField : Kind → LengthField
  | .tlv => { maxFrameLength := (2 ^ 32 - 1) + 4 + 4, lengthFieldOffset := 4, lengthFieldLength := 4,
              lengthAdjustment := 0, initialBytesToStrip := 0, order := none }
  | .ltv => { maxFrameLength := (2 ^ 32 - 1) + 4 + 4, lengthFieldOffset := 0, lengthFieldLength := 4,
              lengthAdjustment := 4, initialBytesToStrip := 0, order := some .little }
  | .htlv => { maxFrameLength := 255 + 4, lengthFieldOffset := 2, lengthFieldLength := 1,
               lengthAdjustment := 2, initialBytesToStrip := 0, order := none }

/-- What a decoder attaches to the request as response (the struct values passed to `ProceedWithIMessage`). -/
inductive Resp where
  | tlv (tag length : UInt32) (value : Bytes)                          -- zdecoder/tlvdecoder.go:60-66
  | ltv (length tag : UInt32) (value : Bytes)                          -- zdecoder/ltvdecoder_little.go:59-65
  | htlv (data : Bytes) (head funcode length : UInt8) (body crc : Bytes)  -- zdecoder/htlvcrcdecoder.go:55-62
deriving DecidableEq, Repr

/-- `TLVDecoder.decode` (zdecoder/tlvdecoder.go:97-111): tag, length, value. `8+tlvData.Length` is `uint32`
arithmetic and wraps; the slice bound is checked against the length (the frames handed to it have no spare
capacity). -/
def tlvDecode (data : Bytes) : Except Panic (UInt32 × UInt32 × Bytes) :=
  if data.length < 8 then .error .sliceBounds
  else
    let tag := getUint32 .big (data.take 4)
    let length := getUint32 .big ((data.drop 4).take 4)
    let hi := ((8 : UInt32) + length).toNat
    if hi < 8 ∨ hi > data.length then .error .sliceBounds
    else .ok (tag, length, (data.take hi).drop 8)

/-- `LTV_Little_Decoder.decode` (zdecoder/ltvdecoder_little.go:98-112): length, tag, value. -/
def ltvDecode (data : Bytes) : Except Panic (UInt32 × UInt32 × Bytes) :=
  if data.length < 8 then .error .sliceBounds
  else
    let length := getUint32 .little (data.take 4)
    let tag := getUint32 .little ((data.drop 4).take 4)
    let hi := ((8 : UInt32) + length).toNat
    if hi < 8 ∨ hi > data.length then .error .sliceBounds
    else .ok (length, tag, (data.take hi).drop 8)

/-- `HtlvCrcDecoder.decode` (zdecoder/htlvcrcdecoder.go:92-116). `none` is the Go `nil` returned on a CRC mismatch. The slice
expressions need at least five bytes (three header bytes, two CRC bytes). -/
def htlvDecode (data : Bytes) : Except Panic (Option Resp) :=
  match data with
  | head :: funcode :: length :: rest =>
    if rest.length < 2 then .error .sliceBounds
    else
      let body := (data.take (data.length - 2)).drop 3
      let crc := data.drop (data.length - 2)
      if checkCRC (data.take (data.length - 2)) crc then
        .ok (some (.htlv data head funcode length body crc))
      else .ok none
  | _ => .error .sliceBounds

/-- `Intercept` of the three decoders on a non-nil message (zdecoder/tlvdecoder.go:113-144,
zdecoder/ltvdecoder_little.go:114-144, zdecoder/htlvcrcdecoder.go:118-146): the message passed on and the response set on the
request (`none`: passed on unchanged without response). A failed CRC makes HTLV dereference the nil result
(line 141). -/
def intercept (k : Kind) (m : Message) : Except Panic (Message × Option Resp) :=
  match k with
  | .tlv =>
    if m.data.length < 8 then .ok (m, none)
    else
      match tlvDecode m.data with
      | .error p => .error p
      | .ok (tag, length, value) =>
        .ok (((m.setMsgID tag).setData value).setDataLen length, some (.tlv tag length value))
  | .ltv =>
    if m.data.length < 8 then .ok (m, none)
    else
      match ltvDecode m.data with
      | .error p => .error p
      | .ok (length, tag, value) =>
        .ok (((m.setDataLen length).setMsgID tag).setData value, some (.ltv length tag value))
  | .htlv =>
    if m.data.length < 5 then .ok (m, none)
    else
      match htlvDecode m.data with
      | .error p => .error p
      | .ok none => .error .nilDeref
      | .ok (some (.htlv data head funcode length body crc)) =>
        .ok (m.setMsgID funcode.toUInt32, some (.htlv data head funcode length body crc))
      | .ok (some r) => .ok (m, some r)

/-- Handing the frames of one read to the decoder interceptor (znet/connection.go:271-278): each frame becomes a message
with ID zero whose data is the whole frame. Result: the messages that get past the decoder, in order, and the panic that
ended the loop, if any. -/
def deliver (k : Kind) : List Bytes → List (Message × Option Resp) × Option Panic
  | [] => ([], none)
  | fr :: frs =>
    match intercept k (newMessage (UInt32.ofNat fr.length) fr) with
    | .error p => ([], some p)
    | .ok m =>
      let (ms, e) := deliver k frs
      (m :: ms, e)

/-- Without a frame decoder (znet/connection.go:280-284; znet/kcp_connection.go:265-269, znet/ws_connection.go:264-268) each read becomes one message, given to the decoder interceptor if there is one
(`SetDecoder(nil)` leaves none). Later overwriting of the buffer is the subject of `Model/RawRead.lean`. -/
def deliverRaw (k : Option Kind) (reads : List Bytes) : List (Message × Option Resp) × Option Panic :=
  match k with
  | none => (reads.map fun r => (newMessage (UInt32.ofNat r.length) r, none), none)
  | some k => deliver k reads

/-- How the receive loop stands after some reads. znet/connection.go:241-287. -/
inductive Status where
  | running (d : FrameDecoder)
  | panicked (p : Panic)
  | hung
deriving DecidableEq, Repr

/-- The receive loop (znet/connection.go:241-287 with a frame decoder; same structure in znet/kcp_connection.go and
znet/ws_connection.go:216-271) over a list of reads: all messages that get past the decoder, and the final status. -/
def receive (k : Kind) (d : FrameDecoder) : List Bytes → List (Message × Option Resp) × Status
  | [] => ([], .running d)
  | r :: rs =>
    match Decode d r with
    | .panic p => ([], .panicked p)
    | .hang => ([], .hung)
    | .ret fs d' =>
      match deliver k fs with
      | (ms, some p) => (ms, .panicked p)
      | (ms, none) =>
        let (ms', st) := receive k d' rs
        (ms ++ ms', st)

/-- Receive loop of a new connection using the decoder of the given kind (`NewFrameDecoder` at
znet/connection.go:123-159 with the decoder's length field). -/
def receiveNew (k : Kind) (reads : List Bytes) : List (Message × Option Resp) × Status :=
  receive k (newFrameDecoder (lengthField k)) reads

/-- Transports. znet/connection.go, znet/kcp_connection.go, znet/ws_connection.go. -/
inductive Transport where
  | tcp
  | kcp
  | ws
deriving DecidableEq, Repr

/-- Does `StartReader` of the transport recover panics? TCP: znet/connection.go:231-235; KCP: znet/kcp_connection.go:218-222; WebSocket: no recover in znet/ws_connection.go:210-272. -/
def readerRecovers : Transport → Bool
  | .tcp => true
  | .kcp => true
  | .ws => false

/-- Effect of a reader status on the whole process: an unrecovered panic in a goroutine ends the Go process. `recover`: znet/connection.go:231-235, znet/kcp_connection.go:218-222. -/
def processSurvives (t : Transport) : Status → Bool
  | .panicked _ => readerRecovers t
  | _ => true

end Zinx.Decoder
