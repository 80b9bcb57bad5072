import Verif.Model.Send
import Verif.Model.WsSend
import Verif.Model.KcpSend
import Verif.Model.Decoder
import Verif.Model.Worker

/-!
# A connection from end to end

One side sends (`Model/Send.lean` for TCP, `Model/WsSend.lean` for WebSocket, `Model/KcpSend.lean` for KCP), the network carries the bytes in order and in pieces of any size, the other side reads, cuts into frames and decodes (`Model/Decoder.lean`) and hands the requests to its
workers (`Model/Worker.lean`), which also serve other connections. Nothing new of the code is described here; the actions of the parts are interleaved. The receiving connection has number `c` and the
decoder `k`. A request stands for a message by its number: request `j` of connection `c` carries the `j`-th message that got past the decoder.

The sender is any transition system; `wr` tells which bytes an action of it puts on the network. The reader of a WebSocket connection reads whole messages (znet/ws_connection.go:224); here the pieces are of any
size, which adds executions. What it does with a piece is the same as for TCP (znet/ws_connection.go:248-272), and so it is for KCP (znet/kcp_connection.go:228-273).
-/

namespace Zinx.Pipe

open Zinx

/-- Go's `[]byte`. -/
abbrev Bytes := List UInt8

/-- The parts are cited in the models of the parts; the reader is znet/connection.go:227-288. -/
structure State (S : Type) where
  snd : S
  /-- written by the sender, not yet read by the receiver -/
  flight : Bytes := []
  rcv : Decoder.Status
  /-- the messages that got past the decoder -/
  msgs : List (Pack.Message × Option Decoder.Resp) := []
  wk : Worker.State

/-- znet/connection.go:193-223, :373-464 on one side, :227-288 and znet/msghandler.go:412-444 on the other. -/
inductive Label (L : Type) where
  | send (l : L)
  /-- a read of the receiver and the requests made of it -/
  | read (x : Bytes) (rs : List Worker.Req)
  | work (a : Worker.Act)

/-- The bytes an action of the sender puts on the network, TCP (znet/connection.go:370, 377, 389). -/
def tcpWritten : Send.Label → Bytes
  | .wwrite x => x
  | .dwrite _ x _ => x
  | _ => []

/-- The same for WebSocket (znet/ws_connection.go:356, 416). -/
def wsWritten : WsSend.Label → Bytes
  | .write _ x => x
  | .wwrite x => x
  | _ => []

/-- The same for KCP (znet/kcp_connection.go:358). -/
def kcpWritten : KcpSend.Label → Bytes
  | .write _ x => x
  | .wwrite _ x => x
  | _ => []

/-- Requests for `n` messages, the first of which has number `a`. znet/connection.go:271-278. -/
def requests (c a n : Nat) : List Worker.Req := (List.range n).map fun j => ⟨some c, a + j, .message⟩

/-- `st`: the sender. `k`: decoder of the receiver. `b`, `wid`, `cap`: as for the workers. -/
inductive Step {S L : Type} (st : S → L → S → Prop) (wr : L → Bytes) (k : Decoder.Kind) (b : Bool) (wid : Nat → Nat) (cap c : Nat) : State S → Label L → State S → Prop where
  | send (s : State S) (l : L) (t : S) (h : st s.snd l t) :
      Step st wr k b wid cap c s (.send l) { s with snd := t, flight := s.flight ++ wr l }
  /-- The reader of the receiving connection (znet/connection.go:241-287) reads some bytes; it has delivered what it read before. -/
  | read (s : State S) (x y : Bytes) (d : Frame.FrameDecoder) (ms : List (Pack.Message × Option Decoder.Resp)) (sta : Decoder.Status) (hx : x ≠ []) (hf : s.flight = x ++ y) (hd : s.rcv = .running d)
      (hr : Decoder.receive k d [x] = (ms, sta)) (t : Worker.State) (hw : Worker.Step b wid cap s.wk (.arrive c (requests c s.msgs.length ms.length)) t) :
      Step st wr k b wid cap c s (.read x (requests c s.msgs.length ms.length)) { s with flight := y, rcv := sta, msgs := s.msgs ++ ms, wk := t }
  | work (s : State S) (a : Worker.Act) (ha : ∀ rs, a ≠ .arrive c rs) (t : Worker.State) (h : Worker.Step b wid cap s.wk a t) : Step st wr k b wid cap c s (.work a) { s with wk := t }

/-- Both connections are new, nothing has been sent. znet/connection.go:123-159, :163-189. -/
def init {S : Type} (s : S) (k : Decoder.Kind) : State S :=
  { snd := s, rcv := .running (Frame.newFrameDecoder (Decoder.lengthField k)), wk := Worker.initial fun _ => [] }

end Zinx.Pipe
