import Verif.Model.Pipe

/-!
# Requests and replies on a TCP connection

A client sends messages (`Model/Send.lean`), the server reads, decodes and handles them with its workers (`Model/Pipe.lean`), and the handlers send replies on the connection of the request
(`request.GetConnection().SendMsg(...)` or `SendBuffMsg`); the client reads and decodes those and starts a goroutine for each (a client has no workers, znet/msghandler.go:150, 265-275). Nothing new of the code is described
here; the actions of the parts are interleaved.

* Handlers of this connection send at most one reply each, all in the same way (`direct`: with `SendMsg`), and nobody else sends on the server's side of the connection. Which reply, if any, is any function of the number and
  the contents of the request. Errors of sending are ignored by the handler.
* The handler runs on the goroutine of a worker; sender `w` of the server's side is worker `w`.
* The client's reader is as the server's (znet/connection.go:241-287), without the queues.
-/

namespace Zinx.Rpc

open Zinx

/-- Packed messages, zpack/datapack_tlv_bigendian.go:31-52. -/
abbrev Bytes := List UInt8

/-- ID and data. zpack/message.go:4-9. -/
abbrev Msg := UInt32 × Bytes

/-- `Pack` in the format of decoder `k` (zpack/datapack_tlv_bigendian.go:31-52, zpack/datapack_ltv_littleendian.go:32-53). -/
def packed (k : Decoder.Kind) (m : Msg) : Bytes := match k with
  | .ltv => Pack.packLtv (Pack.newMsgPackage m.1 m.2)
  | _ => Pack.packTlv (Pack.newMsgPackage m.1 m.2)

/-- The handler of request `j` of the connection: has not called the send method; is in it with a reply; is through with it. `idle`: no handler of this connection on this worker. A handler called in znet/msghandler.go:340, :398, that calls `SendMsg` or `SendBuffMsg` (znet/connection.go:435-464). -/
inductive Hand where
  | idle
  | got (j : Nat)
  | called (j : Nat) (rep : Msg)
  | done
deriving DecidableEq

/-- The parts: Model/Pipe.lean, Model/Send.lean; znet/connection.go:26-119. -/
structure State where
  /-- requests: the client sends, the server receives -/
  up : Pipe.State Send.State
  h : Nat → Hand := fun _ => .idle
  /-- replies: the server sends -/
  snd : Send.State := {}
  flight : Bytes := []
  rcv : Decoder.Status
  /-- received by the client -/
  msgs : List (Pack.Message × Option Decoder.Resp) := []
  /-- goroutines of the client that have not started, that are running -/
  fresh : List Nat := []
  running : List Nat := []

/-- The steps of the parts, and the calls and returns of znet/connection.go:435-464. -/
inductive Label where
  | up (l : Pipe.Label Send.Label)
  /-- the handler of request `j`, on worker `w`, calls the send method with `rep` -/
  | call (w j : Nat) (rep : Msg) (l : Send.Label)
  /-- the send method returns, or panics (which the worker survives) -/
  | ret (w j : Nat) (rep : Msg) (l : Send.Label)
  | skip (w j : Nat)
  | down (l : Send.Label)
  | read (x : Bytes)
  /-- the client begins, ends handling message `j` -/
  | begins (j : Nat)
  | ends (j : Nat)

/-- Begin or end of handling a request of connection `c`. znet/msghandler.go:420-440. -/
def handles (c : Nat) : Pipe.Label Send.Label → Bool
  | .work (.start _ r) => r.conn = some c
  | .work (.finish _ r _) => r.conn = some c
  | _ => false

/-- A call of a send method. znet/connection.go:435-464. -/
def isCall : Send.Label → Bool
  | .call _ _ => true
  | .dcall _ _ => true
  | _ => false

/-- Goroutine `w` returns from a send method. znet/connection.go:435-464. -/
def isRet (w : Nat) : Send.Label → Bool
  | .enq i _ => i = w
  | .retErr i => i = w
  | .panic i => i = w
  | .dwrite i _ _ => i = w
  | .dretErr i => i = w
  | _ => false

/-- `SendMsg` (znet/connection.go:435-454) or `SendBuffMsg` (:456-464). -/
def callLabel (direct : Bool) (w : Nat) (m : Bytes) : Send.Label := if direct then .dcall w m else .call w m

/-- ID and data of a received message. zpack/message.go:48-54. -/
def key (m : Pack.Message × Option Decoder.Resp) : Msg := (m.1.id, m.1.data)

/-- Auxiliary. -/
def set (f : Nat → Hand) (i : Nat) (v : Hand) : Nat → Hand := fun j => if j = i then v else f j

section
variable (cc bc : Nat) (k : Decoder.Kind) (b : Bool) (wid : Nat → Nat) (cap c : Nat) (direct : Bool) (f : Nat → Msg → Option Msg)

/-- `cc`, `bc`: sizes of queue and buffer of the senders; `k`: format; `b`, `wid`, `cap`: as for the workers; `c`: the connection's number at the server; `f`: the replies. The parts are cited in the models they are taken from; the reader and the workers are znet/connection.go:227-288, znet/msghandler.go:412-444. -/
inductive Step : State → Label → State → Prop where
  | up (s : State) (l : Pipe.Label Send.Label) (t : Pipe.State Send.State) (hs : Pipe.Step (Send.Step cc bc) Pipe.tcpWritten k b wid cap c s.up l t) (hl : handles c l = false) :
      Step s (.up l) { s with up := t }
  | start (s : State) (w : Nat) (r : Worker.Req) (t : Pipe.State Send.State) (hr : r.conn = some c) (hs : Pipe.Step (Send.Step cc bc) Pipe.tcpWritten k b wid cap c s.up (.work (.start w r)) t) :
      Step s (.up (.work (.start w r))) { s with up := t, h := set s.h w (.got r.id) }
  | call (s : State) (w j : Nat) (m : Pack.Message × Option Decoder.Resp) (rep : Msg) (t : Send.State) (hh : s.h w = .got j) (hm : s.up.msgs[j]? = some m) (hf : f j (key m) = some rep)
      (hs : Send.Step cc bc s.snd (callLabel direct w (packed k rep)) t) :
      Step s (.call w j rep (callLabel direct w (packed k rep))) { s with snd := t, h := set s.h w (.called j rep) }
  | skip (s : State) (w j : Nat) (m : Pack.Message × Option Decoder.Resp) (hh : s.h w = .got j) (hm : s.up.msgs[j]? = some m) (hf : f j (key m) = none) :
      Step s (.skip w j) { s with h := set s.h w .done }
  | ret (s : State) (w j : Nat) (rep : Msg) (l : Send.Label) (t : Send.State) (hh : s.h w = .called j rep) (hl : isRet w l = true) (hs : Send.Step cc bc s.snd l t) :
      Step s (.ret w j rep l) { s with snd := t, flight := s.flight ++ Pipe.tcpWritten l, h := set s.h w .done }
  | finish (s : State) (w : Nat) (r : Worker.Req) (o : Worker.Outcome) (t : Pipe.State Send.State) (hr : r.conn = some c) (hh : s.h w = .done)
      (hs : Pipe.Step (Send.Step cc bc) Pipe.tcpWritten k b wid cap c s.up (.work (.finish w r o)) t) :
      Step s (.up (.work (.finish w r o))) { s with up := t, h := set s.h w .idle }
  | down (s : State) (l : Send.Label) (t : Send.State) (hc : isCall l = false) (hl : ∀ w, isRet w l = false) (hs : Send.Step cc bc s.snd l t) :
      Step s (.down l) { s with snd := t, flight := s.flight ++ Pipe.tcpWritten l }
  | read (s : State) (x y : Bytes) (d : Frame.FrameDecoder) (ms : List (Pack.Message × Option Decoder.Resp)) (sta : Decoder.Status) (hx : x ≠ []) (hf : s.flight = x ++ y) (hd : s.rcv = .running d)
      (hr : Decoder.receive k d [x] = (ms, sta)) :
      Step s (.read x) { s with flight := y, rcv := sta, msgs := s.msgs ++ ms, fresh := s.fresh ++ List.range' s.msgs.length ms.length }
  | begins (s : State) (j : Nat) (h : j ∈ s.fresh) : Step s (.begins j) { s with fresh := s.fresh.erase j, running := s.running ++ [j] }
  | ends (s : State) (j : Nat) (h : j ∈ s.running) : Step s (.ends j) { s with running := s.running.erase j }

end

/-- Both connections are new, nothing has been sent. znet/connection.go:123-189. -/
def init (k : Decoder.Kind) : State := { up := Pipe.init {} k, rcv := .running (Frame.newFrameDecoder (Decoder.lengthField k)) }

end Zinx.Rpc
