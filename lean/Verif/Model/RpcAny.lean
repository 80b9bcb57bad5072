import Verif.Model.Rpc

/-!
# Requests and replies on a WebSocket or KCP connection

As `Model/Rpc.lean`, with the ways of sending of WebSocket (`Model/WsSend.lean`) and KCP connections (`Model/KcpSend.lean`) in the place of those of TCP. Nothing new of the code is described here; the actions of
the parts are interleaved.

* Handlers of this connection send at most one reply each, all in the same way, and nobody else sends on the server's side of the connection. Which reply, if any, is any function of the number and the contents of
  the request. Errors of sending are ignored by the handler.
* The handler runs on the goroutine of a worker; sender `w` of the server's side is worker `w`.
* zinx has a client for WebSocket (znet/client.go:79-101, :144), but none that makes a KCP connection (`newKcpClientConn` is not used); there the other side is a program that sends as a `KcpConnection` does. The readers (znet/ws_connection.go:209-276,
  znet/kcp_connection.go:213-275) do with what they read what the reader of TCP does; here the pieces are of any size, which adds executions.
* What the other side does with the replies after it decoded them is left out (see `Model/Rpc.lean`).
-/

namespace Zinx.RpcAny

open Rpc (Bytes Msg packed Hand key set)

/-- A way of sending: `st` are the actions of the sender's side, `call w m` goroutine `w` calling the send method with `m`, and `ret w l` says that `l` is the return of it, with `nil` if `ok l`. znet/ws_connection.go:349-461,
znet/kcp_connection.go:351-452. -/
structure Sender where
  S : Type
  L : Type
  s0 : S
  st : S → L → S → Prop
  wr : L → Bytes
  call : Nat → Bytes → L
  isCall : L → Bool
  ret : Nat → L → Bool
  ok : L → Bool

/-- WebSocket, `SendMsg` (`Send`) or, if `buffered`, `SendBuffMsg` (`SendToQueue`). znet/ws_connection.go:349-461. -/
def ws (chanCap : Nat) (buffered : Bool) : Sender where
  S := WsSend.State
  L := WsSend.Label
  s0 := {}
  st := WsSend.Step chanCap
  wr := Pipe.wsWritten
  call w m := .call w m buffered
  isCall
    | .call _ _ _ => true
    | _ => false
  ret w
    | .refuse i => i = w
    | .retErr i => i = w
    | .enq i _ => i = w
    | .panic i => i = w
    | .ret i _ => i = w
    | _ => false
  ok
    | .enq _ _ => true
    | .ret _ _ => true
    | _ => false

/-- KCP, with any of the four methods. znet/kcp_connection.go:351-452. -/
def kcp (chanCap : Nat) (kind : KcpSend.Kind) : Sender where
  S := KcpSend.State
  L := KcpSend.Label
  s0 := {}
  st := KcpSend.Step chanCap
  wr := Pipe.kcpWritten
  call w m := .call w m kind
  isCall
    | .call _ _ _ => true
    | _ => false
  ret w
    | .retErr i => i = w
    | .enq i _ _ => i = w
    | .panic i => i = w
    | .write i _ => i = w
    | _ => false
  ok
    | .enq _ _ _ => true
    | .write _ _ => true
    | _ => false

/-- The parts: Model/Pipe.lean and the sender; znet/ws_connection.go:26-113, znet/kcp_connection.go:26-120. -/
structure State (x : Sender) where
  /-- requests: the client sends, the server receives -/
  up : Pipe.State x.S
  h : Nat → Hand := fun _ => .idle
  /-- replies: the server sends -/
  snd : x.S
  flight : Bytes := []
  rcv : Decoder.Status
  /-- received by the client -/
  msgs : List (Pack.Message × Option Decoder.Resp) := []

/-- The steps of the parts, and the calls and returns of znet/ws_connection.go:349-461 and znet/kcp_connection.go:351-452. -/
inductive Label (x : Sender) where
  | up (l : Pipe.Label x.L)
  /-- the handler of request `j`, on worker `w`, calls the send method with `rep` -/
  | call (w j : Nat) (rep : Msg)
  /-- the send method returns, or panics (which the worker survives) -/
  | ret (w j : Nat) (rep : Msg) (l : x.L)
  | skip (w j : Nat)
  | down (l : x.L)
  | read (y : Bytes)

/-- Begin or end of handling a request of connection `c`. znet/msghandler.go:420-440. -/
def handles {L : Type} (c : Nat) : Pipe.Label L → Bool
  | .work (.start _ r) => r.conn = some c
  | .work (.finish _ r _) => r.conn = some c
  | _ => false

section
variable (x : Sender) (k : Decoder.Kind) (b : Bool) (wid : Nat → Nat) (cap c : Nat) (f : Nat → Msg → Option Msg)

/-- `k`: format; `b`, `wid`, `cap`: as for the workers; `c`: the connection's number at the server; `f`: the replies. The parts are cited in the models they are taken from; the readers and the workers are
znet/ws_connection.go:209-276, znet/kcp_connection.go:213-275, znet/msghandler.go:412-444. -/
inductive Step : State x → Label x → State x → Prop where
  | up (s : State x) (l : Pipe.Label x.L) (t : Pipe.State x.S) (hs : Pipe.Step x.st x.wr k b wid cap c s.up l t) (hl : handles c l = false) : Step s (.up l) { s with up := t }
  | start (s : State x) (w : Nat) (r : Worker.Req) (t : Pipe.State x.S) (hr : r.conn = some c) (hs : Pipe.Step x.st x.wr k b wid cap c s.up (.work (.start w r)) t) :
      Step s (.up (.work (.start w r))) { s with up := t, h := set s.h w (.got r.id) }
  | call (s : State x) (w j : Nat) (m : Pack.Message × Option Decoder.Resp) (rep : Msg) (t : x.S) (hh : s.h w = .got j) (hm : s.up.msgs[j]? = some m) (hf : f j (key m) = some rep)
      (hs : x.st s.snd (x.call w (packed k rep)) t) : Step s (.call w j rep) { s with snd := t, h := set s.h w (.called j rep) }
  | skip (s : State x) (w j : Nat) (m : Pack.Message × Option Decoder.Resp) (hh : s.h w = .got j) (hm : s.up.msgs[j]? = some m) (hf : f j (key m) = none) :
      Step s (.skip w j) { s with h := set s.h w .done }
  | ret (s : State x) (w j : Nat) (rep : Msg) (l : x.L) (t : x.S) (hh : s.h w = .called j rep) (hl : x.ret w l = true) (hs : x.st s.snd l t) :
      Step s (.ret w j rep l) { s with snd := t, flight := s.flight ++ x.wr l, h := set s.h w .done }
  | finish (s : State x) (w : Nat) (r : Worker.Req) (o : Worker.Outcome) (t : Pipe.State x.S) (hr : r.conn = some c) (hh : s.h w = .done)
      (hs : Pipe.Step x.st x.wr k b wid cap c s.up (.work (.finish w r o)) t) : Step s (.up (.work (.finish w r o))) { s with up := t, h := set s.h w .idle }
  | down (s : State x) (l : x.L) (t : x.S) (hc : x.isCall l = false) (hl : ∀ w, x.ret w l = false) (hs : x.st s.snd l t) :
      Step s (.down l) { s with snd := t, flight := s.flight ++ x.wr l }
  | read (s : State x) (y z : Bytes) (d : Frame.FrameDecoder) (ms : List (Pack.Message × Option Decoder.Resp)) (sta : Decoder.Status) (hy : y ≠ []) (hf : s.flight = y ++ z) (hd : s.rcv = .running d)
      (hr : Decoder.receive k d [y] = (ms, sta)) : Step s (.read y) { s with flight := z, rcv := sta, msgs := s.msgs ++ ms }

end

/-- Both connections are new, nothing has been sent. znet/ws_connection.go:119-183, znet/kcp_connection.go:124-187. -/
def init (x : Sender) (k : Decoder.Kind) : State x := { up := Pipe.init x.s0 k, snd := x.s0, rcv := .running (Frame.newFrameDecoder (Decoder.lengthField k)) }

end Zinx.RpcAny
