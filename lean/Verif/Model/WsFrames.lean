import Verif.Model.Alive
import Verif.Model.Decoder

/-!
# WebSocket frames: what the reader of a WebSocket connection gets to see of what the peer sends

The reader calls `ReadMessage` (znet/ws_connection.go:224) of gorilla/websocket v1.5.0 (go.mod:6), which gathers the frames of a message and deals with control frames itself. The library is not part of
/repo; modelled is what RFC 6455 (sections 5.4 and 5.5) and its documentation say: "NextReader returns the next data message received from the peer. The returned messageType is either TextMessage or
BinaryMessage." A ping is answered with a pong, which is taken to be written; a pong is dropped; a close frame makes `ReadMessage` fail, and so does a frame out of place. The payload of text messages is not
examined. Compression is not negotiated (znet/server.go:149-154 leaves it out), and there is no read limit.
-/

namespace Zinx.WsFrames

open Zinx

/-- The kinds of frames; `invalid` stands for reserved bits, unknown operation codes and a missing mask. Of the library, below znet/ws_connection.go:224. -/
inductive Op where
  | text
  | binary
  | cont
  | ping
  | pong
  | close
  | invalid
deriving DecidableEq, Repr

/-- Of the library, below znet/ws_connection.go:224; masks are taken off. -/
structure Frame where
  fin : Bool
  op : Op
  payload : Bytes
deriving DecidableEq, Repr

/-- What a frame leads to: `ReadMessage` goes on waiting, with the bytes of the message begun; it returns a message; it returns an error. Of the library, below znet/ws_connection.go:224. -/
inductive Outcome where
  | wait (begun : Option Bytes)
  | message (b : Bytes)
  | fail
deriving DecidableEq, Repr

/-- One frame (`advanceFrame` of the library), given the bytes of the message that has begun. Below znet/ws_connection.go:224. -/
def onFrame (begun : Option Bytes) (f : Frame) : Outcome :=
  match f.op with
  | .ping | .pong => if f.fin = true ∧ f.payload.length ≤ 125 then .wait begun else .fail
  | .close | .invalid => .fail
  | .text | .binary =>
    match begun with
    | some _ => .fail
    | none => if f.fin then .message f.payload else .wait (some f.payload)
  | .cont =>
    match begun with
    | none => .fail
    | some b => if f.fin then .message (b ++ f.payload) else .wait (some (b ++ f.payload))

/-- The messages that calls of `ReadMessage` return for the given frames, and how the last call stands: waiting, with the bytes of the message begun, or failed (`none`). The reader ends at the first error
(znet/ws_connection.go:225-228). -/
def readMessages : Option Bytes → List Frame → List Bytes × Option (Option Bytes)
  | begun, [] => ([], some begun)
  | begun, f :: fs =>
    match onFrame begun f with
    | .wait begun' => readMessages begun' fs
    | .message b =>
      let (ms, st) := readMessages none fs
      (b :: ms, st)
    | .fail => ([], none)

/-! ## Liveness

The reader, the checker and the peer of a WebSocket connection with a heartbeat checker, cf. `Model/Alive`. A check is one step here (znet/ws_connection.go:563-571). -/

/-- In `ReadMessage`; a message of so many bytes read, not yet noted (between lines 224 and 244 of znet/ws_connection.go); handing it on (:248-269); ended (:225-228). -/
inductive ReaderPc where
  | reading
  | got (n : Nat)
  | busy
  | ended
deriving DecidableEq, Repr

/-- The clock, `lastActivityTime` and `isClosed` (znet/ws_connection.go:26-113), and the reader. -/
structure State where
  now : Int := 0
  last : Option Int := none
  closed : Bool := false
  /-- frames that have arrived and have not been read -/
  inbox : List Frame := []
  begun : Option Bytes := none
  reader : ReaderPc := .reading
  started : Bool := false
deriving DecidableEq

/-- The actions of znet/ws_connection.go:210-272, :276-308, :497-547 and :563-571 that matter here. -/
inductive Label where
  | advance (d : Nat)
  | start
  | arrive (f : Frame)
  | take (f : Frame)
  | complete (f : Frame)
  | fail (f : Frame)
  | note (n : Nat)
  | handed
  | close
  | check (alive : Bool)
deriving DecidableEq

/-- One action, given `HeartbeatMax` in seconds. -/
inductive Step (heartbeatMax : Int) : State → Label → State → Prop where
  | advance (s : State) (d : Nat) : Step heartbeatMax s (.advance d) { s with now := s.now + d }
  /-- znet/ws_connection.go:288; the reader is started afterwards (line 298) -/
  | start (s : State) : s.started = false → Step heartbeatMax s .start { s with started := true, last := some s.now }
  | arrive (s : State) (f : Frame) : Step heartbeatMax s (.arrive f) { s with inbox := s.inbox ++ [f] }
  /-- `ReadMessage` (line 224) deals with a frame and goes on waiting -/
  | take (s : State) (f : Frame) (r : List Frame) (o : Option Bytes) : s.started = true → s.reader = .reading → s.inbox = f :: r → onFrame s.begun f = .wait o →
      Step heartbeatMax s (.take f) { s with inbox := r, begun := o }
  /-- `ReadMessage` returns a message; its type is not `PingMessage` (line 229) -/
  | complete (s : State) (f : Frame) (r : List Frame) (b : Bytes) : s.started = true → s.reader = .reading → s.inbox = f :: r → onFrame s.begun f = .message b →
      Step heartbeatMax s (.complete f) { s with inbox := r, begun := none, reader := .got b.length }
  /-- `ReadMessage` fails (lines 225-228) -/
  | fail (s : State) (f : Frame) (r : List Frame) : s.started = true → s.reader = .reading → s.inbox = f :: r → onFrame s.begun f = .fail →
      Step heartbeatMax s (.fail f) { s with inbox := r, reader := .ended }
  /-- lines 242-244 -/
  | note (s : State) (n : Nat) : s.reader = .got n → Step heartbeatMax s (.note n) { s with reader := .busy, last := if 0 < n then some s.now else s.last }
  | handed (s : State) : s.reader = .busy → Step heartbeatMax s .handed { s with reader := .reading }
  /-- the finalizer sets `isClosed` (line 534) -/
  | close (s : State) : Step heartbeatMax s .close { s with closed := true }
  /-- `IsAlive` (lines 563-571) -/
  | check (s : State) : s.started = true →
      Step heartbeatMax s (.check (!s.closed && decide (Alive.elapsed s.now s.last < Alive.limit heartbeatMax))) s

end Zinx.WsFrames
