import Verif.Model.Sys

/-!
# What a connection takes over when it is made, and its context

Fields of a server or client that can be set at any time (packing, hooks, heartbeat checker), the goroutines that make connections and read these fields one after the other (`newServerConn`, `newWebsocketConn`,
`newKcpServerConn`, `newClientConn`, `newWsClientConn`, then `StartConn` or the goroutine of the client), `Start` with the contexts it makes, `Stop`, the end of a connection, and goroutines of the user that call
`Context()`. Reads and writes of fields are sequentially consistent; hooks and packings are numbers. Simplifications: `Start` is called by the library only, once per connection. A connection is known to others from
the moment it is complete (it is then put into the connection manager, or becomes the connection of the client). Everything that happens between the start hook and the end is left to `Model/ConnLife.lean`.
`newKcpClientConn` (znet/kcp_connection.go:161-185) is called nowhere.
-/

namespace Zinx.Made

/-- Who made the connection: znet/server.go:301 (TCP), :355 (WebSocket), :407 (KCP), znet/client.go:144 (WebSocket), :173 (TCP). -/
inductive Kind where
  | tcp
  | ws
  | kcp
  | tcpClient
  | wsClient
deriving DecidableEq

/-- Keys of context values: `WsConnectionHttpReqCtxKey{}` (znet/ws_connection.go:22) and all others. -/
inductive Key where
  | httpReq
  | other (n : Nat)
deriving DecidableEq

/-- Contexts made by `context.Background`, `context.WithValue` and `context.WithCancel` (znet/connection.go:298, znet/ws_connection.go:122, :277-281, znet/kcp_connection.go:283). The value is a context, too, that of a
request, here a number. A cancel function is known by its number, here that of its connection. -/
inductive Ctx where
  | background
  | withValue (parent : Ctx) (k : Key) (v : Nat)
  | withCancel (parent : Ctx) (id : Nat)
deriving DecidableEq

/-- `Done()` is closed: the cancel function of the context or of one it was made from was called (package context of Go; used at znet/connection.go:219, :243, :318, :422, :578). -/
def Ctx.done (called : Nat → Bool) : Ctx → Bool
  | .background => false
  | .withValue p _ _ => p.done called
  | .withCancel p i => called i || p.done called

/-- `Value(k)`: that of the nearest `WithValue` with this key (package context of Go; znet/ws_connection.go:122). -/
def Ctx.value (k : Key) : Ctx → Option Nat
  | .background => none
  | .withValue p k' v => if k' = k then some v else p.value k
  | .withCancel p _ => p.value k

/-- How far a connection is: accepted or dialled; packing read (znet/connection.go:145); start hook read (:146); stop hook read and known to others (:147-156); heartbeat checker bound (znet/server.go:226-232,
znet/client.go:181-185); context made (znet/connection.go:298); start hook called (:302); heartbeat checker started (:305-308); `Start` has seen that the context is done (:318); stop hook called (:501). -/
inductive Pc where
  | raw
  | packed
  | hooked
  | made
  | bound
  | begun
  | greeted
  | running
  | ending
  | ended
deriving DecidableEq

/-- The fields `packet`, `onConnStart`, `onConnStop`, `hc`, `ctx` of a connection (znet/connection.go:26-120, znet/ws_connection.go:24-113, znet/kcp_connection.go:26-120). -/
structure Conn where
  kind : Kind
  pc : Pc := .raw
  packet : Nat := 0
  onStart : Option Nat := none
  onStop : Option Nat := none
  hc : Option Nat := none
  ctx : Option Ctx := none
deriving DecidableEq

/-- Fields of the server or client (znet/server.go:52-96, znet/client.go:20-60); its connections; which cancel functions were called. -/
structure State where
  packet : Nat := 0
  onStart : Option Nat := none
  onStop : Option Nat := none
  hc : Option Nat := none
  conn : Nat → Option Conn := fun _ => none
  called : Nat → Bool := fun _ => false

/-- What happens; explained at `Step`. znet/server.go:224-236, :505-590, znet/client.go:273-295, znet/connection.go:292-331. -/
inductive Label where
  | setPacket (p : Nat)
  | setStart (f : Option Nat)
  | setStop (f : Option Nat)
  | setHc (h : Option Nat)
  | accept (c : Nat) (k : Kind) (r : Nat)
  | readPacket (c : Nat)
  | readStart (c : Nat)
  | readStop (c : Nat)
  | bind (c : Nat)
  | start (c : Nat)
  | startHook (c : Nat) (f : Option Nat)
  | watch (c : Nat) (h : Option Nat)
  | pack (c : Nat) (p : Nat)
  | stop (c : Nat)
  | stopPanic (c : Nat)
  | seesDone (c : Nat)
  | stopHook (c : Nat) (f : Option Nat)
  | reqOver (r : Nat)
  | take (c : Nat) (x : Option Ctx)
deriving DecidableEq

/-- znet/connection.go:122-158 and the other constructors: a connection changes. -/
def State.put (s : State) (c : Nat) (x : Conn) : State := { s with conn := fun i => if i = c then some x else s.conn i }

/-- Others can know the connection: znet/connection.go:156, znet/ws_connection.go:149, znet/kcp_connection.go:154, znet/client.go:177. -/
def Pc.known : Pc → Bool
  | .raw | .packed | .hooked => false
  | _ => true

/-- `Start` has made the context: znet/connection.go:298, znet/ws_connection.go:281, znet/kcp_connection.go:283. -/
def Pc.started : Pc → Bool
  | .begun | .greeted | .running | .ending | .ended => true
  | _ => false

inductive Step : State → Label → State → Prop where
  /-- `SetPacket`: znet/server.go:525-527, znet/client.go:293-295 -/
  | setPacket (s : State) (p : Nat) : Step s (.setPacket p) { s with packet := p }
  /-- `SetOnConnStart`: znet/server.go:505-507, znet/client.go:273-275 -/
  | setStart (s : State) (f : Option Nat) : Step s (.setStart f) { s with onStart := f }
  /-- `SetOnConnStop`: znet/server.go:509-511, znet/client.go:277-279 -/
  | setStop (s : State) (f : Option Nat) : Step s (.setStop f) { s with onStop := f }
  /-- the last line of `StartHeartBeat` and `StartHeartBeatWithOption`: znet/server.go:549, :581, znet/client.go:221, :243 -/
  | setHc (s : State) (h : Option Nat) : Step s (.setHc h) { s with hc := h }
  /-- a new connection, with request `r` if it is one of a WebSocket server, whose context then is made: znet/connection.go:126-137, :164-175, znet/ws_connection.go:121-132, :157-167, znet/kcp_connection.go:126-135 -/
  | accept (s : State) (c : Nat) (k : Kind) (r : Nat) : s.conn c = none →
      Step s (.accept c k r) (s.put c { kind := k, ctx := if k = .ws then some (.withValue .background .httpReq r) else none })
  /-- znet/connection.go:145, :183, znet/ws_connection.go:140, :175, znet/kcp_connection.go:143 -/
  | readPacket (s : State) (c : Nat) (x : Conn) : s.conn c = some x → x.pc = .raw → Step s (.readPacket c) (s.put c { x with pc := .packed, packet := s.packet })
  /-- the line after: znet/connection.go:146, :184, znet/ws_connection.go:141, :176, znet/kcp_connection.go:144 -/
  | readStart (s : State) (c : Nat) (x : Conn) : s.conn c = some x → x.pc = .packed → Step s (.readStart c) (s.put c { x with pc := .hooked, onStart := s.onStart })
  /-- the line after; then the connection is known to others: znet/connection.go:147-156, :185, znet/ws_connection.go:142-149, :177, znet/kcp_connection.go:145-154, znet/client.go:177 -/
  | readStop (s : State) (c : Nat) (x : Conn) : s.conn c = some x → x.pc = .hooked → Step s (.readStop c) (s.put c { x with pc := .made, onStop := s.onStop })
  /-- znet/server.go:226-232, znet/client.go:181-185 -/
  | bind (s : State) (c : Nat) (x : Conn) : s.conn c = some x → x.pc = .made → Step s (.bind c) (s.put c { x with pc := .bound, hc := s.hc })
  /-- the first lines of `Start`: znet/connection.go:298, znet/kcp_connection.go:283 (the context comes from `Background`), znet/ws_connection.go:277-281 (from the one there is, if any) -/
  | start (s : State) (c : Nat) (x : Conn) : s.conn c = some x → x.pc = .bound →
      Step s (.start c) (s.put c { x with pc := .begun, ctx := some (.withCancel (match x.kind with | .ws | .wsClient => x.ctx.getD .background | _ => .background) c) })
  /-- `callOnConnStart`: znet/connection.go:302, :529-534, znet/ws_connection.go:284, znet/kcp_connection.go:287 -/
  | startHook (s : State) (c : Nat) (x : Conn) : s.conn c = some x → x.pc = .begun → Step s (.startHook c x.onStart) (s.put c { x with pc := .greeted })
  /-- the heartbeat checker of the connection is started, if it has one: znet/connection.go:305-308, znet/ws_connection.go:288-291, znet/kcp_connection.go:290-293 -/
  | watch (s : State) (c : Nat) (x : Conn) : s.conn c = some x → x.pc = .greeted → Step s (.watch c x.hc) (s.put c { x with pc := .running })
  /-- a message is packed to be sent: znet/connection.go:441, :457, znet/ws_connection.go:409, :448, znet/kcp_connection.go:408, :439 -/
  | pack (s : State) (c : Nat) (x : Conn) : s.conn c = some x → x.pc.known = true → Step s (.pack c x.packet) s
  /-- `Stop`, by the reader, the heartbeat checker, the server or the user: znet/connection.go:329-331, znet/ws_connection.go:312-314, znet/kcp_connection.go:314-316 -/
  | stop (s : State) (c : Nat) (x : Conn) : s.conn c = some x → x.pc.started = true → Step s (.stop c) { s with called := fun i => if i = c then true else s.called i }
  /-- `Stop` while the field `cancel` is nil: nil function call in the calling goroutine -/
  | stopPanic (s : State) (c : Nat) (x : Conn) : s.conn c = some x → x.pc.known = true → x.pc.started = false → Step s (.stopPanic c) s
  /-- znet/connection.go:317-318, znet/ws_connection.go:300-301, znet/kcp_connection.go:302-303 -/
  | seesDone (s : State) (c : Nat) (x : Conn) (k : Ctx) : s.conn c = some x → x.pc = .running → x.ctx = some k → k.done s.called = true → Step s (.seesDone c) (s.put c { x with pc := .ending })
  /-- `callOnConnStop` in the finalizer: znet/connection.go:501, :536-541, znet/ws_connection.go:500, znet/kcp_connection.go:499 -/
  | stopHook (s : State) (c : Nat) (x : Conn) : s.conn c = some x → x.pc = .ending → Step s (.stopHook c x.onStop) (s.put c { x with pc := .ended })
  /-- the handler of a request returns (znet/server.go:358); package net/http cancels the context of the request, from which no context of a connection is made -/
  | reqOver (s : State) (r : Nat) : Step s (.reqOver r) s
  /-- `Context()`: znet/connection.go:494-496, znet/ws_connection.go:493-495, znet/kcp_connection.go:482-484 -/
  | take (s : State) (c : Nat) (x : Conn) : s.conn c = some x → x.pc.known = true → Step s (.take c x.ctx) s

end Zinx.Made
