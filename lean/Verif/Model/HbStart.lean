import Verif.Model.HeartbeatConf

/-!
# Switching heartbeats on (znet/server.go:533-582, znet/client.go:209-244)

A server or client as far as routes and its heartbeat checker are concerned, and what is done with a message that arrives. Routers and functions are opaque values.
-/

namespace Zinx.HbStart

open Zinx.HeartbeatConf

variable {H : Type}

/-- `HeartBeatOption` (ziface/iheartbeat.go:31-37); nil is `none`. -/
structure Opt (H : Type) where
  makeMsg : Option H
  onRemoteNotAlive : Option H
  msgID : UInt32
  router : Option H
  routerSlices : List (Option H)

/-- A server or client: `slices` is the field `RouterSlicesMode` of a server (znet/server.go:52); `apis` and `rs` the routes of its message handler (znet/msghandler.go:26, :49), `hc` its checker, as it can be seen. -/
structure Side (H : Type) where
  slices : Bool
  apis : UInt32 → Option (Option H)
  rs : Router.State H
  hc : Option (View H)

/-- The calls by which the checker is set up (znet/server.go:558-570; line 538 is the same without an option; a client (znet/client.go:230-237) always takes the router, never the handlers). -/
def setup (slices : Bool) (interval : Int) (o : Option (Opt H)) : List (Op H) :=
  .new interval :: match o with
    | none => []
    | some o => [.setHeartbeatMsgFunc 0 o.makeMsg, .setOnRemoteNotAlive 0 o.onRemoteNotAlive, if slices then .bindRouterSlices 0 o.msgID o.routerSlices else .bindRouter 0 o.msgID o.router]

/-- The checker that comes out. znet/server.go:533-582, znet/client.go:209-244. -/
def checker (d : Defaults H) (spare : Nat → Nat) (slices : Bool) (interval : Int) (o : Option (Opt H)) : Option (View H) := (State.empty.run d spare (setup slices interval o)).view 0

/-- `Server.StartHeartBeat` (no option) and `StartHeartBeatWithOption` (znet/server.go:537-582): a route that is there makes `AddRouter` or `AddRouterSlices` panic. -/
def serverStart (d : Defaults H) (spare : Nat → Nat) (s : Side H) (interval : Int) (o : Option (Opt H)) : Except Panic (Side H) :=
  match checker d spare s.slices interval o with
  | none => .error .nilDeref
  | some v =>
    if s.slices then
      match s.rs.addHandler spare v.msgID v.handlers with
      | .error p => .error p
      | .ok rs => .ok { s with rs := rs, hc := some v }
    else
      match Router.addRouter s.apis v.msgID v.router with
      | .error p => .error p
      | .ok apis => .ok { s with apis := apis, hc := some v }

/-- `Client.StartHeartBeat` and `StartHeartBeatWithOption` (znet/client.go:212-244). -/
def clientStart (d : Defaults H) (spare : Nat → Nat) (s : Side H) (interval : Int) (o : Option (Opt H)) : Except Panic (Side H) := serverStart d spare { s with slices := false } interval o

/-- Who is given a message that arrives: `doMsgHandler` or `doMsgHandlerSlices`, depending on `zconf.GlobalObject.RouterSlicesMode` (znet/msghandler.go:269-273, 320-344, 383-401, 436-440); `none`: the message is dropped. -/
def handles (globalSlices : Bool) (s : Side H) (id : UInt32) : Option (List (Option H)) := if globalSlices then s.rs.getHandlers id else (s.apis id).map ([·])

/-- What a connection of `s` sends as a heartbeat: message ID and the function that makes the data (znet/heartbeat.go:127-131); its checker is a clone of `hc` (znet/server.go:224-232, znet/heartbeat.go:166-183; see C44). -/
def beat (s : Side H) : Option (UInt32 × Option H) := s.hc.map fun v => (v.msgID, v.makeMsg)

end Zinx.HbStart
