import Verif.Model.Router

/-!
# Configuration of heartbeat checkers (znet/heartbeat.go)

Checkers are objects, numbered in order of creation; handler slices are Go slices with backing arrays (`Router.Heap`), so that sharing between a checker and its
clone would be visible; quit channels are numbered. Functions, routers and connections are opaque values of type `H`; nil is `none`.
-/

namespace Zinx.HeartbeatConf

open Zinx.Router (Heap Slice read nilSlice append make)

/-- ziface/iheartbeat.go:40. -/
def defaultMsgID : UInt32 := 99999

/-- znet/heartbeat.go:11-25. -/
structure Checker (H : Type) where
  interval : Int
  quitChan : Nat
  makeMsg : Option H
  onRemoteNotAlive : Option H
  msgID : UInt32
  router : Option H
  routerSlices : Slice
  conn : Option H
  beatFunc : Option H

/-- All checkers, their arrays, and the number of channels made. znet/heartbeat.go:11-25. -/
structure State (H : Type) where
  heap : Heap H
  chans : Nat
  checkers : List (Checker H)

/-- The package-level defaults `makeDefaultMsg`, `notAliveDefaultFunc`, `&HeatBeatDefaultRouter{}` and `HeatBeatDefaultHandle` (znet/heartbeat.go:31-53). -/
structure Defaults (H : Type) where
  makeMsg : H
  notAlive : H
  router : H
  handle : H

/-- Calls on checkers; `i` is the number of the checker. znet/heartbeat.go:55-103, :159-183. -/
inductive Op (H : Type) where
  | new (interval : Int)
  | setOnRemoteNotAlive (i : Nat) (f : Option H)
  | setHeartbeatMsgFunc (i : Nat) (f : Option H)
  | setHeartbeatFunc (i : Nat) (f : Option H)
  | bindRouter (i : Nat) (msgID : UInt32) (router : Option H)
  | bindRouterSlices (i : Nat) (msgID : UInt32) (handlers : List (Option H))
  | bindConn (i : Nat) (conn : H)
  | clone (i : Nat)

variable {H : Type}

/-- No checkers yet; array 0 is that of nil slices. Before the first call of `NewHeartbeatChecker` (znet/heartbeat.go:55). -/
def State.empty : State H := ⟨[[]], 0, []⟩

/-- `NewHeartbeatChecker` (znet/heartbeat.go:55-71). -/
def State.new (d : Defaults H) (st : State H) (interval : Int) : State H :=
  { heap := st.heap ++ [[some d.handle]], chans := st.chans + 1,
    checkers := st.checkers ++ [⟨interval, st.chans, some d.makeMsg, some d.notAlive, defaultMsgID, some d.router, ⟨st.heap.length, 1⟩, none, none⟩] }

/-- An assignment to fields of checker `i`. The assignments of znet/heartbeat.go:73-103, :159-162. -/
def State.modify (st : State H) (i : Nat) (f : Checker H → Checker H) : State H := { st with checkers := st.checkers.modify i f }

/-- `BindRouterSlices` (znet/heartbeat.go:98-103). -/
def State.bindRouterSlices (spare : Nat → Nat) (st : State H) (i : Nat) (msgID : UInt32) (hs : List (Option H)) : State H :=
  match st.checkers[i]? with
  | none => st
  | some c =>
    if hs.length > 0 ∧ msgID ≠ defaultMsgID then
      let (h, s) := append spare st.heap c.routerSlices hs
      { st with heap := h, checkers := st.checkers.modify i fun c => { c with msgID := msgID, routerSlices := s } }
    else st

/-- `Clone` (znet/heartbeat.go:166-183): the handlers are appended to the nil slice of the new object. -/
def State.clone (spare : Nat → Nat) (st : State H) (i : Nat) : State H :=
  match st.checkers[i]? with
  | none => st
  | some c =>
    let (h, s) := append spare st.heap nilSlice (read st.heap c.routerSlices)
    { heap := h, chans := st.chans + 1,
      checkers := st.checkers ++ [⟨c.interval, st.chans, c.makeMsg, c.onRemoteNotAlive, c.msgID, c.router, s, none, c.beatFunc⟩] }

/-- One call: znet/heartbeat.go:73-77 (`setOnRemoteNotAlive`), 79-83 (`setHeartbeatMsgFunc`), 85-89 (`setHeartbeatFunc`), 91-96 (`bindRouter`),
159-162 (`bindConn`; the connection's side, `SetHeartBeat`, is not part of the checker). -/
def State.step (d : Defaults H) (spare : Nat → Nat) (st : State H) : Op H → State H
  | .new n => st.new d n
  | .setOnRemoteNotAlive i f => if f.isSome then st.modify i fun c => { c with onRemoteNotAlive := f } else st
  | .setHeartbeatMsgFunc i f => if f.isSome then st.modify i fun c => { c with makeMsg := f } else st
  | .setHeartbeatFunc i f => if f.isSome then st.modify i fun c => { c with beatFunc := f } else st
  | .bindRouter i m r => if r.isSome ∧ m ≠ defaultMsgID then st.modify i fun c => { c with msgID := m, router := r } else st
  | .bindRouterSlices i m hs => st.bindRouterSlices spare i m hs
  | .bindConn i c => st.modify i fun x => { x with conn := some c }
  | .clone i => st.clone spare i

/-- A sequence of calls (znet/heartbeat.go:55-103, :159-183). -/
def State.run (d : Defaults H) (spare : Nat → Nat) (st : State H) (ops : List (Op H)) : State H := ops.foldl (State.step d spare) st

/-- What can be seen of a checker: its settings with the handlers spelled out, without the identity of its channel. The fields of znet/heartbeat.go:11-25. -/
structure View (H : Type) where
  interval : Int
  makeMsg : Option H
  onRemoteNotAlive : Option H
  msgID : UInt32
  router : Option H
  handlers : List (Option H)
  conn : Option H
  beatFunc : Option H
deriving DecidableEq

/-- The view of checker `i` (`MsgID`, `Router`, `RouterSlices`: znet/heartbeat.go:185-195; the other fields are used by `check` and `start`). -/
def State.view (st : State H) (i : Nat) : Option (View H) :=
  (st.checkers[i]?).map fun c => ⟨c.interval, c.makeMsg, c.onRemoteNotAlive, c.msgID, c.router, read st.heap c.routerSlices, c.conn, c.beatFunc⟩

/-- The quit channel of checker `i`. Field `quitChan` of znet/heartbeat.go:11-25. -/
def State.quit (st : State H) (i : Nat) : Option Nat := (st.checkers[i]?).map (·.quitChan)

end Zinx.HeartbeatConf
