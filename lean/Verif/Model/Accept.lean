import Verif.Model.ConnMgr

/-!
# Model of the accept loops in `znet/server.go`
-/

namespace Zinx.Accept

open Zinx Zinx.ShardMap Zinx.ConnMgr

/-- `zconf.GlobalObject.Mode` as used by `Start` (znet/server.go:437-447). -/
inductive Mode where
  | tcp
  | websocket
  | kcp
  | both      -- any other value: TCP and WebSocket

/-- Which goroutines run the accept code: one accept loop for TCP (znet/server.go:273-306) and KCP (:377-411), number 0; one goroutine of the
HTTP server per request for WebSocket (:318-356). -/
def Mode.runs : Mode → Nat → Prop
  | .tcp, t => t = 0
  | .kcp, t => t = 0
  | .websocket, t => t ≠ 0
  | .both, _ => True

/-- Where an accepting goroutine is. -/
inductive Thread where
  | idle                          -- before the `Len` check
  | counting (next sum : Nat)     -- inside `Len` (zutils/shard_lock_map.go:50-59)
  | passed                        -- check passed; `Accept`, or authentication and upgrade
  | hasId (id : UInt64)           -- after `atomic.AddUint64(&s.cID, 1)`

/-- Shared state: the counter `s.cID`, the manager's map, the goroutines. znet/server.go:31-92 (`cID`, `ConnMgr`), and the program counters of the goroutines of :273-306, :318-356, :377-411. -/
structure State where
  cID : UInt64
  map : Shards Bytes Conn
  thread : Nat → Thread

/-- A server before it accepts anything. znet/server.go:129-178: `cID` is 0, the manager is new. -/
def initial : State := { cID := 0, map := newConnManager, thread := fun _ => .idle }

/-- Sets the state of goroutine `t`. Auxiliary, for the steps of znet/server.go:273-306, :318-356, :377-411. -/
def State.goto (s : State) (t : Nat) (x : Thread) : State := { s with thread := fun u => if u = t then x else s.thread u }

/-- Actions. The steps of znet/server.go:273-306, :318-356, :377-411, and a removal from the manager (znet/connmanager.go:29-34). -/
inductive Act where
  | begin (t : Nat)
  | visit (t : Nat)
  | refuse (t : Nat)
  | pass (t : Nat)
  | fail (t : Nat)
  | newId (t : Nat) (id : UInt64)
  | add (t : Nat) (id : UInt64)
  | remove (c : Conn)

/-- One atomic step. -/
inductive Step (mode : Mode) (maxConn : Nat) : State → Act → State → Prop where
  | begin (s : State) (t : Nat) (hr : mode.runs t) (h : s.thread t = .idle) : Step mode maxConn s (.begin t) (s.goto t (.counting 0 0))
  | visit (s : State) (t i sum : Nat) (h : s.thread t = .counting i sum) (hi : i < s.map.shards.length) :
      Step mode maxConn s (.visit t) (s.goto t (.counting (i + 1) (sum + (s.map.shard i).length)))
  /-- `Len() >= MaxConn` (znet/server.go:277, :321, :381). -/
  | refuse (s : State) (t sum : Nat) (h : s.thread t = .counting s.map.shards.length sum) (hm : maxConn ≤ sum) :
      Step mode maxConn s (.refuse t) (s.goto t .idle)
  | pass (s : State) (t sum : Nat) (h : s.thread t = .counting s.map.shards.length sum) (hm : sum < maxConn) :
      Step mode maxConn s (.pass t) (s.goto t .passed)
  /-- `Accept`, authentication or upgrade fails. -/
  | fail (s : State) (t : Nat) (h : s.thread t = .passed) : Step mode maxConn s (.fail t) (s.goto t .idle)
  /-- `newCid := atomic.AddUint64(&s.cID, 1)` (znet/server.go:300, :354, :399). -/
  | newId (s : State) (t : Nat) (h : s.thread t = .passed) :
      Step mode maxConn s (.newId t (s.cID + 1)) { s.goto t (.hasId (s.cID + 1)) with cID := s.cID + 1 }
  /-- The constructor adds the connection to the manager (znet/connection.go:156, znet/ws_connection.go:149, znet/kcp_connection.go:154). `handle` is which object it is. -/
  | add (s : State) (t : Nat) (id : UInt64) (handle : Nat) (h : s.thread t = .hasId id) :
      Step mode maxConn s (.add t id) { s.goto t .idle with map := s.map.set (Conn.idStr ⟨handle, id⟩) ⟨handle, id⟩ }
  /-- A connection leaves the manager (znet/connection.go:513, znet/ws_connection.go:524, znet/kcp_connection.go:514). -/
  | remove (s : State) (c : Conn) : Step mode maxConn s (.remove c) { s with map := s.map.remove c.idStr }

/-- IDs given to connections, in order. The numbers of znet/server.go:300, :354, :399. -/
def ids (ls : List Act) : List UInt64 := ls.filterMap fun
  | .newId _ id => some id
  | _ => none

end Zinx.Accept
