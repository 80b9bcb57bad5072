import Verif.Model.Conf
import Verif.Model.Alive

/-!
# Several servers in one process

The servers of a process have their own connections, routes and queues, but one configuration, `zconf.GlobalObject`, from which some settings are copied when a server is created and
others are read each time they are needed. The model follows the calls on the servers of one process, one at a time: a connection is taken up, or a message handled, in one step. What
the choice of `range` over a map is, is left open. Clients, the length of the queues, buffer sizes and the request pool are left out.
-/

namespace Zinx.Servers

open Zinx.Conf

/-- `uint32(x)` of an `int`. As in znet/msghandler.go:63, :83. -/
def toU32 (x : Int) : UInt32 := UInt32.ofNat (x % 4294967296).toNat

/-- The functions that create a server, znet/server.go:182, 188, 200, 211. -/
inductive Maker where
  /-- `NewServer` -/
  | plain
  /-- `NewUserConfServer` -/
  | user (u : Config)
  /-- `NewDefaultRouterSlicesServer` -/
  | slices
  /-- `NewUserConfDefaultRouterSlicesServer` -/
  | userSlices (u : Config)

/-- What they write to the global configuration first (znet/server.go:192, 201, 217). -/
def Maker.apply : Maker → Config → Config
  | .plain, g => g
  | .user u, g => (userConfToGlobal u g).1
  | .slices, g => { g with routerSlicesMode := true }
  | .userSlices u, g => (userConfToGlobal u g).1

/-- The one that can refuse (znet/server.go:212-214). -/
def Maker.ok : Maker → Prop
  | .userSlices u => u.routerSlicesMode = true
  | _ => True

/-- `newMsgHandle` sets the size of the pool in bind mode (znet/msghandler.go:58-63). -/
def settle (g : Config) : Config := if g.workerMode = "Bind" then { g with workerPoolSize := toU32 g.maxConn } else g

/-- The global configuration once a server has been created. znet/server.go:129-222. -/
def made (m : Maker) (g : Config) : Config := settle (m.apply g)

/-- A task queue: not made, made, closed. `TaskQueue`, znet/msghandler.go:23-50. -/
inductive Queue where
  | unset
  | opened
  | closed
deriving DecidableEq

structure Server where
  /-- the fields copied from the configuration (znet/server.go:132-143, 155-166); here all are kept, but only those are looked at -/
  conf : Config
  /-- `mh.WorkerPoolSize` -/
  pool : Nat
  /-- `mh.TaskQueue` -/
  queues : List Queue
  /-- `mh.freeWorkers` and `mh.extraFreeWorkers`; `none` is the nil map -/
  free : Option (List Nat)
  extra : Option (List Nat)
  /-- IDs that have a router, resp. handlers -/
  apis : List Nat
  routes : List Nat
  /-- connections in the manager, with their workers -/
  conns : List (Nat × Nat)

/-- Length of `TaskQueue` (znet/msghandler.go:70, 83, 98). -/
def queueLen (g : Config) : Nat := if g.workerMode = "DynamicBind" then (toU32 g.maxConn).toNat else g.workerPoolSize.toNat

/-- `newServerWithConfig` with `newMsgHandle` (znet/server.go:129-178, znet/msghandler.go:54-104), `g` being the global configuration it leaves. -/
def newServer (g : Config) : Server where
  conf := g
  pool := g.workerPoolSize.toNat
  queues := List.replicate (queueLen g) .unset
  free := if g.workerMode = "Bind" ∨ g.workerMode = "DynamicBind" then some (List.range g.workerPoolSize.toNat) else none
  extra := if g.workerMode = "DynamicBind" then some (List.range' g.workerPoolSize.toNat ((toU32 g.maxConn).toNat - g.workerPoolSize.toNat)) else none
  apis := []
  routes := []
  conns := []

/-- znet/server.go:437-447. -/
inductive Listener where
  | tcp
  | ws
  | kcp
deriving DecidableEq

/-- znet/server.go:437-447. -/
def listeners (mode : String) : List Listener :=
  if mode = "tcp" then [.tcp] else if mode = "websocket" then [.ws] else if mode = "kcp" then [.kcp] else [.tcp, .ws]

/-- What becomes of a message. znet/msghandler.go:255-280, :320-344, :383-401. -/
inductive Result where
  /-- handled by a router, by slice handlers -/
  | router
  | slices
  /-- "not FOUND" -/
  | notFound
  /-- the reader waits for ever (nil queue) -/
  | blocked
  /-- the reader panics -/
  | panicked
deriving DecidableEq

/-- A call on a server or an event at it, with its result. znet/server.go:224-314, :423-485, znet/connection.go:264-285; each is explained at `Local`. -/
inductive Op where
  | addRouter (id : Nat) (ok : Bool)
  | addSlices (id : Nat) (ok : Bool)
  /-- `Start`; `none` if it panics -/
  | start (ls : Option (List Listener))
  /-- a connection comes: `none` if it is not accepted, its worker otherwise -/
  | connect (c : Nat) (w : Option Nat)
  | message (c : Nat) (id : Nat) (r : Result)
  /-- a connection ends; the result is whether its goroutine ends without panic -/
  | disconnect (c : Nat) (ok : Bool)
  /-- `IsAlive` of a connection from which nothing was noted for so many nanoseconds -/
  | alive (silent : Int) (r : Bool)
  /-- `Unpack` of a header with this length -/
  | unpack (len : Nat) (ok : Bool)

/-- The end of `useWorker` (znet/msghandler.go:203-214). -/
def fallback (pool c : Nat) : Nat := if pool = 0 then 0 else c % pool

/-- How a message is handled, by a worker or without (znet/msghandler.go:269-273, 436-440; :327-340, :390-398). -/
def handled (slicesMode : Bool) (x : Server) (id : Nat) : Result :=
  if slicesMode then (if id ∈ x.routes then .slices else .notFound) else (if id ∈ x.apis then .router else .notFound)

/-- One call on one server, `g` being the global configuration at that time. -/
inductive Local (g : Config) : Server → Op → Server → Prop where
  /-- `AddRouter` (znet/server.go:473-478, znet/msghandler.go:354-365): panics if the server was created for slices, or if the ID is taken -/
  | addRouter (x : Server) (id : Nat) : x.conf.routerSlicesMode = false → id ∉ x.apis → Local g x (.addRouter id true) { x with apis := id :: x.apis }
  | addRouterPanic (x : Server) (id : Nat) : x.conf.routerSlicesMode = true ∨ id ∈ x.apis → Local g x (.addRouter id false) x
  /-- `AddRouterSlices` (znet/server.go:480-485, znet/router.go:59-70) -/
  | addSlices (x : Server) (id : Nat) : x.conf.routerSlicesMode = true → id ∉ x.routes → Local g x (.addSlices id true) { x with routes := id :: x.routes }
  | addSlicesPanic (x : Server) (id : Nat) : x.conf.routerSlicesMode = false ∨ id ∈ x.routes → Local g x (.addSlices id false) x
  /-- `Start` (znet/server.go:423-449) with `StartWorkerPool` (znet/msghandler.go:447-459) -/
  | start (x : Server) : x.pool ≤ x.queues.length →
      Local g x (.start (some (listeners g.mode))) { x with queues := List.replicate x.pool .opened ++ x.queues.drop x.pool }
  | startPanic (x : Server) : x.queues.length < x.pool → Local g x (.start none) { x with queues := List.replicate x.queues.length .opened }
  /-- the limit (znet/server.go:277, 321, 381) -/
  | refuse (x : Server) (c : Nat) : g.maxConn ≤ x.conns.length → Local g x (.connect c none) x
  /-- `useWorker` (znet/msghandler.go:171-201) with a worker from the free set -/
  | connectFree (x : Server) (c w : Nat) (f : List Nat) : (x.conns.length : Int) < g.maxConn → g.workerMode = "Bind" ∨ g.workerMode = "DynamicBind" → x.free = some f → w ∈ f →
      Local g x (.connect c (some w)) { x with conns := (c, w) :: x.conns, free := some (f.erase w) }
  /-- … with one from the extra set, for which a queue is made -/
  | connectExtra (x : Server) (c w : Nat) (f : List Nat) : (x.conns.length : Int) < g.maxConn → g.workerMode = "DynamicBind" → (∀ w f, x.free = some f → w ∉ f) → x.extra = some f → w ∈ f →
      w < x.queues.length → Local g x (.connect c (some w)) { x with conns := (c, w) :: x.conns, queues := x.queues.set w .opened }
  /-- … by the number of the connection (znet/msghandler.go:203-217) -/
  | connectHash (x : Server) (c : Nat) : (x.conns.length : Int) < g.maxConn → (g.workerMode = "Bind" ∨ g.workerMode = "DynamicBind" → ∀ w f, x.free = some f → w ∉ f) →
      (g.workerMode = "DynamicBind" → ∀ w f, x.extra = some f → w ∉ f) →
      Local g x (.connect c (some (fallback x.pool c))) { x with conns := (c, fallback x.pool c) :: x.conns }
  /-- `Intercept` without a pool (znet/msghandler.go:265-273) -/
  | messageNoPool (x : Server) (c w id : Nat) : (c, w) ∈ x.conns → x.pool = 0 → Local g x (.message c id (handled g.routerSlicesMode x id)) x
  /-- `SendMsgToTaskQueue` (znet/msghandler.go:299-303) and the worker (:427-440) -/
  | message (x : Server) (c w id : Nat) : (c, w) ∈ x.conns → 0 < x.pool → x.queues[w]? = some .opened → Local g x (.message c id (handled g.routerSlicesMode x id)) x
  | messageBlocked (x : Server) (c w id : Nat) : (c, w) ∈ x.conns → 0 < x.pool → x.queues[w]? = some .unset → Local g x (.message c id .blocked) x
  | messagePanic (x : Server) (c w id : Nat) : (c, w) ∈ x.conns → 0 < x.pool → x.queues[w]? = none ∨ x.queues[w]? = some .closed → Local g x (.message c id .panicked) x
  /-- `freeWorker` (znet/msghandler.go:221-251) -/
  | leaveHash (x : Server) (c w : Nat) : (c, w) ∈ x.conns → g.workerMode ≠ "Bind" → g.workerMode ≠ "DynamicBind" →
      Local g x (.disconnect c true) { x with conns := x.conns.erase (c, w) }
  | leaveFree (x : Server) (c w : Nat) (f : List Nat) : (c, w) ∈ x.conns → g.workerMode = "Bind" ∨ g.workerMode = "DynamicBind" ∧ w < x.pool → x.free = some f →
      Local g x (.disconnect c true) { x with conns := x.conns.erase (c, w), free := some (f.insert w) }
  /-- assignment to an entry of a nil map -/
  | leaveFreeNil (x : Server) (c w : Nat) : (c, w) ∈ x.conns → g.workerMode = "Bind" ∨ g.workerMode = "DynamicBind" ∧ w < x.pool → x.free = none →
      Local g x (.disconnect c false) { x with conns := x.conns.erase (c, w) }
  | leaveExtra (x : Server) (c w : Nat) (f : List Nat) : (c, w) ∈ x.conns → g.workerMode = "DynamicBind" → x.pool ≤ w → x.queues[w]? = some .opened → x.extra = some f →
      Local g x (.disconnect c true) { x with conns := x.conns.erase (c, w), queues := x.queues.set w .closed, extra := some (f.insert w) }
  | leaveExtraNil (x : Server) (c w : Nat) : (c, w) ∈ x.conns → g.workerMode = "DynamicBind" → x.pool ≤ w → x.queues[w]? = some .opened → x.extra = none →
      Local g x (.disconnect c false) { x with conns := x.conns.erase (c, w), queues := x.queues.set w .closed }
  /-- close of a nil or closed channel, or no such queue -/
  | leaveExtraPanic (x : Server) (c w : Nat) : (c, w) ∈ x.conns → g.workerMode = "DynamicBind" → x.pool ≤ w → x.queues[w]? ≠ some .opened →
      Local g x (.disconnect c false) { x with conns := x.conns.erase (c, w) }
  /-- znet/connection.go:550 -/
  | alive (x : Server) (d : Int) : Local g x (.alive d (decide (d < Alive.limit g.heartbeatMax))) x
  /-- zpack/datapack_tlv_bigendian.go:76 -/
  | unpack (x : Server) (n : Nat) : n < 4294967296 → Local g x (.unpack n (decide (¬ (0 < g.maxPacketSize.toNat ∧ g.maxPacketSize.toNat < n)))) x

/-- The process. `GlobalObject`, zconf/zconf.go:123, and the servers, znet/server.go:31-92. -/
structure State where
  glob : Config
  srv : Nat → Option Server

/-- `NewServer` … (znet/server.go:182-222), and the calls of `Op`. -/
inductive Label where
  | create (i : Nat) (m : Maker)
  | op (i : Nat) (o : Op)

/-- One call in the process. znet/server.go:129-222 and the steps of `Local`. -/
inductive Step : State → Label → State → Prop where
  | create (s : State) (i : Nat) (m : Maker) : s.srv i = none → m.ok →
      Step s (.create i m) { glob := made m s.glob, srv := fun j => if j = i then some (newServer (made m s.glob)) else s.srv j }
  | op (s : State) (i : Nat) (o : Op) (x y : Server) : s.srv i = some x → Local s.glob x o y →
      Step s (.op i o) { s with srv := fun j => if j = i then some y else s.srv j }

/-- A process with the configuration `g`. zconf/zconf.go:206-259. -/
def init (g : Config) : State := { glob := g, srv := fun _ => none }

end Zinx.Servers
