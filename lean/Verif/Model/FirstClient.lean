import Verif.Model.Conf

/-! # From the configuration to the first message of the first client

What becomes of a server with a given global configuration: it is created with `NewServer` (znet/server.go:182-184) or, the configuration of
the user merged in by `Model/Conf`, with `NewUserConfServer` (:188-196); `StartHeartBeat` may have been called; it is started; a client connects
over one of the transports and sends a whole message for which there is a router.

Addresses and ports are free and memory suffices: huge pools and queues are made. Hooks, interceptors, handlers and the check of WebSocket
handshakes do what they are to do. Messages do not get lost on the network. What a `Read` with an empty buffer does is as in `Model/ReadBuf`.
Which free worker is taken is left open, as the order of a Go map is. -/

namespace Zinx.FirstClient

open Zinx.Conf

/-- How the client connects. znet/server.go:437-447. -/
inductive Transport where
  | tcp
  | ws
  | kcp
  deriving DecidableEq

/-- What becomes of it. Of znet/server.go:129-178, :423-449, and of what they lead to. -/
inductive Outcome where
  /-- `Start` panics. -/
  | startPanics
  /-- A panic in a goroutine of the library that nobody recovers ends the process. -/
  | processEnds
  /-- Nobody listens for the transport, or the accept check always fails. -/
  | notAccepted
  /-- The connection is made, but nothing is ever read from it. -/
  | notRead
  /-- The reader panics when it passes the message on. -/
  | deliveryPanics
  /-- The message waits for ever in front of a queue that was not made. -/
  | stuck
  /-- The router of the message is called by worker `w`. -/
  | served (w : Nat)
  /-- The router of the message is called by a goroutine of its own. -/
  | servedAlone
  deriving DecidableEq

/-- The router sees the message and the process goes on. Auxiliary; no code of zinx. -/
def Outcome.good : Outcome → Prop
  | .served _ | .servedAlone => True
  | _ => False

/-- Go's conversion of `MaxConn` to `uint32` (znet/msghandler.go:63, :80, :83). -/
def conns32 (g : Config) : Nat := (g.maxConn % 2 ^ 32).toNat

/-- Field `WorkerPoolSize` of the message handler (znet/msghandler.go:58-68, :96). -/
def pool (g : Config) : Nat := if g.workerMode = "Bind" then conns32 g else g.workerPoolSize.toNat

/-- Length of `TaskQueue` (znet/msghandler.go:70-84, :98). -/
def queues (g : Config) : Nat := if g.workerMode = "DynamicBind" then conns32 g else pool g

/-- A worker is in the set of free ones at first (znet/msghandler.go:64-67, :74-77). -/
def Free (g : Config) (w : Nat) : Prop := (g.workerMode = "Bind" ∨ g.workerMode = "DynamicBind") ∧ w < pool g

/-- A worker is in the extra set at first (znet/msghandler.go:79-82). -/
def Extra (g : Config) (w : Nat) : Prop := g.workerMode = "DynamicBind" ∧ pool g ≤ w ∧ w < conns32 g

/-- `StartWorkerPool` indexes past the end of `TaskQueue` (znet/msghandler.go:447-454). -/
def StartPanics (g : Config) : Prop := queues g < pool g

/-- The listeners that `Start` opens (znet/server.go:437-447). -/
def listens (g : Config) (t : Transport) : Bool :=
  if g.mode = "tcp" then t == .tcp
  else if g.mode = "websocket" then t == .ws
  else if g.mode = "kcp" then t == .kcp
  else t == .tcp || t == .ws

/-- `ListenTcpConn` panics on a certificate that cannot be loaded (znet/server.go:249-254); `loads` says whether the two files can be. -/
def BadCertificate (g : Config) (loads : Bool) : Prop := listens g .tcp = true ∧ g.certFile ≠ "" ∧ g.privateKeyFile ≠ "" ∧ loads = false

/-- `useWorker` (znet/msghandler.go:162-217) for the first connection, whose ID is 1 (znet/server.go:300, :354, :399); with an extra worker its
queue is made and the worker started (:195-197). -/
inductive UseWorker (g : Config) : Nat → Prop where
  | free {w : Nat} : Free g w → UseWorker g w
  | extra {w : Nat} : (∀ v, ¬ Free g v) → Extra g w → UseWorker g w
  | none : (∀ v, ¬ Free g v) → (∀ v, ¬ Extra g v) → pool g = 0 → UseWorker g 0
  | rest : (∀ v, ¬ Free g v) → (∀ v, ¬ Extra g v) → pool g ≠ 0 → UseWorker g (1 % pool g)

/-- The queue of a worker has been made: by `StartWorkerPool` or, for an extra worker, by `useWorker`. znet/server.go:182-196. -/
def Made (g : Config) (w : Nat) : Prop := w < pool g ∨ Extra g w

/-- What becomes of the first message. `hb` is the interval of a call of `StartHeartBeat`. -/
inductive First (g : Config) (hb : Option Int) (loads : Bool) (t : Transport) : Outcome → Prop where
  | start : StartPanics g → First g hb loads t .startPanics
  | certificate : ¬ StartPanics g → BadCertificate g loads → First g hb loads t .processEnds
  /-- Nobody listens. -/
  | silent : ¬ StartPanics g → ¬ BadCertificate g loads → listens g t = false → First g hb loads t .notAccepted
  /-- The manager is empty, and `0 >= MaxConn` (znet/server.go:277, :321, :381). -/
  | full : ¬ StartPanics g → ¬ BadCertificate g loads → listens g t = true → 0 ≥ g.maxConn → First g hb loads t .notAccepted
  /-- `time.NewTicker` panics unless its argument is positive (znet/heartbeat.go:106), in a goroutine of its own (:118-120), which the start of a
  connection begins (znet/connection.go:305-306, znet/ws_connection.go:288-289, znet/kcp_connection.go:290-291). -/
  | ticker {i : Int} : ¬ StartPanics g → ¬ BadCertificate g loads → listens g t = true → 0 < g.maxConn → hb = some i → i ≤ 0 →
      First g hb loads t .processEnds
  /-- A TCP or KCP reader with an empty buffer (znet/connection.go:239, znet/kcp_connection.go:230). -/
  | empty : ¬ StartPanics g → ¬ BadCertificate g loads → listens g t = true → 0 < g.maxConn → (∀ i, hb = some i → 0 < i) →
      t ≠ .ws → g.ioReadBuffSize = 0 → First g hb loads t .notRead
  /-- `Intercept` of the message handler (znet/msghandler.go:255-280) without a pool. -/
  | alone : ¬ StartPanics g → ¬ BadCertificate g loads → listens g t = true → 0 < g.maxConn → (∀ i, hb = some i → 0 < i) →
      (t = .ws ∨ g.ioReadBuffSize ≠ 0) → pool g = 0 → First g hb loads t .servedAlone
  /-- With a pool, `TaskQueue[workerID]` does not exist (znet/msghandler.go:303). -/
  | outside {w : Nat} : ¬ StartPanics g → ¬ BadCertificate g loads → listens g t = true → 0 < g.maxConn → (∀ i, hb = some i → 0 < i) →
      (t = .ws ∨ g.ioReadBuffSize ≠ 0) → pool g ≠ 0 → UseWorker g w → queues g ≤ w → First g hb loads t .deliveryPanics
  /-- A send to a nil channel. -/
  | stuck {w : Nat} : ¬ StartPanics g → ¬ BadCertificate g loads → listens g t = true → 0 < g.maxConn → (∀ i, hb = some i → 0 < i) →
      (t = .ws ∨ g.ioReadBuffSize ≠ 0) → pool g ≠ 0 → UseWorker g w → w < queues g → ¬ Made g w → First g hb loads t .stuck
  /-- The worker takes it and calls the router (znet/msghandler.go:417-440). -/
  | served {w : Nat} : ¬ StartPanics g → ¬ BadCertificate g loads → listens g t = true → 0 < g.maxConn → (∀ i, hb = some i → 0 < i) →
      (t = .ws ∨ g.ioReadBuffSize ≠ 0) → pool g ≠ 0 → UseWorker g w → w < queues g → Made g w → First g hb loads t (.served w)

end Zinx.FirstClient
