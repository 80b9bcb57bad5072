import Verif.Model.Fair

/-!
# Tearing down a connection that has a heartbeat checker

The goroutine of `Connection.Start` / `WsConnection.Start` / `KcpConnection.Start` from the point where it waits for the context, running the finalizer; the goroutine of the heartbeat checker; other
goroutines that send on a WebSocket or KCP connection (they hold its lock while they write); anyone who stops the connection. The checker's verdicts are arbitrary here (they are
the subject of `Model/Alive.lean`). User functions take any time and return.
-/

namespace Zinx.Teardown

/-- znet/connection.go, znet/ws_connection.go, znet/kcp_connection.go. -/
inductive Kind where
  | tcp
  | ws
  | kcp
deriving DecidableEq

/-- The finalizer: waiting for the context (znet/connection.go:317-318, znet/ws_connection.go:301-302, znet/kcp_connection.go:303); in the stop hook (znet/connection.go:501, ws :500, kcp :499);
at `msgLock.Lock()` (ws :502, kcp :501); at `hc.Stop()`, sending on the quit channel (znet/connection.go:505, ws :514, kcp :506, znet/heartbeat.go:124); before `Close`, `Remove`, and the end. -/
inductive FinPc where
  | waiting
  | hook
  | lock
  | quit
  | close
  | remove
  | finish
  | done
deriving DecidableEq

/-- The checker: in the `select` (znet/heartbeat.go:108); in `check` (:140-146); in a user function (`onRemoteNotAlive` :147 or `beatFunc` :150); in `SendMsg` (:131) before the
check for closure resp. the lock; at `RLock` in `Send` (kcp :352) having passed the first check (kcp :404); writing to the socket; returned (znet/heartbeat.go:113). -/
inductive HbPc where
  | select
  | checking
  | user
  | send
  | rlock
  | writing
  | exited
deriving DecidableEq

/-- Holder of `msgLock` (the write lock, with KCP). znet/ws_connection.go:502, znet/kcp_connection.go:501. -/
inductive Owner where
  | fin
  | hb
  | other
deriving DecidableEq

/-- A connection (znet/connection.go:26-119, znet/ws_connection.go:26-113, znet/kcp_connection.go:26-120) and the goroutines named above. -/
structure State where
  /-- the context has been cancelled -/
  cancelled : Bool := false
  /-- field `isClosed` of a WebSocket connection, `closed` of a KCP connection -/
  flag : Bool := false
  fin : FinPc := .waiting
  hb : HbPc := .select
  lock : Option Owner := none
  /-- number of other senders that hold the read lock of a KCP connection -/
  readers : Nat := 0
  sockClosed : Bool := false
  removed : Bool := false
  /-- number of completed calls of the stop hook -/
  hooks : Nat := 0
deriving DecidableEq

/-- Who acts; `tick` and `quit` are the two branches of the checker's `select`. The actions of znet/connection.go:317-323, :498-527 (ws and kcp likewise) and znet/heartbeat.go:105-157. -/
inductive Label where
  | stop
  | fin
  | hb
  | tick
  | quit
  | other
  /-- another sender is done -/
  | otherDone
deriving DecidableEq

/-- The lock can be taken (for writing): nobody holds it. `Lock` at znet/ws_connection.go:502, znet/kcp_connection.go:501. -/
def State.free (k : Kind) (s : State) : Prop := s.lock = none ∧ s.readers = 0 ∧ (k = .kcp → s.hb ≠ .writing)

/-- One action. `stuck`: the peer does not read and the buffers are full, so that writes return only when the socket is closed (there is no write deadline). -/
inductive Step (k : Kind) (stuck : Bool) : State → Label → State → Prop where
  /-- `Stop` (znet/connection.go:329-331, ws :312-314, kcp :314-316), by the reader, the checker's default function, or anyone -/
  | stop (s : State) : Step k stuck s .stop { s with cancelled := true }
  /-- `<-ctx.Done()`; a KCP connection is marked closed (kcp :493) -/
  | finStart (s : State) : s.fin = .waiting → s.cancelled = true → Step k stuck s .fin { s with fin := .hook, flag := if k = .kcp then true else s.flag }
  /-- the stop hook returns -/
  | hookDone (s : State) : s.fin = .hook → Step k stuck s .fin { s with hooks := s.hooks + 1, fin := if k = .tcp then .quit else .lock }
  /-- ws :502, kcp :501 -/
  | finLock (s : State) : s.fin = .lock → s.free k → k = .kcp ∨ s.flag = false → Step k stuck s .fin { s with lock := some .fin, fin := .quit }
  /-- ws :507-509 -/
  | finLockClosed (s : State) : k = .ws → s.fin = .lock → s.free k → s.flag = true → Step k stuck s .fin { s with fin := .done }
  /-- the rendezvous on the quit channel (znet/heartbeat.go:124 with :111-113) -/
  | quit (s : State) : s.fin = .quit → s.hb = .select → Step k stuck s .quit { s with fin := .close, hb := .exited }
  /-- znet/connection.go:509, ws :519, kcp :510 -/
  | close (s : State) : s.fin = .close → Step k stuck s .fin { s with sockClosed := true, fin := .remove }
  /-- znet/connection.go:512-514, ws :523-525, kcp :513-515 -/
  | remove (s : State) : s.fin = .remove → Step k stuck s .fin { s with removed := true, fin := .finish }
  /-- end of the finalizer; ws :534; the deferred unlock -/
  | finish (s : State) : s.fin = .finish →
      Step k stuck s .fin { s with flag := if k = .ws then true else s.flag, lock := if k = .tcp then s.lock else none, fin := .done }
  /-- znet/heartbeat.go:109-110 -/
  | tick (s : State) : s.hb = .select → Step k stuck s .tick { s with hb := .checking }
  /-- the verdict is not alive, or there is a `beatFunc` -/
  | callUser (s : State) : s.hb = .checking → Step k stuck s .hb { s with hb := .user }
  /-- a heartbeat message has been made (znet/heartbeat.go:129) -/
  | beat (s : State) : s.hb = .checking → Step k stuck s .hb { s with hb := .send }
  | userDone (s : State) : s.hb = .user → Step k stuck s .hb { s with hb := .select }
  /-- `SendMsg` and `Send` fail on a closed connection (znet/connection.go:437-439, 374-376; the two checks are one here) -/
  | sendClosed (s : State) : k = .tcp → s.hb = .send → s.cancelled = true → Step k stuck s .hb { s with hb := .select }
  /-- `conn.Write` (znet/connection.go:377) -/
  | sendOpen (s : State) : k = .tcp → s.hb = .send → s.cancelled = false → Step k stuck s .hb { s with hb := .writing }
  /-- ws :401-405 -/
  | lockClosed (s : State) : k = .ws → s.hb = .send → s.lock = none → s.flag = true → Step k stuck s .hb { s with hb := .select }
  /-- ws :401-416 -/
  | lockOpen (s : State) : k = .ws → s.hb = .send → s.lock = none → s.flag = false → Step k stuck s .hb { s with lock := some .hb, hb := .writing }
  /-- kcp :404 -/
  | sendClosedKcp (s : State) : k = .kcp → s.hb = .send → s.flag = true → Step k stuck s .hb { s with hb := .select }
  | sendOpenKcp (s : State) : k = .kcp → s.hb = .send → s.flag = false → Step k stuck s .hb { s with hb := .rlock }
  /-- kcp :352-356; a waiting writer keeps new readers out -/
  | rlockClosed (s : State) : s.hb = .rlock → s.lock = none → s.fin ≠ .lock → s.flag = true → Step k stuck s .hb { s with hb := .select }
  | rlockOpen (s : State) : s.hb = .rlock → s.lock = none → s.fin ≠ .lock → s.flag = false → Step k stuck s .hb { s with hb := .writing }
  /-- the write returns (with an error, if the socket is closed); ws: unlock -/
  | written (s : State) : s.hb = .writing → stuck = false ∨ s.sockClosed = true →
      Step k stuck s .hb { s with lock := if k = .ws then none else s.lock, hb := .select }
  /-- another sender on a WebSocket connection takes the lock … -/
  | otherLock (s : State) : k = .ws → s.lock = none → Step k stuck s .other { s with lock := some .other }
  /-- … and has written -/
  | otherUnlock (s : State) : k = .ws → s.lock = some .other → stuck = false ∨ s.sockClosed = true → Step k stuck s .otherDone { s with lock := none }
  /-- the same on a KCP connection, with the read lock -/
  | otherRLock (s : State) : k = .kcp → s.lock = none → s.fin ≠ .lock → Step k stuck s .other { s with readers := s.readers + 1 }
  | otherRUnlock (s : State) : 0 < s.readers → stuck = false ∨ s.sockClosed = true → Step k stuck s .otherDone { s with readers := s.readers - 1 }

end Zinx.Teardown
