import Verif.Model.Fair

/-!
# Life of a connection (znet/connection.go, znet/ws_connection.go, znet/kcp_connection.go), without heartbeat

From the moment `newServerConn`, `newWebsocketConn` or `newKcpServerConn` has put it into the manager. Goroutines: `Start` (in a goroutine of its own, znet/server.go:299-303, 356, and
224-236), the reader, any number of callers of `Stop`, and for WebSocket and KCP goroutines that send, which hold `msgLock` while they write. Hooks take any time; they return or panic.
Choosing a worker (`useWorker`, `freeWorker`) is in `Model/Worker.lean`; the heartbeat in `Model/Teardown.lean`; what the handler does with a message is not part of this model.
Line numbers are those of znet/connection.go unless marked ws or kcp.
-/

namespace Zinx.ConnLife

/-- znet/connection.go, znet/ws_connection.go, znet/kcp_connection.go:26-120. -/
inductive Kind where
  | tcp
  | ws
  | kcp
deriving DecidableEq

/-- `Start`: not begun; in the start hook (:302); at :311-315; waiting for the context (:317-318); in the stop hook (:501); at `msgLock.Lock()` (ws :502, kcp :501); at `conn.Close` (:509); at `Remove`
(:512-514); ended; ended by a panic in the start hook (:293-297); ended by a panic in the stop hook (the same). -/
inductive MainPc where
  | new
  | startHook
  | spawn
  | waiting
  | stopHook
  | lock
  | close
  | remove
  | done
  | startPanicked
  | stopPanicked
deriving DecidableEq

/-- The reader: not started; at the top of the loop (:242) or in `Read` (:249); handling what was read (:264-285); at the deferred `Stop` (:230); ended. -/
inductive ReaderPc where
  | none
  | loop
  | handling
  | stopping
  | exited
deriving DecidableEq

structure State where
  main : MainPc := .new
  reader : ReaderPc := .none
  /-- `ctx` and `cancel` have been set (:298) -/
  ctxSet : Bool := false
  /-- the context is cancelled -/
  cancelled : Bool := false
  inMgr : Bool := true
  sockClosed : Bool := false
  /-- number of sends that hold `msgLock` (for reading, with KCP) -/
  holders : Nat := 0
  /-- the process has ended by a panic that nothing recovers -/
  crashed : Bool := false
deriving DecidableEq

inductive Label where
  /-- `Start` begins: context made (:298) -/
  | begin
  | startHookDone
  | startHookPanic
  | spawnReader
  /-- `Start` sees the context cancelled -/
  | ctxDone
  | stopHookDone
  | stopHookPanic
  | lock
  | close
  | remove
  /-- a message is given to the handlers -/
  | handle
  /-- handling it ends, possibly by a panic -/
  | handled (panics : Bool)
  | readError
  | readerSeesDone
  | readerStop
  /-- a call of `Stop`, from anywhere, that returns -/
  | stop
  /-- a call of `Stop` that panics -/
  | stopPanic
  /-- a send takes `msgLock` -/
  | sendLock
  /-- … and gives it back -/
  | sendUnlock
deriving DecidableEq

/-- Actions of the goroutine of `Start`. znet/connection.go:292-325, :498-527. -/
def Label.isMain : Label → Bool
  | .begin | .startHookDone | .startHookPanic | .spawnReader | .ctxDone | .stopHookDone | .stopHookPanic | .lock | .close | .remove => true
  | _ => false

/-- Actions of the reader that do not depend on the peer. znet/connection.go:227-288. -/
def Label.isReader : Label → Bool
  | .handled _ | .readerSeesDone | .readerStop => true
  | _ => false

/-- One action. `stuck`: the peer does not read and the buffers are full, so that writes return only when the socket is closed (there is no write deadline). -/
inductive Act (k : Kind) (stuck : Bool) : State → Label → State → Prop where
  /-- ws :277-281, kcp :283 -/
  | begin (s : State) : s.main = .new → Act k stuck s .begin { s with main := .startHook, ctxSet := true }
  | startHookDone (s : State) : s.main = .startHook → Act k stuck s .startHookDone { s with main := .spawn }
  /-- recovered in `Start` (:293-297, kcp :278-282), but not by WebSocket connections (ws :276-308) nor `StartConn` -/
  | startHookPanic (s : State) : s.main = .startHook → Act k stuck s .startHookPanic { s with main := .startPanicked, crashed := k == .ws }
  /-- ws :298, kcp :300 -/
  | spawnReader (s : State) : s.main = .spawn → Act k stuck s .spawnReader { s with main := .waiting, reader := .loop }
  /-- ws :301, kcp :303; a KCP connection is marked closed before the hook (kcp :487-494) -/
  | ctxDone (s : State) : s.main = .waiting → s.cancelled = true → Act k stuck s .ctxDone { s with main := .stopHook }
  /-- ws :500, kcp :499 -/
  | stopHookDone (s : State) : s.main = .stopHook → Act k stuck s .stopHookDone { s with main := if k = .tcp then .close else .lock }
  | stopHookPanic (s : State) : s.main = .stopHook → Act k stuck s .stopHookPanic { s with main := .stopPanicked, crashed := k == .ws }
  /-- ws :502, kcp :501; a WebSocket connection is not closed yet at ws :507, `Start` being called once -/
  | lock (s : State) : s.main = .lock → s.holders = 0 → Act k stuck s .lock { s with main := .close }
  /-- ws :519, kcp :510 -/
  | close (s : State) : s.main = .close → Act k stuck s .close { s with main := .remove, sockClosed := true }
  /-- ws :523-525, kcp :513-515; the lock is released -/
  | remove (s : State) : s.main = .remove → Act k stuck s .remove { s with main := .done, inMgr := false }
  /-- `Read` returned data (:249, ws :224, kcp :234) that is or completes a message, handed on (:278, :284, ws :261, :268, kcp :262, :269) -/
  | handle (s : State) : s.reader = .loop → s.sockClosed = false → Act k stuck s .handle { s with reader := .handling }
  /-- a panic is recovered (:231-235, kcp :218-222) and ends the reader; a WebSocket reader recovers nothing (ws :210-272) -/
  | handled (s : State) (p : Bool) : s.reader = .handling →
      Act k stuck s (.handled p) { s with reader := if p then .stopping else .loop, crashed := p && k == .ws }
  /-- `Read` fails (:250-253, ws :225-228, kcp :235-238): by the peer or the network at any time, and after the socket is closed -/
  | readError (s : State) : s.reader = .loop → Act k stuck s .readError { s with reader := .stopping }
  /-- :243-244, ws :218-219, kcp :226-227 -/
  | readerSeesDone (s : State) : s.reader = .loop → s.cancelled = true → Act k stuck s .readerSeesDone { s with reader := .stopping }
  /-- :230, ws :213, kcp :217 -/
  | readerStop (s : State) : s.reader = .stopping → Act k stuck s .readerStop { s with reader := .exited, cancelled := true }
  /-- :329-331, ws :312-314, kcp :314-316; cancelling a cancelled context does nothing -/
  | stop (s : State) : s.ctxSet = true → Act k stuck s .stop { s with cancelled := true }
  /-- :330 with `cancel` nil: nil function call, in the calling goroutine -/
  | stopPanic (s : State) : s.ctxSet = false → Act k stuck s .stopPanic s
  /-- `msgLock.Lock()` in `Send`, `SendToQueue`, `SendMsg`, `SendBuffMsg` (ws :350, :366, :401, :427), one at a time; `msgLock.RLock()` in `Send`, `SendToQueue` (kcp :352, :368), any
  number, but none once the finalizer waits for the lock (`sync.RWMutex`) -/
  | sendLock (s : State) : k = .ws ∧ s.holders = 0 ∨ k = .kcp ∧ s.main ≠ .lock → s.main ≠ .close → s.main ≠ .remove →
      Act k stuck s .sendLock { s with holders := s.holders + 1 }
  /-- the write returns -/
  | sendUnlock (s : State) : 0 < s.holders → stuck = false ∨ s.sockClosed = true → Act k stuck s .sendUnlock { s with holders := s.holders - 1 }

/-- Actions of a process that has not crashed. A panic that is not recovered ends the process (znet/ws_connection.go:210-308). -/
inductive Step (k : Kind) (stuck : Bool) : State → Label → State → Prop where
  | run {s t : State} {l : Label} : s.crashed = false → Act k stuck s l t → Step k stuck s l t

end Zinx.ConnLife
