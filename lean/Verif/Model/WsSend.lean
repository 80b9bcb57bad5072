import Verif.Model.Fair

/-!
# Sending on a WebSocket connection (znet/ws_connection.go; line numbers are those of this file)

Any number of goroutines calling `SendMsg`/`Send` (direct) and `SendBuffMsg`/`SendToQueue` (buffered), the writer goroutine, the finalizer, anyone who stops the connection, and the network. The
connection has been started. A message is the byte string made by `Pack`.

* All sends and the finalizer run under `msgLock`, so that taking the lock, the tests behind it and making the channel are one action.
* A call of `WriteMessage` passes the bytes of its message to the socket in any number of pieces. When the network breaks, some prefix has gone out, and this and all later calls fail (gorilla/websocket
  keeps the error). WebSocket frame headers and masking are not modelled: the wire carries the payload bytes. Two calls at the same time are not allowed by the library (it panics); the model lets
  calls overlap, so that their absence is a theorem.
* `chanCap` is `MaxMsgChanLen` (at least 1; for 0 see `Model/Unbuf.lean`). The 5 ms timeout of a buffered send may fire at any time after the call got to its `select`.
* The heartbeat checker is not part of this model (see `Model/Teardown.lean`).
-/

namespace Zinx.WsSend

/-- A packed message, znet/ws_connection.go:400-461. -/
abbrev Bytes := List UInt8

/-- A sending goroutine: not in a send; at `msgLock.Lock()`; in `WriteMessage` (lines 356, 416), holding the lock; in the `select` (lines 390-395, 455-460), holding the lock. -/
inductive SPc where
  | idle
  | want (m : Bytes) (buffered : Bool)
  /-- `out` has gone out, `rest` has not -/
  | write (out rest : Bytes)
  | sel (m : Bytes)
deriving DecidableEq

/-- The writer (lines 185-206): not started; in its `select`; in `Send`, at the lock; in `WriteMessage`, holding the lock; returned. -/
inductive WPc where
  | none
  | select
  | want (m : Bytes)
  | write (out rest : Bytes)
  | gone
deriving DecidableEq

/-- The finalizer (lines 497-550): the context is not done; in the stop hook; at the lock (line 502); at lines 519-527; at lines 529-534; returned. -/
inductive FPc where
  | waiting
  | hook
  | lock
  | sock
  | close
  | done
deriving DecidableEq

/-- Holder of `msgLock`. `msgLock`, znet/ws_connection.go:26-113. -/
inductive Owner where
  | sender (i : Nat)
  | writer
  | fin
deriving DecidableEq

/-- `msgBuffChan` when it is not nil. znet/ws_connection.go:26-113. -/
structure Chan where
  items : List Bytes
  closed : Bool
deriving DecidableEq

/-- znet/ws_connection.go:26-113 and the goroutines. -/
structure State where
  /-- the context is cancelled -/
  cancelled : Bool := false
  /-- field `isClosed` -/
  closed : Bool := false
  /-- writes fail -/
  broken : Bool := false
  lock : Option Owner := none
  chan : Option Chan := none
  writer : WPc := .none
  fin : FPc := .waiting
  s : Nat → SPc := fun _ => .idle

/-- The steps of znet/ws_connection.go:185-206, :312-314, :349-461, :497-547; each is explained at `Step`. -/
inductive Label where
  | stop
  | netFail
  /-- goroutine `i` calls a send -/
  | call (i : Nat) (m : Bytes) (buffered : Bool)
  /-- it gets the lock and goes on -/
  | lock (i : Nat)
  /-- it gets the lock, finds the connection closed, and returns an error -/
  | refuse (i : Nat)
  /-- it returns an error, having held the lock -/
  | retErr (i : Nat)
  /-- the message is queued and the call returns nil -/
  | enq (i : Nat) (m : Bytes)
  /-- it panics -/
  | panic (i : Nat)
  /-- bytes written by a direct send -/
  | write (i : Nat) (x : Bytes)
  /-- a direct send of `m` returns nil -/
  | ret (i : Nat) (m : Bytes)
  /-- the writer receives a message -/
  | recv
  /-- the writer gets the lock -/
  | wlock
  /-- the writer finds the channel closed and goes on -/
  | wspin
  /-- the writer sees the context done -/
  | wdone
  /-- bytes written by the writer -/
  | wwrite (x : Bytes)
  /-- `Send` of `m` returns nil to the writer -/
  | wend (m : Bytes)
  /-- `Send` returns an error to the writer, which drops the message and goes on -/
  | wfail
  | fin
  /-- the finalizer panics -/
  | finPanic
deriving DecidableEq

/-- Auxiliary. -/
def set {α : Type} (f : Nat → α) (i : Nat) (v : α) : Nat → α := fun j => if j = i then v else f j

/-- Lines 369-376, 430-437: make the channel and start the writer if there is none. -/
def State.withChan (s : State) : State := match s.chan with
  | none => { s with chan := some ⟨[], false⟩, writer := .select }
  | some _ => s

/-- znet/ws_connection.go:185-206, :349-461, :497-547. -/
inductive Step (chanCap : Nat) : State → Label → State → Prop where
  /-- lines 312-314 -/
  | stop (s : State) : Step chanCap s .stop { s with cancelled := true }
  | netFail (s : State) : Step chanCap s .netFail { s with broken := true }
  | call (s : State) (i : Nat) (m : Bytes) (b : Bool) : s.s i = .idle → Step chanCap s (.call i m b) { s with s := set s.s i (.want m b) }
  /-- lines 350-354, 401-405 -/
  | directClosed (s : State) (i : Nat) (m : Bytes) : s.s i = .want m false → s.lock = none → s.closed = true → Step chanCap s (.refuse i) { s with s := set s.s i .idle }
  | directOpen (s : State) (i : Nat) (m : Bytes) : s.s i = .want m false → s.lock = none → s.closed = false →
      Step chanCap s (.lock i) { s with lock := some (.sender i), s := set s.s i (.write [] m) }
  /-- lines 356-362, 416-422, unlocking -/
  | write (s : State) (i : Nat) (out x rest : Bytes) : s.s i = .write out (x ++ rest) → x ≠ [] → s.broken = false →
      Step chanCap s (.write i x) { s with s := set s.s i (.write (out ++ x) rest) }
  | writeEnd (s : State) (i : Nat) (m : Bytes) : s.s i = .write m [] → s.broken = false → Step chanCap s (.ret i m) { s with lock := none, s := set s.s i .idle }
  | writeFail (s : State) (i : Nat) (out rest : Bytes) : s.s i = .write out rest → s.broken = true → Step chanCap s (.retErr i) { s with lock := none, s := set s.s i .idle }
  /-- lines 366-383, 427-444: the channel is made before the test for closure -/
  | buffClosed (s : State) (i : Nat) (m : Bytes) : s.s i = .want m true → s.lock = none → s.closed = true → Step chanCap s (.refuse i) { s.withChan with s := set s.s i .idle }
  | buffOpen (s : State) (i : Nat) (m : Bytes) : s.s i = .want m true → s.lock = none → s.closed = false →
      Step chanCap s (.lock i) { s.withChan with lock := some (.sender i), s := set s.s i (.sel m) }
  /-- lines 393-394, 458-459 -/
  | enq (s : State) (i : Nat) (m : Bytes) (c : Chan) : s.s i = .sel m → s.chan = some c → c.closed = false → c.items.length < chanCap →
      Step chanCap s (.enq i m) { s with chan := some ⟨c.items ++ [m], false⟩, lock := none, s := set s.s i .idle }
  /-- the same on a closed channel -/
  | enqPanic (s : State) (i : Nat) (m : Bytes) (c : Chan) : s.s i = .sel m → s.chan = some c → c.closed = true →
      Step chanCap s (.panic i) { s with lock := none, s := set s.s i .idle }
  /-- lines 391-392, 456-457 -/
  | timeout (s : State) (i : Nat) (m : Bytes) : s.s i = .sel m → Step chanCap s (.retErr i) { s with lock := none, s := set s.s i .idle }
  /-- line 191 -/
  | recv (s : State) (m : Bytes) (ms : List Bytes) (c : Bool) : s.writer = .select → s.chan = some ⟨m :: ms, c⟩ →
      Step chanCap s .recv { s with chan := some ⟨ms, c⟩, writer := .want m }
  /-- lines 198-201: `break` leaves the `select` only -/
  | recvClosed (s : State) : s.writer = .select → s.chan = some ⟨[], true⟩ → Step chanCap s .wspin s
  /-- lines 202-203 -/
  | ctxDone (s : State) : s.writer = .select → s.cancelled = true → Step chanCap s .wdone { s with writer := .gone }
  /-- lines 193-196 with lines 350-354; the error is logged and the loop goes on -/
  | wClosed (s : State) (m : Bytes) : s.writer = .want m → s.lock = none → s.closed = true → Step chanCap s .wlock { s with writer := .select }
  | wOpen (s : State) (m : Bytes) : s.writer = .want m → s.lock = none → s.closed = false → Step chanCap s .wlock { s with lock := some .writer, writer := .write [] m }
  /-- lines 356-362 -/
  | wwrite (s : State) (out x rest : Bytes) : s.writer = .write out (x ++ rest) → x ≠ [] → s.broken = false →
      Step chanCap s (.wwrite x) { s with writer := .write (out ++ x) rest }
  | wend (s : State) (m : Bytes) : s.writer = .write m [] → s.broken = false → Step chanCap s (.wend m) { s with lock := none, writer := .select }
  | wfail (s : State) (out rest : Bytes) : s.writer = .write out rest → s.broken = true → Step chanCap s .wfail { s with lock := none, writer := .select }
  /-- lines 301-302 -/
  | finStart (s : State) : s.fin = .waiting → s.cancelled = true → Step chanCap s .fin { s with fin := .hook }
  /-- the stop hook returns (line 500) -/
  | hookDone (s : State) : s.fin = .hook → Step chanCap s .fin { s with fin := .lock }
  /-- lines 502-509 -/
  | finLock (s : State) : s.fin = .lock → s.lock = none → s.closed = false → Step chanCap s .fin { s with lock := some .fin, fin := .sock }
  | finLockClosed (s : State) : s.fin = .lock → s.lock = none → s.closed = true → Step chanCap s .fin { s with fin := .done }
  /-- lines 519-525; the socket is closed -/
  | finSock (s : State) : s.fin = .sock → Step chanCap s .fin { s with broken := true, fin := .close }
  /-- lines 529-534, unlocking -/
  | finNoChan (s : State) : s.fin = .close → s.chan = none → Step chanCap s .fin { s with closed := true, lock := none, fin := .done }
  | finChan (s : State) (c : Chan) : s.fin = .close → s.chan = some c → c.closed = false →
      Step chanCap s .fin { s with chan := some ⟨c.items, true⟩, closed := true, lock := none, fin := .done }
  /-- line 530 on a closed channel -/
  | finPanic (s : State) (c : Chan) : s.fin = .close → s.chan = some c → c.closed = true → Step chanCap s .finPanic { s with lock := none, fin := .done }

end Zinx.WsSend
