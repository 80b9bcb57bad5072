import Verif.Model.Fair

/-!
# Sending on a KCP connection (znet/kcp_connection.go; line numbers are those of this file)

Any number of goroutines calling `SendMsg`, `Send`, `SendBuffMsg` and `SendToQueue`, the writer goroutines, the finalizer, anyone who stops the connection, and the network. The connection has been
started. A message is the byte string made by `Pack`.

* `msgBuffChan` is read and written without exclusion (`SendBuffMsg` takes no lock, `SendToQueue` only a read lock), so several channels and writers can come into being. The model has a heap of
  channels; each evaluation of the field is an action. Reads and writes of the field are sequentially consistent (they are data races in Go).
* A call of `Write` of kcp-go takes a whole message under the lock of the session or fails; it is one action.
* `chanCap` is `MaxMsgChanLen` (at least 1; for 0 see `Model/Unbuf.lean`). The 5 ms timeout of a buffered send may fire at any time after the call got to its `select`.
* New read locks are possible while the finalizer waits for the write lock (in Go they are not; this only adds executions).
* The argument of `SendToQueue` is not nil (lines 387-390), and `Pack` succeeds.
* The heartbeat checker is not part of this model.
-/

namespace Zinx.KcpSend

/-- A packed message, znet/kcp_connection.go:403-452. -/
abbrev Bytes := List UInt8

/-- The four ways of sending (lines 351, 367, 403, 423). -/
inductive Kind where
  | send
  | queue
  | msg
  | buff
deriving DecidableEq

/-- A sending goroutine. `r` tells that it holds the read lock (`SendToQueue`, lines 368-369; otherwise it is in `SendBuffMsg`). -/
inductive SPc where
  | idle
  /-- `SendMsg` at line 404 -/
  | mcheck (m : Bytes)
  /-- `Send` at line 352 -/
  | swant (m : Bytes)
  /-- `Send` at line 358, holding the read lock -/
  | write (m : Bytes)
  /-- `SendBuffMsg` at line 424 -/
  | bcheck (m : Bytes)
  /-- `SendToQueue` at line 368 -/
  | qwant (m : Bytes)
  /-- lines 371, 427 -/
  | nil (m : Bytes) (r : Bool)
  /-- lines 372-377, 428-433 -/
  | make (m : Bytes) (r : Bool)
  /-- line 383 -/
  | qcheck (m : Bytes)
  /-- at the `select`, before the field is evaluated (lines 393-396, 446-449) -/
  | eval (m : Bytes) (r : Bool)
  /-- in the `select`, sending on channel `c` -/
  | sel (m : Bytes) (r : Bool) (c : Nat)
deriving DecidableEq

/-- A writer (lines 189-211): not started; before the field is evaluated (line 195); in the `select`, receiving from channel `c`; in `Send` at line 352; at line 358, holding the read lock; returned. -/
inductive WPc where
  | none
  | eval
  | sel (c : Nat)
  | want (m : Bytes)
  | write (m : Bytes)
  | gone
deriving DecidableEq

/-- The finalizer (lines 486-533): the context is not done; in the stop hook (the flag is set before, line 493); at the write lock (line 501); closing the socket (line 510); closing the channel
(lines 518-520); returned. -/
inductive FPc where
  | waiting
  | hook
  | lock
  | sock
  | close
  | done
deriving DecidableEq

/-- `msgBuffChan`, znet/kcp_connection.go:26-120. -/
structure Chan where
  items : List Bytes := []
  closed : Bool := false
deriving DecidableEq

/-- znet/kcp_connection.go:26-120 and the goroutines. -/
structure State where
  /-- the context is cancelled -/
  cancelled : Bool := false
  /-- field `closed` -/
  closed : Bool := false
  /-- writes fail -/
  broken : Bool := false
  /-- field `msgBuffChan` -/
  field : Option Nat := none
  /-- number of channels made -/
  nch : Nat := 0
  chan : Nat → Chan := fun _ => {}
  /-- the writer started with channel `k` -/
  w : Nat → WPc := fun _ => .none
  fin : FPc := .waiting
  s : Nat → SPc := fun _ => .idle

/-- Read locks are held. znet/kcp_connection.go:352-353, :368-369. -/
def SPc.reads : SPc → Bool
  | .write _ | .qcheck _ => true
  | .nil _ r | .make _ r | .eval _ r | .sel _ r _ => r
  | _ => false

/-- znet/kcp_connection.go:352-353. -/
def WPc.reads : WPc → Bool
  | .write _ => true
  | _ => false

/-- The finalizer holds the write lock. znet/kcp_connection.go:501-502. -/
def FPc.locks : FPc → Bool
  | .sock | .close => true
  | _ => false

/-- The steps of znet/kcp_connection.go:189-210, :314-316, :351-452, :486-533; each is explained at `Step`. -/
inductive Label where
  | stop
  | netFail
  /-- goroutine `i` calls a send -/
  | call (i : Nat) (m : Bytes) (k : Kind)
  /-- an inner step of it -/
  | own (i : Nat)
  /-- it gets a read lock -/
  | rlock (i : Nat)
  /-- it makes a channel and starts a writer -/
  | make (i : Nat)
  /-- it returns an error -/
  | retErr (i : Nat)
  /-- the message is queued in channel `c`; the call returns nil -/
  | enq (i : Nat) (m : Bytes) (c : Nat)
  /-- it panics -/
  | panic (i : Nat)
  /-- a direct send writes the message and returns nil -/
  | write (i : Nat) (m : Bytes)
  /-- writer `k` evaluates the field -/
  | weval (k : Nat)
  /-- writer `k` receives a message -/
  | recv (k : Nat)
  /-- writer `k` gets the read lock -/
  | wlock (k : Nat)
  /-- writer `k` finds its channel closed -/
  | wspin (k : Nat)
  /-- writer `k` sees the context done -/
  | wdone (k : Nat)
  /-- writer `k` writes a message -/
  | wwrite (k : Nat) (m : Bytes)
  /-- `Send` returns an error to writer `k` -/
  | wfail (k : Nat)
  | fin
  /-- the finalizer panics -/
  | finPanic
deriving DecidableEq

/-- Auxiliary. -/
def set {α : Type} (f : Nat → α) (i : Nat) (v : α) : Nat → α := fun j => if j = i then v else f j

/-- The first program counter of a send. znet/kcp_connection.go:351, :367, :403, :423. -/
def entry (m : Bytes) : Kind → SPc
  | .send => .swant m
  | .queue => .qwant m
  | .msg => .mcheck m
  | .buff => .bcheck m

/-- znet/kcp_connection.go:189-210, :351-452, :486-533. -/
inductive Step (chanCap : Nat) : State → Label → State → Prop where
  /-- lines 314-316 -/
  | stop (s : State) : Step chanCap s .stop { s with cancelled := true }
  | netFail (s : State) : Step chanCap s .netFail { s with broken := true }
  | call (s : State) (i : Nat) (m : Bytes) (k : Kind) : s.s i = .idle → Step chanCap s (.call i m k) { s with s := set s.s i (entry m k) }
  /-- lines 404-406 -/
  | msgClosed (s : State) (i : Nat) (m : Bytes) : s.s i = .mcheck m → s.closed = true → Step chanCap s (.retErr i) { s with s := set s.s i .idle }
  | msgOpen (s : State) (i : Nat) (m : Bytes) : s.s i = .mcheck m → s.closed = false → Step chanCap s (.own i) { s with s := set s.s i (.swant m) }
  /-- lines 352-356 -/
  | sendClosed (s : State) (i : Nat) (m : Bytes) : s.s i = .swant m → s.fin.locks = false → s.closed = true → Step chanCap s (.retErr i) { s with s := set s.s i .idle }
  | sendOpen (s : State) (i : Nat) (m : Bytes) : s.s i = .swant m → s.fin.locks = false → s.closed = false → Step chanCap s (.rlock i) { s with s := set s.s i (.write m) }
  /-- lines 358-364 -/
  | write (s : State) (i : Nat) (m : Bytes) : s.s i = .write m → s.broken = false → Step chanCap s (.write i m) { s with s := set s.s i .idle }
  | writeFail (s : State) (i : Nat) (m : Bytes) : s.s i = .write m → s.broken = true → Step chanCap s (.retErr i) { s with s := set s.s i .idle }
  /-- lines 424-426 -/
  | buffClosed (s : State) (i : Nat) (m : Bytes) : s.s i = .bcheck m → s.closed = true → Step chanCap s (.retErr i) { s with s := set s.s i .idle }
  | buffOpen (s : State) (i : Nat) (m : Bytes) : s.s i = .bcheck m → s.closed = false → Step chanCap s (.own i) { s with s := set s.s i (.nil m false) }
  /-- line 368 -/
  | queueLock (s : State) (i : Nat) (m : Bytes) : s.s i = .qwant m → s.fin.locks = false → Step chanCap s (.rlock i) { s with s := set s.s i (.nil m true) }
  /-- lines 371, 427 -/
  | isNil (s : State) (i : Nat) (m : Bytes) (r : Bool) : s.s i = .nil m r → s.field = none → Step chanCap s (.own i) { s with s := set s.s i (.make m r) }
  | notNil (s : State) (i : Nat) (m : Bytes) (r : Bool) (c : Nat) : s.s i = .nil m r → s.field = some c →
      Step chanCap s (.own i) { s with s := set s.s i (if r then .qcheck m else .eval m false) }
  /-- lines 372-377, 428-433 -/
  | make (s : State) (i : Nat) (m : Bytes) (r : Bool) : s.s i = .make m r →
      Step chanCap s (.make i) { s with field := some s.nch, chan := set s.chan s.nch {}, w := set s.w s.nch .eval, nch := s.nch + 1, s := set s.s i (if r then .qcheck m else .eval m false) }
  /-- lines 383-385 -/
  | queueClosed (s : State) (i : Nat) (m : Bytes) : s.s i = .qcheck m → s.closed = true → Step chanCap s (.retErr i) { s with s := set s.s i .idle }
  | queueOpen (s : State) (i : Nat) (m : Bytes) : s.s i = .qcheck m → s.closed = false → Step chanCap s (.own i) { s with s := set s.s i (.eval m true) }
  /-- lines 396, 449: the operand of the send is evaluated -/
  | eval (s : State) (i : Nat) (m : Bytes) (r : Bool) (c : Nat) : s.s i = .eval m r → s.field = some c → Step chanCap s (.own i) { s with s := set s.s i (.sel m r c) }
  /-- lines 396-397, 449-450 -/
  | enq (s : State) (i : Nat) (m : Bytes) (r : Bool) (c : Nat) : s.s i = .sel m r c → (s.chan c).closed = false → (s.chan c).items.length < chanCap →
      Step chanCap s (.enq i m c) { s with chan := set s.chan c ⟨(s.chan c).items ++ [m], false⟩, s := set s.s i .idle }
  /-- the same on a closed channel -/
  | enqPanic (s : State) (i : Nat) (m : Bytes) (r : Bool) (c : Nat) : s.s i = .sel m r c → (s.chan c).closed = true →
      Step chanCap s (.panic i) { s with s := set s.s i .idle }
  /-- lines 394-395, 447-448 -/
  | timeout (s : State) (i : Nat) (m : Bytes) (r : Bool) (c : Nat) : s.s i = .sel m r c → Step chanCap s (.retErr i) { s with s := set s.s i .idle }
  /-- line 195 -/
  | weval (s : State) (k c : Nat) : s.w k = .eval → s.field = some c → Step chanCap s (.weval k) { s with w := set s.w k (.sel c) }
  | recv (s : State) (k c : Nat) (m : Bytes) (ms : List Bytes) : s.w k = .sel c → (s.chan c).items = m :: ms →
      Step chanCap s (.recv k) { s with chan := set s.chan c ⟨ms, (s.chan c).closed⟩, w := set s.w k (.want m) }
  /-- lines 202-205: `break` leaves the `select` only -/
  | recvClosed (s : State) (k c : Nat) : s.w k = .sel c → (s.chan c).items = [] → (s.chan c).closed = true → Step chanCap s (.wspin k) { s with w := set s.w k .eval }
  /-- lines 206-207 -/
  | ctxDone (s : State) (k c : Nat) : s.w k = .sel c → s.cancelled = true → Step chanCap s (.wdone k) { s with w := set s.w k .gone }
  /-- lines 197-200 with lines 352-356; the error is logged and the loop goes on -/
  | wClosed (s : State) (k : Nat) (m : Bytes) : s.w k = .want m → s.fin.locks = false → s.closed = true → Step chanCap s (.wfail k) { s with w := set s.w k .eval }
  | wOpen (s : State) (k : Nat) (m : Bytes) : s.w k = .want m → s.fin.locks = false → s.closed = false → Step chanCap s (.wlock k) { s with w := set s.w k (.write m) }
  /-- lines 358-364 -/
  | wwrite (s : State) (k : Nat) (m : Bytes) : s.w k = .write m → s.broken = false → Step chanCap s (.wwrite k m) { s with w := set s.w k .eval }
  | wfail (s : State) (k : Nat) (m : Bytes) : s.w k = .write m → s.broken = true → Step chanCap s (.wfail k) { s with w := set s.w k .eval }
  /-- lines 304-305, 487-496: the flag is set -/
  | finStart (s : State) : s.fin = .waiting → s.cancelled = true → Step chanCap s .fin { s with closed := true, fin := .hook }
  /-- the stop hook returns (line 499) -/
  | hookDone (s : State) : s.fin = .hook → Step chanCap s .fin { s with fin := .lock }
  /-- line 501: nobody holds a read lock -/
  | finLock (s : State) : s.fin = .lock → (∀ i, (s.s i).reads = false) → (∀ k, (s.w k).reads = false) → Step chanCap s .fin { s with fin := .sock }
  /-- lines 510-515; the socket is closed -/
  | finSock (s : State) : s.fin = .sock → Step chanCap s .fin { s with broken := true, fin := .close }
  /-- lines 518-520, unlocking -/
  | finNoChan (s : State) : s.fin = .close → s.field = none → Step chanCap s .fin { s with fin := .done }
  | finChan (s : State) (c : Nat) : s.fin = .close → s.field = some c → (s.chan c).closed = false →
      Step chanCap s .fin { s with chan := set s.chan c ⟨(s.chan c).items, true⟩, fin := .done }
  /-- line 519 on a closed channel -/
  | finPanic (s : State) (c : Nat) : s.fin = .close → s.field = some c → (s.chan c).closed = true → Step chanCap s .finPanic { s with fin := .done }

end Zinx.KcpSend
