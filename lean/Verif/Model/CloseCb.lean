import Verif.Model.Callbacks
import Verif.Model.Fair

/-!
# Close callbacks of a connection, with other goroutines running

`AddCloseCallback`, `RemoveCloseCallback` and `InvokeCloseCallbacks` (znet/connection.go:585-607, znet/ws_connection.go:597-619, znet/kcp_connection.go:591-614) and the part of the finalizer that
invokes them (znet/connection.go:516-524, znet/ws_connection.go:533-544, znet/kcp_connection.go:522-530).

* Any number of goroutines call `AddCloseCallback` and `RemoveCloseCallback`; each is in at most one call at a time. A callback may do so too: it is then one more goroutine here.
* The linked list is represented by the list of its entries; this is C41.
* The mutex: an addition or a removal under the write lock is one step; it is not possible while the callbacks are being invoked under the read lock.
* The finalizer runs once (C35, C36); what else it does is left out.
-/

namespace Zinx.CloseCb

open Callbacks (Op)

/-- znet/connection.go, znet/ws_connection.go, znet/kcp_connection.go:26-120. -/
inductive Kind where
  | tcp
  | ws
  | kcp
deriving DecidableEq

/-- Handler, key, function. znet/callbacks.go:3-8. -/
abbrev Entry := Nat × Nat × Nat

/-- A goroutine: not in a call; called; found the connection open. znet/connection.go:585-601. -/
inductive OPc where
  | idle
  | check (o : Op Nat)
  | want (o : Op Nat)

/-- The goroutine that invokes the callbacks: not there; at the read lock; with callbacks left to run; returned; a callback panicked (recovered in the finalizer's goroutine). znet/connection.go:516-524, :603-607, znet/callbacks.go:45-49. -/
inductive IPc where
  | none
  | lock
  | run (rest : List Entry)
  | done
  | crashed
deriving DecidableEq

/-- znet/connection.go:26-119 (`ctx`, `closeCallback`), znet/ws_connection.go:26-113 (`isClosed`), znet/kcp_connection.go:26-120 (`closed`), and the goroutines. -/
structure State where
  /-- the context exists -/
  started : Bool := false
  cancelled : Bool := false
  /-- fields `isClosed` (WebSocket), `closed` (KCP) -/
  flag : Bool := false
  /-- the finalizer has begun -/
  closing : Bool := false
  list : List Entry := []
  op : Nat → OPc := fun _ => .idle
  inv : IPc := .none

/-- The steps of znet/connection.go:498-527, :585-607; each is explained at `Step`. -/
inductive Label where
  /-- `Start` makes the context -/
  | start
  /-- goroutine `i` calls `AddCloseCallback` or `RemoveCloseCallback` -/
  | call (i : Nat) (o : Op Nat)
  /-- the call of goroutine `i` returns, the connection being closed -/
  | drop (i : Nat)
  | pass (i : Nat)
  /-- the call of goroutine `i` takes effect and returns -/
  | apply (i : Nat) (o : Op Nat)
  /-- the connection is stopped -/
  | cancel
  /-- the finalizer begins -/
  | close
  /-- the finalizer starts the goroutine that invokes the callbacks -/
  | spawn
  /-- the invocation begins -/
  | begin
  /-- a callback runs and returns -/
  | ran (c : Nat)
  /-- a callback runs and panics -/
  | raised (c : Nat)
  | done

/-- `isClosed`: znet/connection.go:577-579, field `isClosed` of a WebSocket connection, znet/kcp_connection.go:583-585. -/
def closed (k : Kind) (s : State) : Bool :=
  match k with
  | .tcp => !s.started || s.cancelled
  | .ws | .kcp => s.flag

/-- `Add` and `Remove` on the list of entries (C41). znet/callbacks.go:15-43. -/
def applyOp (l : List Entry) : Op Nat → List Entry
  | .add _ _ none => l
  | .add h k (some c) => l ++ [(h, k, c)]
  | .remove h k => l.eraseP fun e => decide (e.1 = h ∧ e.2.1 = k)

/-- `invoke` is in progress: the read lock is held. znet/connection.go:604-606. -/
def IPc.locked : IPc → Bool
  | .run _ => true
  | _ => false

/-- Change of a table at one point. Auxiliary. -/
def set (f : Nat → OPc) (i : Nat) (v : OPc) : Nat → OPc := fun j => if j = i then v else f j

inductive Step (k : Kind) : State → Label → State → Prop where
  /-- znet/connection.go:298, znet/ws_connection.go:277, znet/kcp_connection.go:283 -/
  | start (s : State) : s.started = false → Step k s .start { s with started := true }
  | call (s : State) (i : Nat) (o : Op Nat) : s.op i = .idle → Step k s (.call i o) { s with op := set s.op i (.check o) }
  /-- znet/connection.go:586-588, :595-597 -/
  | drop (s : State) (i : Nat) (o : Op Nat) : s.op i = .check o → closed k s = true → Step k s (.drop i) { s with op := set s.op i .idle }
  | pass (s : State) (i : Nat) (o : Op Nat) : s.op i = .check o → closed k s = false → Step k s (.pass i) { s with op := set s.op i (.want o) }
  /-- znet/connection.go:589-591, :598-600 -/
  | apply (s : State) (i : Nat) (o : Op Nat) : s.op i = .want o → s.inv.locked = false → Step k s (.apply i o) { s with op := set s.op i .idle, list := applyOp s.list o }
  /-- `Stop`, or the reader or the writer ends -/
  | cancel (s : State) : s.started = true → Step k s .cancel { s with cancelled := true }
  /-- znet/connection.go:498, znet/ws_connection.go:497, znet/kcp_connection.go:486-495 -/
  | close (s : State) : s.cancelled = true → s.closing = false → Step k s .close { s with closing := true, flag := s.flag || decide (k = .kcp) }
  /-- znet/connection.go:516, znet/ws_connection.go:534-536, znet/kcp_connection.go:522 -/
  | spawn (s : State) : s.closing = true → s.inv = .none → Step k s .spawn { s with inv := .lock, flag := s.flag || decide (k = .ws) }
  /-- znet/connection.go:604-606, znet/callbacks.go:46 -/
  | begin (s : State) : s.inv = .lock → Step k s .begin { s with inv := .run s.list }
  /-- znet/callbacks.go:46-48 -/
  | ran (s : State) (e : Entry) (rest : List Entry) : s.inv = .run (e :: rest) → Step k s (.ran e.2.2) { s with inv := .run rest }
  /-- znet/connection.go:517-521 -/
  | raised (s : State) (e : Entry) (rest : List Entry) : s.inv = .run (e :: rest) → Step k s (.raised e.2.2) { s with inv := .crashed }
  | done (s : State) : s.inv = .run [] → Step k s .done { s with inv := .done }

end Zinx.CloseCb
