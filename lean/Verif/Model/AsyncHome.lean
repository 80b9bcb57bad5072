import Verif.Model.Fair

/-!
# Asynchronous operations of handlers and their completion callbacks (zasync_op, znet/msghandler.go)

A handler starts an operation (`Process`), which runs in a goroutine of its own and sets a result; the handler registers a callback (`OnComplete`). Whoever comes second puts the callback on the task queue
of the worker of the result's connection. The goroutines are the workers, the readers and the operations.

* Results, connections, channels and worker numbers are numbers. `conn k` is the connection of result `k`. Handlers and callbacks use results of the connection they are run for, and each result is set once
  and gets one callback that is not nil: further calls change nothing (C56).
* The order of operations that share a goroutine of `zasync_op` is C58; here each has its own, and `Process` does not wait: that an operation gets its turn, and that a handler is not kept in `Process` by a full
  queue of operations, is part of the fairness assumptions.
* How a worker number is chosen is C28 to C30: here it is any. With dynamic binding, a number that is not one of the pool gets a new channel and a new worker whenever a connection takes it, and the channel is
  closed when a connection that has the number ends.
* A queue of capacity 0 is treated as one of capacity 1 (as in `Worker.lean`).
* Without a pool there is no dynamic binding here.
* Whether the callback sees the result is C57.
-/

namespace Zinx.AsyncHome

/-- The sizes: workers started with the server (0 for clients and without a pool), length of `TaskQueue`, capacity of a channel (znet/msghandler.go:54-158, 447-460); and the connections of the results. -/
structure Cfg where
  pool : Nat
  taskLen : Nat
  cap : Nat
  dynamic : Bool
  conn : Nat → Nat

/-- What is on a queue: a message of a connection (`IRequest`), a callback (`IFuncRequest`). znet/msghandler.go:427-440. -/
inductive Item where
  | msg (c id : Nat)
  | call (k : Nat)
deriving DecidableEq

/-- The connection an item is about. `GetConnection` (znet/request.go:158-160, znet/request_func.go:11-13). -/
def Item.owner (cfg : Cfg) : Item → Nat
  | .msg c _ => c
  | .call k => cfg.conn k

/-- Where a handler (or callback) is: in the user's code, or in `OnComplete` for result `k` (zasync_op/async_op_result.go:50-62, 66-79); `send k none` is at a send to a nil channel. -/
inductive HPc where
  | code
  | won (k : Nat)       -- after the compare-and-swap (:51)
  | wrote (k : Nat)     -- after the store (:52)
  | fire (k : Nat)      -- in `doComplete`, the callback being there (:67)
  | send (k : Nat) (ch : Option Nat)   -- at the send (:77, znet/msghandler.go:303)
deriving DecidableEq

/-- A worker: of a channel not made yet; waiting; with an item; ended. `StartOneWorker` (znet/msghandler.go:412-444). -/
inductive Worker where
  | none
  | idle
  | busy (it : Item) (pc : HPc)
  | gone
deriving DecidableEq

/-- An operation and its `SetReturnedObj` (zasync_op/async_op_result.go:37-47). -/
inductive SPc where
  | notStarted
  | queued         -- `Process` has been called
  | running
  | won            -- after the compare-and-swap (:38)
  | stored         -- after the store (:39), in `doComplete`
  | fire           -- the callback is there (:67)
  | send (ch : Option Nat)   -- at the send (:77)
  | done           -- returned, or its panic recovered (zasync_op/async_worker.go:27-31)
deriving DecidableEq

/-- `AsyncOpResult` (zasync_op/async_op_result.go:16-29) and the operation that sets it. -/
structure Result where
  hasRet : Bool := false
  hasFn : Bool := false
  fn : Bool := false
  called : Bool := false
  op : SPc := .notStarted

/-- znet/msghandler.go:23-50 (`TaskQueue`), the worker numbers of the connections (znet/connection.go:26-119), the results (zasync_op/async_op_result.go:16-29). -/
structure State where
  num : Nat → Option Nat            -- worker number of a connection (`workerID`), when it has one
  cur : Nat → Option Nat            -- `TaskQueue`: the channel of a number; `none` is nil
  fresh : Nat                       -- channels made so far
  closed : Nat → Bool
  queue : Nat → List Item
  worker : Nat → Worker             -- the worker of a channel
  res : Nat → Result

/-- Change of a table at one point. Auxiliary, for `TaskQueue` and the like (znet/msghandler.go:23-50). -/
def upd {α : Type} (f : Nat → α) (i : Nat) (a : α) : Nat → α := fun j => if j = i then a else f j

/-- After `StartWorkerPool` (znet/msghandler.go:447-460). -/
def init (cfg : Cfg) : State where
  num _ := none
  cur w := if w < cfg.pool then some w else none
  fresh := cfg.pool
  closed _ := false
  queue _ := []
  worker g := if g < cfg.pool then .idle else .none
  res _ := {}

/-- What `mh.TaskQueue[workerID]` is (znet/msghandler.go:300-303) for a connection: past the end, nil, a channel. A connection that has no number yet has 0 there. -/
inductive Target where
  | outOfRange
  | never
  | chan (g : Nat)
deriving DecidableEq

/-- znet/msghandler.go:300-303. -/
def State.target (s : State) (cfg : Cfg) (c : Nat) : Target :=
  if cfg.taskLen ≤ (s.num c).getD 0 then .outOfRange
  else match s.cur ((s.num c).getD 0) with
    | none => .never
    | some g => .chan g

/-- Room in a channel. The send of znet/msghandler.go:303 can go on. -/
def State.room (s : State) (cfg : Cfg) (g : Nat) : Prop := (s.queue g).length < max cfg.cap 1

def State.setRes (s : State) (k : Nat) (r : Result) : State := { s with res := upd s.res k r }
def State.setWorker (s : State) (g : Nat) (w : Worker) : State := { s with worker := upd s.worker g w }
/-- Where a worker is after a message, or a goroutine of a message's own. -/
def after (cfg : Cfg) : Worker := if cfg.pool = 0 then .gone else .idle
/-- The send of znet/msghandler.go:303. -/
def State.push (s : State) (g : Nat) (it : Item) : State := { s with queue := upd s.queue g (s.queue g ++ [it]) }

/-- The steps of znet/msghandler.go:162-305, :412-444 and zasync_op/async_op_result.go:37-79; each is explained at `Step`. -/
inductive Label where
  | connect (c w : Nat)
  | connectExtra (c w : Nat)
  | release (c : Nat)
  | arrive (c id : Nat)
  | own (c id : Nat)
  | take (g : Nat) (it : Item)
  | finish (g : Nat) (it : Item)
  | quit (g : Nat)
  | process (g k : Nat)
  | on (g k : Nat)          -- the compare-and-swap of `OnComplete`
  | goOn (g : Nat)          -- a step of `OnComplete`
  | op (k : Nat)            -- a step of an operation or of its `SetReturnedObj`
  | push (g k h : Nat)      -- `OnComplete`, in the worker of channel `g`, sends callback `k` to channel `h`
  | opPush (k h : Nat)      -- `SetReturnedObj` sends
deriving DecidableEq

inductive Step (cfg : Cfg) : State → Label → State → Prop where
  /-- `useWorker` gives a number of the pool, or 0 (znet/msghandler.go:162-217) -/
  | connect {s : State} (c w : Nat) : s.num c = none → (w < cfg.pool ∨ cfg.pool = 0 ∧ w = 0) → Step cfg s (.connect c w) { s with num := upd s.num c (some w) }
  /-- `useWorker` gives an additional number (znet/msghandler.go:193-201) -/
  | connectExtra {s : State} (c w : Nat) : cfg.dynamic = true → 0 < cfg.pool → s.num c = none → cfg.pool ≤ w → w < cfg.taskLen →
      Step cfg s (.connectExtra c w) { s with num := upd s.num c (some w), cur := upd s.cur w (some s.fresh), fresh := s.fresh + 1, worker := upd s.worker s.fresh .idle }
  /-- `freeWorker` (znet/msghandler.go:242-249, 403-408) of such a number; the connection keeps it -/
  | release {s : State} (c w g : Nat) : cfg.dynamic = true → s.num c = some w → cfg.pool ≤ w → s.cur w = some g → s.closed g = false →
      Step cfg s (.release c) { s with closed := upd s.closed g true }
  /-- a reader delivers a message (znet/msghandler.go:255-264, 299-305) -/
  | arrive {s : State} (c id w g : Nat) : s.num c = some w → s.target cfg c = .chan g → s.closed g = false → s.room cfg g →
      Step cfg s (.arrive c id) (s.push g (.msg c id))
  /-- without a pool each message has a goroutine of its own (znet/msghandler.go:265-273), which is given a number that no channel has -/
  | own {s : State} (c id w : Nat) : cfg.pool = 0 → s.num c = some w →
      Step cfg s (.own c id) { s with fresh := s.fresh + 1, worker := upd s.worker s.fresh (.busy (.msg c id) .code) }
  /-- `request, ok := <-taskQueue` (znet/msghandler.go:420) -/
  | take {s : State} (g : Nat) (it : Item) (rest : List Item) : s.worker g = .idle → s.queue g = it :: rest →
      Step cfg s (.take g it) { s with queue := upd s.queue g rest, worker := upd s.worker g (.busy it .code) }
  /-- znet/msghandler.go:421-426 -/
  | quit {s : State} (g : Nat) : s.worker g = .idle → s.queue g = [] → s.closed g = true → Step cfg s (.quit g) (s.setWorker g .gone)
  /-- the handler or callback returns or panics (znet/msghandler.go:308-344, 383-401) -/
  | finish {s : State} (g : Nat) (it : Item) : s.worker g = .busy it .code → Step cfg s (.finish g it) (s.setWorker g (after cfg))
  /-- user code calls `Process` with an operation that sets result `k` (zasync_op/async_op.go:48-59) -/
  | process {s : State} (g k : Nat) (it : Item) : s.worker g = .busy it .code → cfg.conn k = it.owner cfg → (s.res k).op = .notStarted →
      Step cfg s (.process g k) (s.setRes k { s.res k with op := .queued })
  /-- user code calls `OnComplete` (zasync_op/async_op_result.go:51) -/
  | on {s : State} (g k : Nat) (it : Item) : s.worker g = .busy it .code → cfg.conn k = it.owner cfg → (s.res k).hasFn = false →
      Step cfg s (.on g k) ((s.setRes k { s.res k with hasFn := true }).setWorker g (.busy it (.won k)))
  /-- :52 -/
  | onStore {s : State} (g k : Nat) (it : Item) : s.worker g = .busy it (.won k) →
      Step cfg s (.goOn g) ((s.setRes k { s.res k with fn := true }).setWorker g (.busy it (.wrote k)))
  /-- :58; `completeFunc` is not nil in `doComplete` (:67), having just been stored -/
  | onLoad {s : State} (g k : Nat) (it : Item) : s.worker g = .busy it (.wrote k) →
      Step cfg s (.goOn g) (s.setWorker g (.busy it (if (s.res k).hasRet then .fire k else .code)))
  /-- :72: already called -/
  | onLose {s : State} (g k : Nat) (it : Item) : s.worker g = .busy it (.fire k) → (s.res k).called = true → Step cfg s (.goOn g) (s.setWorker g (.busy it .code))
  /-- :72, and the channel is looked up; an index out of range or a closed channel panics, which ends the handler -/
  | onWin {s : State} (g k : Nat) (it : Item) : s.worker g = .busy it (.fire k) → (s.res k).called = false →
      Step cfg s (.goOn g) ((s.setRes k { s.res k with called := true }).setWorker g
        (match s.target cfg (cfg.conn k) with
          | .outOfRange => after cfg
          | .never => .busy it (.send k none)
          | .chan h => .busy it (.send k (some h))))
  | onSend {s : State} (g k h : Nat) (it : Item) : s.worker g = .busy it (.send k (some h)) → s.closed h = false → s.room cfg h →
      Step cfg s (.push g k h) ((s.push h (.call k)).setWorker g (.busy it .code))
  | onPanic {s : State} (g k h : Nat) (it : Item) : s.worker g = .busy it (.send k (some h)) → s.closed h = true → Step cfg s (.goOn g) (s.setWorker g (after cfg))
  /-- zasync_op/async_worker.go:45-48 -/
  | opBegin {s : State} (k : Nat) : (s.res k).op = .queued → Step cfg s (.op k) (s.setRes k { s.res k with op := .running })
  /-- zasync_op/async_op_result.go:38 -/
  | opWin {s : State} (k : Nat) : (s.res k).op = .running → Step cfg s (.op k) (s.setRes k { s.res k with op := .won, hasRet := true })
  /-- :39 -/
  | opStore {s : State} (k : Nat) : (s.res k).op = .won → Step cfg s (.op k) (s.setRes k { s.res k with op := .stored })
  /-- :67 -/
  | opRead {s : State} (k : Nat) : (s.res k).op = .stored → Step cfg s (.op k) (s.setRes k { s.res k with op := if (s.res k).fn then .fire else .done })
  | opLose {s : State} (k : Nat) : (s.res k).op = .fire → (s.res k).called = true → Step cfg s (.op k) (s.setRes k { s.res k with op := .done })
  | opFire {s : State} (k : Nat) : (s.res k).op = .fire → (s.res k).called = false →
      Step cfg s (.op k) (s.setRes k { s.res k with called := true, op := match s.target cfg (cfg.conn k) with
        | .outOfRange => .done
        | .never => .send none
        | .chan h => .send (some h) })
  | opSend {s : State} (k h : Nat) : (s.res k).op = .send (some h) → s.closed h = false → s.room cfg h →
      Step cfg s (.opPush k h) ((s.push h (.call k)).setRes k { s.res k with op := .done })
  | opPanic {s : State} (k h : Nat) : (s.res k).op = .send (some h) → s.closed h = true → Step cfg s (.op k) (s.setRes k { s.res k with op := .done })

end Zinx.AsyncHome
