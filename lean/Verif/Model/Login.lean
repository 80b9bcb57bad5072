import Verif.Model.AsyncHome

/-!
# Replies from completion callbacks: the login example (examples/zinx_async_op)

The handler of a login starts an operation for the connection of its request, registers a callback and returns; the callback looks at the result and sends the reply on the connection of *the handler's request*,
which it has kept (a closure over `request`). The workers, queues and results are those of `Model/AsyncHome.lean`; added here are the request objects (znet/request.go), the stored results, and the queue of the one
asynchronous worker that all operations of the example share (`opId := 1`).

* The messages of a connection are numbered 0, 1, … as they arrive. `key c id` is the number of the result made by the handler of message `id` of connection `c`.
* A reader's steps from taking a request object to putting it on a queue are one step; that nobody else has the object meanwhile is C109 (no interceptor proceeds twice).
* `sync.Pool` may give any object that was put, or a new one.
* There is a worker pool: without one no callback is ever run (C107). The queue of the asynchronous worker has room (C58, C110).
* What the reply holds is not modelled, only on which connection it is sent; what `SendMsg` then does is C37 to C40.
-/

namespace Zinx.Login

open Zinx.AsyncHome (Item HPc SPc upd)

/-- The sizes of `AsyncHome.Cfg`, and `RequestPoolMode` (znet/request.go:65, :77). `conn (key c id)` is `c`, and `key` is injective (`Keyed` in Lemmas/Login.lean). -/
structure Cfg where
  home : AsyncHome.Cfg
  poolMode : Bool
  key : Nat → Nat → Nat

/-- Where the user's code in a worker is. In the handler: at its beginning; `AsyncUserSaveData` has been called (examples/zinx_async_op/router/login.go:22); `OnComplete` has been called (:29). In the callback: at its
beginning; it has looked at the result and sent a reply, or not (:31-56). -/
inductive Stage where
  | start
  | asked
  | registered
  | answered
deriving DecidableEq

/-- The workers, queues and results; the request objects (znet/request.go:20-35); `returnedObj` of the results (zasync_op/async_op_result.go:20); the asynchronous worker (zasync_op/async_worker.go:11-13). -/
structure State where
  home : AsyncHome.State
  /-- objects made so far -/
  fresh : Nat := 0
  /-- `RequestPool` -/
  pool : List Nat := []
  /-- field `conn` of a request object -/
  conn : Nat → Nat := fun _ => 0
  /-- number of messages that have arrived on a connection -/
  next : Nat → Nat := fun _ => 0
  /-- the request object of a message -/
  obj : Nat → Nat → Nat := fun _ _ => 0
  /-- `returnedObj` of a result is not nil -/
  stored : Nat → Bool := fun _ => false
  /-- the operations submitted and not ended, in order; only the first can be running -/
  ops : List Nat := []
  /-- by channel -/
  stage : Nat → Stage := fun _ => .start

/-- After `StartWorkerPool` (znet/msghandler.go:447-460). -/
def init (cfg : Cfg) : State := { home := AsyncHome.init cfg.home }

/-- The steps of readers, workers and operations; each is explained at `Step`. -/
inductive Label where
  /-- a step of `AsyncHome` that is none of those below -/
  | quiet (l : AsyncHome.Label)
  /-- message `id` of connection `c` is put on the queue of the connection's worker, in request object `o` -/
  | arrive (c id o : Nat)
  | take (g : Nat) (it : Item)
  /-- the handler of message `id` of connection `c` starts the operation -/
  | ask (g c id : Nat)
  /-- … and registers the callback -/
  | register (g c id : Nat)
  | finish (g : Nat) (it : Item)
  /-- a step of the operation for message `id` of connection `c` -/
  | op (c id : Nat)
  /-- the operation puts the callback on channel `h` -/
  | opPush (c id h : Nat)
  /-- the callback for message `id` of connection `c` sends the reply on connection `d` -/
  | reply (g c id d : Nat)
  /-- it finds no result and sends nothing -/
  | silent (g c id : Nat)
deriving DecidableEq

/-- Steps of `AsyncHome` that nothing is added to: a connection is given a number or gives it back, steps of `OnComplete`, a worker ends (znet/msghandler.go:162-249, :421-426, zasync_op/async_op_result.go:50-79). -/
def isQuiet : AsyncHome.Label → Bool
  | .connect .. | .connectExtra .. | .release .. | .quit .. | .goOn .. | .push .. => true
  | _ => false

inductive Step (cfg : Cfg) : State → Label → State → Prop where
  | quiet {s : State} {l : AsyncHome.Label} {h : AsyncHome.State} : isQuiet l = true → AsyncHome.Step cfg.home s.home l h → Step cfg s (.quiet l) { s with home := h }
  /-- with an object of the pool (znet/request.go:65-70, znet/msghandler.go:299-305) -/
  | arriveOld {s : State} {h : AsyncHome.State} (c o : Nat) (l1 l2 : List Nat) : cfg.poolMode = true → s.pool = l1 ++ o :: l2 → AsyncHome.Step cfg.home s.home (.arrive c (s.next c)) h →
      Step cfg s (.arrive c (s.next c) o) { s with home := h, pool := l1 ++ l2, conn := upd s.conn o c, next := upd s.next c (s.next c + 1), obj := upd s.obj c (upd (s.obj c) (s.next c) o) }
  /-- with a new one (znet/request.go:51-60, 67, 72, 82-88) -/
  | arriveNew {s : State} {h : AsyncHome.State} (c : Nat) : AsyncHome.Step cfg.home s.home (.arrive c (s.next c)) h →
      Step cfg s (.arrive c (s.next c) s.fresh)
        { s with home := h, fresh := s.fresh + 1, conn := upd s.conn s.fresh c, next := upd s.next c (s.next c + 1), obj := upd s.obj c (upd (s.obj c) (s.next c) s.fresh) }
  /-- znet/msghandler.go:420 -/
  | take {s : State} {h : AsyncHome.State} (g : Nat) (it : Item) : AsyncHome.Step cfg.home s.home (.take g it) h → Step cfg s (.take g it) { s with home := h, stage := upd s.stage g .start }
  /-- examples/zinx_async_op/router/login.go:22, examples/zinx_async_op/async_op_apis/user_async_api.go:9-31; the connection of the result is that of the request, which is `c` (`C149_asks`) -/
  | ask {s : State} {h : AsyncHome.State} (g c id : Nat) : s.home.worker g = .busy (.msg c id) .code → s.stage g = .start → AsyncHome.Step cfg.home s.home (.process g (cfg.key c id)) h →
      Step cfg s (.ask g c id) { s with home := h, ops := s.ops ++ [cfg.key c id], stage := upd s.stage g .asked }
  /-- examples/zinx_async_op/router/login.go:29 -/
  | register {s : State} {h : AsyncHome.State} (g c id : Nat) : s.home.worker g = .busy (.msg c id) .code → s.stage g = .asked → AsyncHome.Step cfg.home s.home (.on g (cfg.key c id)) h →
      Step cfg s (.register g c id) { s with home := h, stage := upd s.stage g .registered }
  /-- the handler returns (examples/zinx_async_op/router/login.go:74); `PutRequest` (znet/msghandler.go:343, znet/request.go:75-80) -/
  | finishMsg {s : State} {h : AsyncHome.State} (g c id : Nat) : s.stage g = .registered → AsyncHome.Step cfg.home s.home (.finish g (.msg c id)) h →
      Step cfg s (.finish g (.msg c id)) { s with home := h, pool := if cfg.poolMode then s.obj c id :: s.pool else s.pool }
  /-- the callback returns (examples/zinx_async_op/router/login.go:66; znet/msghandler.go:429-432) -/
  | finishCall {s : State} {h : AsyncHome.State} (g k : Nat) : s.stage g = .answered → AsyncHome.Step cfg.home s.home (.finish g (.call k)) h → Step cfg s (.finish g (.call k)) { s with home := h }
  /-- examples/zinx_async_op/router/login.go:31, :37-53: `request.GetConnection()` is evaluated now -/
  | reply {s : State} (g c id : Nat) : s.home.worker g = .busy (.call (cfg.key c id)) .code → s.stage g = .start → s.stored (cfg.key c id) = true →
      Step cfg s (.reply g c id (s.conn (s.obj c id))) { s with stage := upd s.stage g .answered }
  /-- examples/zinx_async_op/router/login.go:32-35 -/
  | silent {s : State} (g c id : Nat) : s.home.worker g = .busy (.call (cfg.key c id)) .code → s.stage g = .start → s.stored (cfg.key c id) = false →
      Step cfg s (.silent g c id) { s with stage := upd s.stage g .answered }
  /-- the operation that is first (zasync_op/async_worker.go:43-49, zasync_op/async_op_result.go:37-47, 66-79); `returnedObj` is stored at async_op_result.go:39 -/
  | op {s : State} {h : AsyncHome.State} (c id : Nat) (rest : List Nat) : s.ops = cfg.key c id :: rest → AsyncHome.Step cfg.home s.home (.op (cfg.key c id)) h →
      Step cfg s (.op c id) { s with
        home := h
        stored := if (s.home.res (cfg.key c id)).op = .won then upd s.stored (cfg.key c id) true else s.stored
        ops := if (h.res (cfg.key c id)).op = .done then rest else s.ops }
  | opPush {s : State} {h : AsyncHome.State} (c id g : Nat) (rest : List Nat) : s.ops = cfg.key c id :: rest → AsyncHome.Step cfg.home s.home (.opPush (cfg.key c id) g) h →
      Step cfg s (.opPush c id g) { s with home := h, ops := rest }

end Zinx.Login
