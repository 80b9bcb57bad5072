import Verif.Model.Fair

/-!
# Workers with bounded queues that hand work to each other (zasync_op, znet/msghandler.go)

Message workers take requests from their task queues and run handlers and completion callbacks (znet/msghandler.go:412-442); asynchronous workers take operations from theirs and run them
(zasync_op/async_worker.go:38-50). Handlers start operations (`Process`, zasync_op/async_op.go:48-59), operations and handlers submit completion callbacks (`SetReturnedObj`, `OnComplete`,
zasync_op/async_op_result.go:37-79). All this is a send on a channel, and waits while the channel is full (zasync_op/async_worker.go:26, znet/msghandler.go:303).

* A worker of either kind is called a station. Only the lengths of the queues matter. What handlers, operations and callbacks do is arbitrary: any number of sends to any stations, then they return (or panic,
  which the station survives: C26, zasync_op/async_worker.go:27-31).
* Work also comes from outside: messages that readers have read, operations started by other goroutines (`arrive`; a goroutine that waits for room has not sent yet).
* Stations are not created or closed (no dynamic binding; starting an asynchronous worker at its first use is left out).
* Channels have room for at least one element; a channel without buffer is not described.
-/

namespace Zinx.Stations

structure Cfg where
  /-- number of stations -/
  n : Nat
  /-- capacities: `MaxWorkerTaskLen` (znet/msghandler.go:454), 2048 (zasync_op/async_op.go:78) -/
  cap : Nat → Nat

/-- znet/msghandler.go:412-444, zasync_op/async_worker.go:38-50. -/
inductive Worker where
  | idle
  | code
  | send (y : Nat)
deriving DecidableEq

/-- znet/msghandler.go:39, zasync_op/async_worker.go:11-13. -/
structure State where
  len : Nat → Nat := fun _ => 0
  worker : Nat → Worker := fun _ => .idle

/-- znet/msghandler.go:303, :420, zasync_op/async_worker.go:26-50. -/
inductive Label where
  | arrive (x : Nat)
  | take (x : Nat)
  | call (x y : Nat)
  | push (x y : Nat)
  | finish (x : Nat)
deriving DecidableEq

/-- Auxiliary; no code of zinx. -/
def upd {α : Type} (f : Nat → α) (i : Nat) (a : α) : Nat → α := fun j => if j = i then a else f j

inductive Step (cfg : Cfg) : State → Label → State → Prop where
  /-- znet/msghandler.go:303, zasync_op/async_worker.go:26 -/
  | arrive {s : State} (x : Nat) : x < cfg.n → s.len x < cfg.cap x → Step cfg s (.arrive x) { s with len := upd s.len x (s.len x + 1) }
  /-- znet/msghandler.go:420, zasync_op/async_worker.go:45 -/
  | take {s : State} (x : Nat) : s.worker x = .idle → 0 < s.len x → Step cfg s (.take x) { s with len := upd s.len x (s.len x - 1), worker := upd s.worker x .code }
  /-- zasync_op/async_op.go:48, zasync_op/async_op_result.go:77 -/
  | call {s : State} (x y : Nat) : s.worker x = .code → y < cfg.n → Step cfg s (.call x y) { s with worker := upd s.worker x (.send y) }
  | push {s : State} (x y : Nat) : s.worker x = .send y → s.len y < cfg.cap y → Step cfg s (.push x y) { s with len := upd s.len y (s.len y + 1), worker := upd s.worker x .code }
  /-- znet/msghandler.go:343, 400, zasync_op/async_worker.go:34 -/
  | finish {s : State} (x : Nat) : s.worker x = .code → Step cfg s (.finish x) { s with worker := upd s.worker x .idle }

end Zinx.Stations
