import Verif.Model.Async
import Verif.Model.Fair

/-!
# Starting the asynchronous workers (zasync_op/async_op.go)

Any number of goroutines call `Process`, each once (a goroutine that calls it several times is several of them). The first call for an index makes the queue and starts the worker, inside `sync.Once`.

* `sync.Once` as in the Go library: a flag that is read without the lock, a lock, the flag read again, the function, the flag set, the lock released.
* Queues are numbered in the order in which they are made. The operation is not nil (zasync_op/async_op.go:49, async_worker.go:16 do nothing then); a queue that has been made is not nil.
* Operations return or panic (zasync_op/async_worker.go:27-34).
-/

namespace Zinx.AsyncStart
open Zinx.Async (Op workerIndex)

/-- Where a call of `Process` is: not begun; before the lock of `Once`; holding it, before the queue is made (zasync_op/async_op.go:77); before the worker is started (:82); before the flag is set; before the lock is released;
before the array is read (:86); with what it read, before the send (zasync_op/async_worker.go:26); returned after the send; returned without (zasync_op/async_op.go:55). -/
inductive Pc where
  | start
  | wait
  | held
  | made
  | started
  | unlock
  | got
  | have_ (q : Nat)
  | sent
  | dropped
deriving DecidableEq

/-- zasync_op/async_op.go:44-46, async_worker.go:11-13, and the goroutines. -/
structure State where
  pc : Nat → Pc := fun _ => .start
  done : Int → Bool := fun _ => false
  lock : Int → Option Nat := fun _ => none
  /-- `asyncWorkerArray` -/
  arr : Int → Option Nat := fun _ => none
  /-- number of queues made -/
  next : Nat := 0
  /-- the worker of a queue runs -/
  running : Nat → Bool := fun _ => false
  queue : Nat → List Op := fun _ => []
  busy : Nat → Option Op := fun _ => none

/-- The steps of zasync_op/async_op.go:48-87 and async_worker.go:15-50; each is explained at `Step`. -/
inductive Label where
  | enter (i : Nat)
  | call (i : Nat)
  | submit (i q : Nat)
  | begin (q : Nat) (o : Op)
  | finish (q : Nat) (o : Op) (panicked : Bool)
deriving DecidableEq

/-- Change of a table at one point. Auxiliary, for the arrays of zasync_op/async_op.go:45-46. -/
def upd {α β : Type} [DecidableEq α] (f : α → β) (i : α) (a : β) : α → β := fun j => if j = i then a else f j

/-- `ops i` is what call `i` submits; its index is `workerIndex (ops i).id` (zasync_op/async_op.go:64-70). -/
inductive Step (ops : Nat → Op) : State → Label → State → Prop where
  /-- `Process` is called (zasync_op/async_op.go:48-53). `Do`: the flag is read without the lock (library) -/
  | fast {s : State} (i : Nat) : s.pc i = .start → s.done (workerIndex (ops i).id) = true → Step ops s (.enter i) { s with pc := upd s.pc i .got }
  | slow {s : State} (i : Nat) : s.pc i = .start → s.done (workerIndex (ops i).id) = false → Step ops s (.enter i) { s with pc := upd s.pc i .wait }
  /-- the lock, and the flag again -/
  | lock {s : State} (i : Nat) : s.pc i = .wait → s.lock (workerIndex (ops i).id) = none →
      Step ops s (.call i) { s with lock := upd s.lock (workerIndex (ops i).id) (some i), pc := upd s.pc i (if s.done (workerIndex (ops i).id) then .unlock else .held) }
  /-- zasync_op/async_op.go:77-79 -/
  | make {s : State} (i : Nat) : s.pc i = .held → Step ops s (.call i) { s with arr := upd s.arr (workerIndex (ops i).id) (some s.next), next := s.next + 1, pc := upd s.pc i .made }
  /-- zasync_op/async_op.go:82: the receiver is evaluated here -/
  | go {s : State} (i q : Nat) : s.pc i = .made → s.arr (workerIndex (ops i).id) = some q → Step ops s (.call i) { s with running := upd s.running q true, pc := upd s.pc i .started }
  | setDone {s : State} (i : Nat) : s.pc i = .started → Step ops s (.call i) { s with done := upd s.done (workerIndex (ops i).id) true, pc := upd s.pc i .unlock }
  | unlock {s : State} (i : Nat) : s.pc i = .unlock → Step ops s (.call i) { s with lock := upd s.lock (workerIndex (ops i).id) none, pc := upd s.pc i .got }
  /-- zasync_op/async_op.go:86, 55 -/
  | read {s : State} (i : Nat) : s.pc i = .got → Step ops s (.call i) { s with pc := upd s.pc i (match s.arr (workerIndex (ops i).id) with | some q => .have_ q | none => .dropped) }
  /-- zasync_op/async_worker.go:26: the channel has room for 2048 (zasync_op/async_op.go:78) -/
  | submit {s : State} (i q : Nat) : s.pc i = .have_ q → (s.queue q).length < 2048 → Step ops s (.submit i q) { s with queue := upd s.queue q (s.queue q ++ [ops i]), pc := upd s.pc i .sent }
  /-- zasync_op/async_worker.go:45-48 -/
  | begin {s : State} (q : Nat) (o : Op) (rest : List Op) : s.running q = true → s.busy q = none → s.queue q = o :: rest →
      Step ops s (.begin q o) { s with queue := upd s.queue q rest, busy := upd s.busy q (some o) }
  /-- zasync_op/async_worker.go:27-34 -/
  | finish {s : State} (q : Nat) (o : Op) (panicked : Bool) : s.busy q = some o → Step ops s (.finish q o panicked) { s with busy := upd s.busy q none }

end Zinx.AsyncStart
