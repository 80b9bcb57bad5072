import Verif.Model.Fair

/-!
# The worker pool of a server that is started again (znet/msghandler.go, znet/server.go)

Each `Start` calls `StartWorkerPool`, which puts new task queues in the places of the old ones and starts new workers. Nothing ends the old workers. Readers that are at work meanwhile, of connections that stay open
(C66_late_refuted) or that have been stopped while the messages of one read are being delivered (znet/connection.go:271-278 does not look at the context between them), go on.

* Only the places of the pool (`n` of them, `WorkerPoolSize`); the overflow workers of dynamic binding have places of their own, which `StartWorkerPool` does not touch. Without pool (`n = 0`) no reader is treated.
* A connection keeps its worker number `wid c`. Messages of a connection are numbered in the order in which they were read.
* A queue is known by its place and the number of the start that made it; number 0 is the nil channel that is there before.
* One goroutine calls `Start`. Handlers return or panic, which the worker survives (C26); how is left out.
* With capacity 0 handing over is two actions here, as with capacity 1.
-/

namespace Zinx.PoolCycle

/-- A worker goroutine (`StartOneWorker`, znet/msghandler.go:412-444): not started, waiting, handling message `k` of connection `c`. It has no end here: its queue is never closed (`close` in znet/msghandler.go:407 is for overflow workers only). -/
inductive W where
  | absent
  | idle
  | busy (c k : Nat)
deriving DecidableEq

/-- Change of a table at one point. Auxiliary; no code of zinx. -/
def upd {α : Type} (f : Nat → α) (i : Nat) (a : α) : Nat → α := fun j => if j = i then a else f j

/-- Change of a table of two indices at one point. Auxiliary; no code of zinx. -/
def upd2 {α : Type} (f : Nat → Nat → α) (i j : Nat) (a : α) : Nat → Nat → α := fun i' j' => if i' = i ∧ j' = j then a else f i' j'

/-- `cur w`: which queue is in place `w` of `TaskQueue` (znet/msghandler.go:39); `loop`: the variable of the loop of `StartWorkerPool` (line 450) while it runs; `starts`: how many calls of it have returned.
`read c`: messages the reader of `c` has made of what it read; `next c`: how many of them it has handed over; `hand c`: the queue of line 303 once the reader has looked it up. -/
structure State where
  cur : Nat → Nat := fun _ => 0
  loop : Option Nat := none
  starts : Nat := 0
  read : Nat → Nat := fun _ => 0
  next : Nat → Nat := fun _ => 0
  hand : Nat → Option Nat := fun _ => none
  queue : Nat → Nat → List (Nat × Nat) := fun _ _ => []
  worker : Nat → Nat → W := fun _ _ => .absent

/-- What can happen. The actions of znet/msghandler.go:299-305, :412-460, znet/connection.go:227-288, znet/server.go:423-449. -/
inductive Label where
  | call
  | make (i : Nat)
  | ret
  | read (c m : Nat)
  | pick (c : Nat)
  | put (c k g : Nat)
  | begin (w g c k : Nat)
  | finish (w g c k : Nat)
deriving DecidableEq

/-- The actions: pool of `n` workers, queues of capacity `cap`, worker numbers `wid`. -/
inductive Step (n cap : Nat) (wid : Nat → Nat) : State → Label → State → Prop where
  /-- `Start` calls `StartWorkerPool` (znet/server.go:433). -/
  | call {s : State} (h : s.loop = none) : Step n cap wid s .call { s with loop := some 0 }
  /-- One round of the loop (znet/msghandler.go:454-458): a new queue in place `i`, and a worker for it. -/
  | make {s : State} (i : Nat) (h : s.loop = some i) (hi : i < n) :
      Step n cap wid s (.make i) { s with loop := some (i + 1), cur := upd s.cur i (s.cur i + 1), worker := upd2 s.worker i (s.cur i + 1) .idle }
  /-- The loop ends; the listeners are started after that (znet/server.go:437-447). -/
  | ret {s : State} (h : s.loop = some n) : Step n cap wid s .ret { s with loop := none, starts := s.starts + 1 }
  /-- A read of connection `c` has given `m + 1` messages; all those of the read before have been handed over (znet/connection.go:241-287). There are connections only after the first start. -/
  | read {s : State} (c m : Nat) (h0 : 0 < s.starts) (h : s.next c = s.read c) : Step n cap wid s (.read c m) { s with read := upd s.read c (s.read c + m + 1) }
  /-- `mh.TaskQueue[workerID]` is looked up (znet/msghandler.go:300-303). -/
  | pick {s : State} (c : Nat) (h : s.next c < s.read c) (hh : s.hand c = none) : Step n cap wid s (.pick c) { s with hand := upd s.hand c (some (s.cur (wid c))) }
  /-- The send of line 303 succeeds; never, if the channel is nil. -/
  | put {s : State} (c g : Nat) (h : s.hand c = some g) (hg : 0 < g) (hr : (s.queue (wid c) g).length < max cap 1) :
      Step n cap wid s (.put c (s.next c) g) { s with hand := upd s.hand c none, next := upd s.next c (s.next c + 1), queue := upd2 s.queue (wid c) g (s.queue (wid c) g ++ [(c, s.next c)]) }
  /-- A worker takes a message (znet/msghandler.go:420). -/
  | begin {s : State} (w g c k : Nat) (rest : List (Nat × Nat)) (h : s.worker w g = .idle) (hq : s.queue w g = (c, k) :: rest) :
      Step n cap wid s (.begin w g c k) { s with worker := upd2 s.worker w g (.busy c k), queue := upd2 s.queue w g rest }
  /-- It is through with it (znet/msghandler.go:427-440). -/
  | finish {s : State} (w g c k : Nat) (h : s.worker w g = .busy c k) : Step n cap wid s (.finish w g c k) { s with worker := upd2 s.worker w g .idle }

end Zinx.PoolCycle
