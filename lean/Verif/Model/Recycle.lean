import Verif.Model.Sys

/-!
# Request objects between readers and workers (znet/request.go, znet/msghandler.go)

With `RequestPoolMode`, a reader takes a request object from a pool and fills it, interceptors see it, the last of them puts it on a task queue, a worker handles the message and puts the object back, from where any
reader takes it for its next message. The reader's goroutine still has it while the interceptors return.

* Messages, connections, objects and workers are numbers; the field of interest of an object is its message (`msg`). What other fields are left with is C24.
* `sync.Pool` may give any object that was put, or a new one, and may forget objects.
* Interceptors of the user may read the request at any time, may not proceed, and (`twice`) may proceed more than once. They pass on the request they were given.
* Task queues are unbounded: a reader that waits for room has not sent yet. `home c w`: goroutine `w` may be given messages of connection `c`. With a worker pool this is the worker of the connection (cf. C28 to
  C30); without one (clients, and servers with `WorkerPoolSize` 0) every message has a goroutine of its own (znet/msghandler.go:269-273), which is any number here, its queue the start of the goroutine.
* Handlers do not keep requests (`Copy` is for this: C25, C79).
-/

namespace Zinx.Recycle

/-- `poolMode`: `RequestPoolMode` (znet/request.go:65, :77). -/
structure Cfg where
  poolMode : Bool
  twice : Bool
  home : Nat → Nat → Prop

/-- The reader of a connection. -/
inductive Reader where
  | idle
  | has (m : Nat)             -- has read message `m`
  | got (o m : Nat)           -- has got an object for it (znet/request.go:67)
  | filled (o m : Nat)        -- `Reset` (:69) or `NewRequest` done; in the interceptors
  | handed (o m : Nat)        -- has sent it (znet/msghandler.go:303)
deriving DecidableEq

/-- The pool of znet/request.go:20-26 and the goroutines; `content` is field `msg` of an object (znet/request.go:32). -/
structure State where
  fresh : Nat := 0
  pool : List Nat := []
  content : Nat → Nat := fun _ => 0
  reader : Nat → Reader := fun _ => .idle
  queue : Nat → List Nat := fun _ => []
  worker : Nat → Option Nat := fun _ => none

/-- Auxiliary; no code of zinx. -/
def upd {α : Type} (f : Nat → α) (i : Nat) (a : α) : Nat → α := fun j => if j = i then a else f j

inductive Label where
  | receive (c m : Nat)
  | get (c o : Nat)
  | fill (c : Nat)
  | send (c m w : Nat)      -- message `m` of connection `c` is sent to worker `w`
  | see (c m : Nat)         -- an interceptor of connection `c` finds message `m` in the request before it proceeds
  | late (c m : Nat)        -- the same after the request has been sent; the log line of `SendMsgToTaskQueue` is one of these (znet/msghandler.go:304)
  | back (c : Nat)
  | take (w : Nat)
  | look (w m : Nat)        -- the handler in worker `w` finds message `m` in its request
  | finish (w : Nat)
  | drop (w : Nat)
deriving DecidableEq

inductive Step (cfg : Cfg) : State → Label → State → Prop where
  /-- znet/connection.go:273, 280 -/
  | receive {s : State} (c m : Nat) : s.reader c = .idle → Step cfg s (.receive c m) { s with reader := upd s.reader c (.has m) }
  /-- znet/request.go:65-67 -/
  | getOld {s : State} (c o m : Nat) (l1 l2 : List Nat) : cfg.poolMode = true → s.reader c = .has m → s.pool = l1 ++ o :: l2 →
      Step cfg s (.get c o) { s with reader := upd s.reader c (.got o m), pool := l1 ++ l2 }
  /-- znet/request.go:51-60, 72, 82-88 -/
  | getNew {s : State} (c m : Nat) : s.reader c = .has m → Step cfg s (.get c s.fresh) { s with reader := upd s.reader c (.got s.fresh m), fresh := s.fresh + 1 }
  /-- znet/request.go:90-98 -/
  | fill {s : State} (c o m : Nat) : s.reader c = .got o m → Step cfg s (.fill c) { s with reader := upd s.reader c (.filled o m), content := upd s.content o m }
  | see {s : State} (c o m : Nat) : s.reader c = .filled o m → Step cfg s (.see c (s.content o)) s
  /-- an interceptor does not proceed -/
  | stop {s : State} (c o m : Nat) : s.reader c = .filled o m → Step cfg s (.back c) { s with reader := upd s.reader c .idle }
  /-- znet/msghandler.go:255-280, 299-303 -/
  | send {s : State} (c o m w : Nat) : cfg.home c w → s.reader c = .filled o m →
      Step cfg s (.send c m w) { s with reader := upd s.reader c (.handed o m), queue := upd s.queue w (s.queue w ++ [o]) }
  /-- an interceptor proceeds again -/
  | again {s : State} (c o m w : Nat) : cfg.twice = true → cfg.home c w → s.reader c = .handed o m →
      Step cfg s (.send c m w) { s with queue := upd s.queue w (s.queue w ++ [o]) }
  | late {s : State} (c o m : Nat) : s.reader c = .handed o m → Step cfg s (.late c (s.content o)) s
  /-- `Execute` returns -/
  | back {s : State} (c o m : Nat) : s.reader c = .handed o m → Step cfg s (.back c) { s with reader := upd s.reader c .idle }
  /-- znet/msghandler.go:420 -/
  | take {s : State} (w o : Nat) (rest : List Nat) : s.worker w = none → s.queue w = o :: rest →
      Step cfg s (.take w) { s with queue := upd s.queue w rest, worker := upd s.worker w (some o) }
  | look {s : State} (w o : Nat) : s.worker w = some o → Step cfg s (.look w (s.content o)) s
  /-- znet/msghandler.go:343, 400, znet/request.go:75-80 -/
  | finish {s : State} (w o : Nat) : s.worker w = some o → Step cfg s (.finish w) { s with worker := upd s.worker w none, pool := if cfg.poolMode then o :: s.pool else s.pool }
  /-- a panic, or no handler (znet/msghandler.go:321-333) -/
  | drop {s : State} (w o : Nat) : s.worker w = some o → Step cfg s (.drop w) { s with worker := upd s.worker w none }

end Zinx.Recycle
