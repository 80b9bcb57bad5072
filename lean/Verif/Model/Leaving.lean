import Verif.Model.Fair

/-!
# The end of a connection: its reader, its `Start` goroutine and its worker (znet/connection.go, znet/ws_connection.go, znet/kcp_connection.go, znet/msghandler.go)

From the moment the reader has been started (:315) on. Line numbers are those of znet/connection.go unless marked ws, kcp or mh (znet/msghandler.go).

* The worker is one of the pool, or, with dynamic binding, one made for this connection (mh :184-192). In the second case `freeWorker` closes its queue (mh :242-249, 403-408); here nobody else has it: that two
  connections may get the same one is C29. In the first case other connections put messages on the queue as well.
* Messages are numbered in the order in which they were read. What a read yields is up to the decoder (C01 to C06): any number of messages. All messages go to the queue: interceptors that drop some are C13 to C15.
* Callbacks of asynchronous operations, which are put on the queue too, are `Model/AsyncHome.lean`. The writer is `Model/Send.lean`, the heartbeat `Model/Teardown.lean`; locks taken by the finalizer are
  `Model/ConnLife.lean`: here it takes any time, and ends or panics (in the stop hook).
* A queue of capacity 0 is treated as one of capacity 1 (as in `Worker.lean`).
-/

namespace Zinx.Leaving

/-- `own`: the worker has been made for this connection. `recovers`: `Start` and the reader recover from panics (:231-235, 293-297, kcp :218-222, 278-282), as they do for TCP and KCP and not for WebSocket.
`cap`: `MaxWorkerTaskLen`. -/
structure Cfg where
  own : Bool
  recovers : Bool
  cap : Nat

/-- The goroutine of `Start`: at :317-318; at `freeWorker` (:322); ended; ended by a panic in the finalizer. -/
inductive Main where
  | waiting
  | freeing
  | done
  | panicked
deriving DecidableEq

/-- The reader: at the top of the loop (:242); in `Read` (:249); with messages it is to hand over (:271-278), at the send to the queue if there are any (mh :303); ended. -/
inductive Reader where
  | top
  | reading
  | handing (ms : List Nat)
  | gone
deriving DecidableEq

/-- The worker (mh :412-444): waiting for a message; with one, `none` being one of another connection; ended. -/
inductive Worker where
  | idle
  | busy (m : Option Nat)
  | gone
deriving DecidableEq

/-- The context and the socket (znet/connection.go:26-119), the three goroutines, the queue (znet/msghandler.go:39). -/
structure State where
  /-- the context is cancelled -/
  cancelled : Bool := false
  sockOpen : Bool := true
  main : Main := .waiting
  reader : Reader := .top
  /-- number of messages read -/
  count : Nat := 0
  queue : List (Option Nat) := []
  /-- the queue has been closed -/
  closed : Bool := false
  worker : Worker := .idle
  /-- the process has ended by a panic nobody recovers from -/
  down : Bool := false
deriving DecidableEq

/-- The actions of znet/connection.go:227-325 and znet/msghandler.go:221-305, :412-444. -/
inductive Label where
  | stop                      -- somebody calls `Stop`, or the heartbeat does
  | enter                     -- the reader finds the context not done
  | leave                     -- the reader finds the context done
  | read (k : Nat)            -- `Read` returns, which yields `k` messages
  | fail                      -- `Read` returns an error, by the peer or the network
  | shut                      -- the same, the socket being closed
  | next                      -- all messages handed over
  | hand (m : Nat)            -- message `m` is on the queue
  | panic (ms : List Nat)     -- sending on the closed queue; `ms` are the messages not handed over
  | other                     -- another connection puts a message on the queue
  | finalize                  -- the finalizer has ended
  | hookPanic                 -- the finalizer panics
  | free                      -- `freeWorker`
  | take (m : Option Nat)     -- the worker takes a message
  | finish (m : Option Nat)   -- the handler has returned
  | quit                      -- the worker finds its queue closed and empty
deriving DecidableEq

/-- One action. -/
inductive Step (cfg : Cfg) : State → Label → State → Prop where
  /-- :329-331 -/
  | stop (s : State) : s.down = false → Step cfg s .stop { s with cancelled := true }
  /-- :242-245; on the way out `Stop` is called (:230) -/
  | enter (s : State) : s.down = false → s.reader = .top → s.cancelled = false → Step cfg s .enter { s with reader := .reading }
  | leave (s : State) : s.down = false → s.reader = .top → s.cancelled = true → Step cfg s .leave { s with reader := .gone, cancelled := true }
  /-- :249-271 -/
  | read (s : State) (k : Nat) : s.down = false → s.reader = .reading → s.sockOpen = true →
      Step cfg s (.read k) { s with reader := .handing (List.range' s.count k), count := s.count + k }
  /-- :250-253, ws :225-228 -/
  | fail (s : State) : s.down = false → s.reader = .reading → Step cfg s .fail { s with reader := .gone, cancelled := true }
  | shut (s : State) : s.down = false → s.reader = .reading → s.sockOpen = false → Step cfg s .shut { s with reader := .gone, cancelled := true }
  /-- :271, :278 -/
  | next (s : State) : s.down = false → s.reader = .handing [] → Step cfg s .next { s with reader := .top }
  /-- mh :255-280, 299-305 -/
  | hand (s : State) (m : Nat) (ms : List Nat) : s.down = false → s.reader = .handing (m :: ms) → s.closed = false → s.queue.length < max cfg.cap 1 →
      Step cfg s (.hand m) { s with reader := .handing ms, queue := s.queue ++ [some m] }
  /-- the same, the queue being closed, also if it is closed while the reader waits -/
  | panic (s : State) (m : Nat) (ms : List Nat) : s.down = false → s.reader = .handing (m :: ms) → s.closed = true →
      Step cfg s (.panic (m :: ms)) { s with reader := .gone, cancelled := true, down := !cfg.recovers }
  | other (s : State) : s.down = false → cfg.own = false → s.queue.length < max cfg.cap 1 → Step cfg s .other { s with queue := s.queue ++ [none] }
  /-- :317-319, 498-527 -/
  | finalize (s : State) : s.down = false → s.main = .waiting → s.cancelled = true → Step cfg s .finalize { s with main := .freeing, sockOpen := false }
  /-- :501, 293-297 -/
  | hookPanic (s : State) : s.down = false → s.main = .waiting → s.cancelled = true → Step cfg s .hookPanic { s with main := .panicked, down := !cfg.recovers }
  /-- :322, mh :221-251 -/
  | free (s : State) : s.down = false → s.main = .freeing → Step cfg s .free { s with main := .done, closed := cfg.own }
  /-- mh :420-441; a closed queue yields what is left on it first -/
  | take (s : State) (m : Option Nat) (q : List (Option Nat)) : s.down = false → s.worker = .idle → s.queue = m :: q → Step cfg s (.take m) { s with queue := q, worker := .busy m }
  /-- mh :308-344, 383-401: handlers may panic -/
  | finish (s : State) (m : Option Nat) : s.down = false → s.worker = .busy m → Step cfg s (.finish m) { s with worker := .idle }
  /-- mh :421-426 -/
  | quit (s : State) : s.down = false → s.worker = .idle → s.queue = [] → s.closed = true → Step cfg s .quit { s with worker := .gone }

/-- The state after `go c.StartReader()`; of other connections there may be messages on the queue. znet/connection.go:315. -/
structure Init (cfg : Cfg) (s : State) : Prop where
  cancelled : s.cancelled = false
  sockOpen : s.sockOpen = true
  main : s.main = .waiting
  reader : s.reader = .top
  count : s.count = 0
  others : ∀ m ∈ s.queue, m = none
  fresh : cfg.own = true → s.queue = []
  room : s.queue.length ≤ max cfg.cap 1
  closed : s.closed = false
  worker : s.worker = .idle ∨ cfg.own = false ∧ s.worker = .busy none
  down : s.down = false

end Zinx.Leaving
