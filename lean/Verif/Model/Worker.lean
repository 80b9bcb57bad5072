import Verif.Model.Sys

/-!
# Model of the workers of `znet/msghandler.go`: loop of a worker, task queues, assignment of workers to connections
-/

namespace Zinx.Worker

open Zinx

/-! ## Handling one request -/

/-- How the code of the user (router, handlers, function of a functional request) ends. Code that never ends keeps its worker busy. What is called in znet/msghandler.go:308-344, :383-401. -/
inductive Outcome where
  | notFound   -- no handler registered / no function given: user code is not entered
  | returned
  | panicked
deriving DecidableEq, Repr

/-- How a call ends. What the calls in znet/msghandler.go:427-440 do. -/
inductive Res where
  | ok
  | panic
deriving DecidableEq, Repr

/-- `defer func() { if err := recover(); ... }()`: the panic ends here. As in znet/msghandler.go:309-313, :321-325, :384-388. -/
def recovered : Res → Res
  | .ok => .ok
  | .panic => .ok

/-- User code entered without protection. The calls in znet/msghandler.go:315, :340, :398. -/
def user : Outcome → Res
  | .notFound => .ok
  | .returned => .ok
  | .panicked => .panic

/-- `doFuncHandler` (znet/msghandler.go:308-316) with `CallFunc` (znet/request_func.go:15-19). -/
def doFuncHandler (o : Outcome) : Res := recovered (user o)

/-- `doMsgHandler` (znet/msghandler.go:320-344). -/
def doMsgHandler (o : Outcome) : Res := recovered (user o)

/-- `doMsgHandlerSlices` (znet/msghandler.go:383-401). -/
def doMsgHandlerSlices (o : Outcome) : Res := recovered (user o)

/-- Dynamic type of a request taken from the queue (znet/msghandler.go:427-440). -/
inductive Kind where
  | func
  | message
  | other     -- nil interface: no case matches
deriving DecidableEq, Repr

/-- Body of the loop of `StartOneWorker` for one request (znet/msghandler.go:427-440). -/
def handle (slicesMode : Bool) (k : Kind) (o : Outcome) : Res :=
  match k with
  | .func => doFuncHandler o
  | .message => if slicesMode then doMsgHandlerSlices o else doMsgHandler o
  | .other => .ok

/-! ## Readers, queues and workers -/

/-- A request. `conn`: the connection whose reader delivers it; `none`: put on the queue by other code. `id` tells requests apart. znet/request.go:29-41, znet/request_func.go:5-9. -/
structure Req where
  conn : Option Nat
  id : Nat
  kind : Kind
deriving DecidableEq, Repr

/-- State of a worker goroutine. znet/msghandler.go:412-444. -/
inductive Status where
  | idle
  | busy (r : Req)
  | dead          -- ended by an unrecovered panic (which ends the process)
deriving DecidableEq, Repr

/-- Actions, observable from outside: the reader of a connection has made requests of what it read, a request is put on the queue of a worker, a worker begins with it, the worker is through with it. znet/connection.go:264-285, znet/msghandler.go:299-305, :420-440. -/
inductive Act where
  | arrive (c : Nat) (rs : List Req)
  | submit (w : Nat) (r : Req)
  | start (w : Nat) (r : Req)
  | finish (w : Nat) (r : Req) (o : Outcome)
deriving DecidableEq, Repr

/-- Task queues, workers, and what the readers of the connections have yet to deliver, in order. znet/msghandler.go:23-50 (`TaskQueue`), :412-444, and the readers, znet/connection.go:227-288. -/
structure State where
  queue : Nat → List Req
  worker : Nat → Status
  todo : Nat → List Req

/-- Change of a function at one point. Auxiliary. -/
def upd {α : Type} (f : Nat → α) (i : Nat) (a : α) : Nat → α := fun j => if j = i then a else f j

/-- The actions. `wid c` is the worker number of connection `c`, constant while it lives (assigned in `Start` before the reader starts,
znet/connection.go:311-315). `cap` is the capacity of a queue, `MaxWorkerTaskLen` (znet/msghandler.go:197, :454); with capacity 0 handing over is two actions here, as with capacity 1. -/
inductive Step (slicesMode : Bool) (wid : Nat → Nat) (cap : Nat) : State → Act → State → Prop where
  /-- The reader of connection `c`, having delivered the requests of the previous read, has made further ones of the next (znet/connection.go:271-278). -/
  | arrive (s : State) (c : Nat) (rs : List Req) (h0 : s.todo c = []) (h : ∀ r ∈ rs, r.conn = some c) :
      Step slicesMode wid cap s (.arrive c rs) { s with todo := upd s.todo c rs }
  /-- The reader of connection `c` calls `SendMsgToTaskQueue` (znet/msghandler.go:299-305) through `Intercept` (:255-264). -/
  | deliver (s : State) (c : Nat) (r : Req) (rest : List Req) (h : s.todo c = r :: rest) (hq : (s.queue (wid c)).length < max cap 1) :
      Step slicesMode wid cap s (.submit (wid c) r)
        { s with queue := upd s.queue (wid c) (s.queue (wid c) ++ [r]), todo := upd s.todo c rest }
  /-- Any other code puts a request on a queue (`SendMsgToTaskQueue` is exported). -/
  | external (s : State) (w : Nat) (r : Req) (h : r.conn = none) (hq : (s.queue w).length < max cap 1) :
      Step slicesMode wid cap s (.submit w r) { s with queue := upd s.queue w (s.queue w ++ [r]) }
  /-- `request, ok := <-taskQueue` (znet/msghandler.go:420). -/
  | take (s : State) (w : Nat) (r : Req) (rest : List Req) (h1 : s.worker w = .idle) (h2 : s.queue w = r :: rest) :
      Step slicesMode wid cap s (.start w r) { s with queue := upd s.queue w rest, worker := upd s.worker w (.busy r) }
  /-- The body of the loop ends (znet/msghandler.go:427-440), user code having ended with `o`. -/
  | finish (s : State) (w : Nat) (r : Req) (o : Outcome) (h : s.worker w = .busy r) :
      Step slicesMode wid cap s (.finish w r o)
        { s with worker := upd s.worker w (match handle slicesMode r.kind o with | .ok => .idle | .panic => .dead) }

/-- All queues empty, all workers idle, the readers about to deliver `todo`. znet/msghandler.go:447-460. -/
def initial (todo : Nat → List Req) : State := { queue := fun _ => [], worker := fun _ => .idle, todo := todo }

/-- `Intercept` without worker pool (znet/msghandler.go:265-275): a goroutine per message. State: goroutines that have not started,
goroutines that are running. -/
inductive NoPoolStep : List Req × List Req → Act → List Req × List Req → Prop where
  | deliver (a b : List Req) (r : Req) : NoPoolStep (a, b) (.submit 0 r) (a ++ [r], b)
  | start (a b : List Req) (r : Req) (h : r ∈ a) : NoPoolStep (a, b) (.start 0 r) (a.erase r, b ++ [r])
  | finish (a b : List Req) (r : Req) (o : Outcome) (h : r ∈ b) : NoPoolStep (a, b) (.finish 0 r o) (a, b.erase r)

/-! ## Assignment of workers -/

/-- `WorkerMode` (zconf/zconf.go): anything but Bind and DynamicBind behaves as Hash. -/
inductive Mode where
  | hash
  | bind
  | dynamicBind
deriving DecidableEq, Repr

/-- Configuration seen by `newMsgHandle`/`newCliMsgHandle`. `MaxConn` is taken to be in 0..2^32-1. `WorkerMode`, `WorkerPoolSize`, `MaxConn` (zconf/zconf.go:44-120). -/
structure Cfg where
  mode : Mode
  workerPoolSize : Nat
  maxConn : Nat
  client : Bool

/-- Global `WorkerPoolSize` after construction: overwritten in bind mode (znet/msghandler.go:63, :117). -/
def Cfg.globalPool (c : Cfg) : Nat := match c.mode with
  | .bind => c.maxConn
  | _ => c.workerPoolSize

/-- Field `WorkerPoolSize` of the handler: 0 for clients (znet/msghandler.go:96, :150). -/
def Cfg.pool (c : Cfg) : Nat := if c.client then 0 else c.globalPool

/-- Length of `TaskQueue` (znet/msghandler.go:70, :83, :98). -/
def Cfg.taskLen (c : Cfg) : Nat := match c.mode with
  | .dynamicBind => c.maxConn
  | _ => c.globalPool

/-- Initial `freeWorkers` (znet/msghandler.go:64-67, :74-77). -/
def Cfg.free (c : Cfg) : List Nat := match c.mode with
  | .hash => []
  | _ => List.range c.globalPool

/-- Initial `extraFreeWorkers` (znet/msghandler.go:79-82). -/
def Cfg.extra (c : Cfg) : List Nat := match c.mode with
  | .dynamicBind => List.range' c.globalPool (c.maxConn - c.globalPool)
  | _ => []

/-- An entry of `TaskQueue`; open channels carry a number telling incarnations apart. znet/msghandler.go:23-50, :197, :407, :454. -/
inductive Chan where
  | nil
  | opened (gen : Nat)
  | closed
deriving DecidableEq, Repr

/-- Progress of a connection with respect to its worker. znet/connection.go:292-325, znet/msghandler.go:162-251. -/
inductive Phase where
  | accepted            -- created and in the manager, `useWorker` not begun
  | wantExtra           -- dynamic bind: found the free set empty, has not yet looked at the extra set
  | holds (w : Nat)     -- `useWorker` returned `w`
  | crashed             -- `freeWorker` panicked
  | released
deriving DecidableEq, Repr

/-- State: worker sets, task queues, connections (newest first) with their phase, IDs in the manager, last connection ID, channels made. znet/msghandler.go:23-50, znet/connmanager.go:12-14, znet/server.go:31-92 (`cID`). -/
structure AState where
  free : List Nat
  extra : List Nat
  chan : Nat → Chan
  conns : List (Nat × Phase)
  mgr : List Nat
  cID : Nat
  gen : Nat

/-- `StartWorkerPool` (znet/msghandler.go:447-460) panics when it indexes past the end of `TaskQueue`. -/
def startWorkerPool (c : Cfg) : Except Panic (Nat → Chan) :=
  if c.pool ≤ c.taskLen then .ok fun i => if i < c.pool then .opened i else .nil else .error .sliceBounds

/-- A started server (or a client, which never starts workers: `chan` all nil). znet/msghandler.go:54-158, :447-460. -/
def assignInit (c : Cfg) (chan : Nat → Chan) : AState :=
  { free := c.free, extra := c.extra, chan := chan, conns := [], mgr := [], cID := 0, gen := c.pool }

/-- Last part of `useWorker` (znet/msghandler.go:203-216). -/
def fallback (c : Cfg) (conn : Nat) : Nat := if c.pool = 0 then 0 else conn % c.pool

/-- Replaces the phase of a connection. Auxiliary. -/
def setPhase (l : List (Nat × Phase)) (conn : Nat) (p : Phase) : List (Nat × Phase) :=
  l.map fun x => if x.1 = conn then (conn, p) else x

/-- Actions concerning workers. znet/server.go:300-303, znet/msghandler.go:162-251, znet/connection.go:512-514. -/
inductive AAct where
  | accept (conn : Nat)
  | take (conn w : Nat)      -- `useWorker` returns `w`
  | look (conn : Nat)        -- dynamic bind: free set found empty
  | remove (conn : Nat)      -- finalizer removes the connection from the manager
  | release (conn : Nat)     -- `freeWorker`
deriving DecidableEq, Repr

/-- `freeWorker` (znet/msghandler.go:221-251) for worker `w`: new free set, extra set, channels; or the panic of `close`
(znet/msghandler.go:403-408). Inserting into a set keeps one copy. -/
def freeWorker (c : Cfg) (s : AState) (w : Nat) : Except Panic AState :=
  match c.mode with
  | .hash => .ok s
  | .bind => .ok { s with free := s.free.insert w }
  | .dynamicBind =>
    if w < c.pool then .ok { s with free := s.free.insert w }
    else if c.taskLen ≤ w then .error .sliceBounds
    else match s.chan w with
      | .nil => .error .nilChannel
      | .closed => .error .closedChannel
      | .opened _ => .ok { s with chan := upd s.chan w .closed, extra := s.extra.insert w }

/-- Worker assignment steps. Each step is a section under one lock. -/
inductive AStep (c : Cfg) : AState → AAct → AState → Prop where
  /-- An accept loop below the limit creates the next connection and adds it to the manager (znet/server.go:272-303, znet/connection.go:123-159). -/
  | accept (s : AState) (h : s.mgr.length < c.maxConn) :
      AStep c s (.accept (s.cID + 1)) { s with cID := s.cID + 1, mgr := (s.cID + 1) :: s.mgr, conns := (s.cID + 1, .accepted) :: s.conns }
  /-- Hash mode (znet/msghandler.go:203-216). -/
  | hash (s : AState) (n : Nat) (hm : c.mode = .hash) (h : (n, Phase.accepted) ∈ s.conns) :
      AStep c s (.take n (fallback c n)) { s with conns := setPhase s.conns n (.holds (fallback c n)) }
  /-- Bind or dynamic bind, some worker is free (znet/msghandler.go:171-179, :181-190); map iteration yields any element. -/
  | free (s : AState) (n w : Nat) (hm : c.mode ≠ .hash) (h : (n, Phase.accepted) ∈ s.conns) (hw : w ∈ s.free) :
      AStep c s (.take n w) { s with free := s.free.erase w, conns := setPhase s.conns n (.holds w) }
  /-- Bind, no worker is free: falls through to the end of `useWorker`. -/
  | bindNone (s : AState) (n : Nat) (hm : c.mode = .bind) (h : (n, Phase.accepted) ∈ s.conns) (hw : s.free = []) :
      AStep c s (.take n (fallback c n)) { s with conns := setPhase s.conns n (.holds (fallback c n)) }
  /-- Dynamic bind, no worker is free (znet/msghandler.go:191). -/
  | look (s : AState) (n : Nat) (hm : c.mode = .dynamicBind) (h : (n, Phase.accepted) ∈ s.conns) (hw : s.free = []) :
      AStep c s (.look n) { s with conns := setPhase s.conns n .wantExtra }
  /-- Dynamic bind, an extra worker is started (znet/msghandler.go:193-201). It is not deleted from the extra set. -/
  | extra (s : AState) (n w : Nat) (h : (n, Phase.wantExtra) ∈ s.conns) (hw : w ∈ s.extra) :
      AStep c s (.take n w)
        { s with chan := upd s.chan w (.opened s.gen), gen := s.gen + 1, conns := setPhase s.conns n (.holds w) }
  /-- Dynamic bind, no extra worker. -/
  | extraNone (s : AState) (n : Nat) (h : (n, Phase.wantExtra) ∈ s.conns) (hw : s.extra = []) :
      AStep c s (.take n (fallback c n)) { s with conns := setPhase s.conns n (.holds (fallback c n)) }
  /-- The finalizer removes the connection from the manager (znet/connection.go:512-514). -/
  | remove (s : AState) (n w : Nat) (h : (n, Phase.holds w) ∈ s.conns) (hm : n ∈ s.mgr) :
      AStep c s (.remove n) { s with mgr := s.mgr.erase n }
  /-- `freeWorker` after the finalizer (znet/connection.go:319-323). -/
  | release (s s' : AState) (n w : Nat) (h : (n, Phase.holds w) ∈ s.conns) (hm : n ∉ s.mgr) (hf : freeWorker c s w = .ok s') :
      AStep c s (.release n) { s' with conns := setPhase s'.conns n .released }
  /-- The same, panicking. -/
  | crash (s : AState) (n w : Nat) (p : Panic) (h : (n, Phase.holds w) ∈ s.conns) (hm : n ∉ s.mgr) (hf : freeWorker c s w = .error p) :
      AStep c s (.release n) { s with conns := setPhase s.conns n .crashed }

/-- `mh.TaskQueue[workerID] <- request` (znet/msghandler.go:303) by a connection holding worker `w`: does the send panic? -/
def sendPanics (c : Cfg) (s : AState) (w : Nat) : Option Panic :=
  if c.taskLen ≤ w then some .sliceBounds
  else match s.chan w with
    | .closed => some .closedChannel
    | _ => none

end Zinx.Worker
