import Verif.Model.Sys

/-!
# Model of `zasync_op`

Memory is sequentially consistent. (In the code `completeFunc` and `returnedObj` are plain fields; under the Go memory model the calls race on them.)
-/

namespace Zinx.Async

open Zinx

/-! ## Completion (zasync_op/async_op_result.go) -/

/-- What a goroutine calls: `SetReturnedObj(v)` or `OnComplete(f)`, where `f` may be nil. zasync_op/async_op_result.go:37-62. -/
inductive Call where
  | set (v : Nat)
  | on (f : Option Nat)

/-- Where a call is. -/
inductive Pc where
  | start
  | won        -- its compare-and-swap succeeded (zasync_op/async_op_result.go:38, 51)
  | wrote      -- its field is written (:39, 52)
  | complete   -- in `doComplete` (:66)
  | fire (f : Nat)   -- `completeFunc` was not nil (:67)
  | done
  deriving DecidableEq

/-- `AsyncOpResult` (zasync_op/async_op_result.go:16-29), the callbacks handed to the worker queue, the result objects the callbacks read when
they ran, and the calls. -/
structure State where
  hasRet : Bool
  obj : Option Nat
  hasFn : Bool
  fn : Option Nat
  called : Bool
  dispatched : List Nat
  reads : List (Option Nat)
  pc : Nat → Pc

/-- `NewAsyncOpResult` (zasync_op/async_op_result.go:82-86). -/
def init : State := ⟨false, none, false, none, false, [], [], fun _ => .start⟩

/-- Call `i` goes on. Auxiliary, for the steps of zasync_op/async_op_result.go:37-79. -/
def State.goto (s : State) (i : Nat) (p : Pc) : State := { s with pc := fun j => if j = i then p else s.pc j }

/-- Steps of call `i`, which is `calls i`; and the callbacks running. -/
inductive Step (calls : Nat → Call) : State → Nat → State → Prop
  /-- zasync_op/async_op_result.go:38 -/
  | setWin {s : State} {i v : Nat} : calls i = .set v → s.pc i = .start → s.hasRet = false → Step calls s i ({ s with hasRet := true }.goto i .won)
  | setLose {s : State} {i v : Nat} : calls i = .set v → s.pc i = .start → s.hasRet = true → Step calls s i (s.goto i .done)
  /-- :39 -/
  | setWrite {s : State} {i v : Nat} : calls i = .set v → s.pc i = .won → Step calls s i ({ s with obj := some v }.goto i .complete)
  /-- :51 -/
  | onWin {s : State} {i : Nat} {f : Option Nat} : calls i = .on f → s.pc i = .start → s.hasFn = false →
      Step calls s i ({ s with hasFn := true }.goto i .won)
  | onLose {s : State} {i : Nat} {f : Option Nat} : calls i = .on f → s.pc i = .start → s.hasFn = true → Step calls s i (s.goto i .done)
  /-- :52 -/
  | onWrite {s : State} {i : Nat} {f : Option Nat} : calls i = .on f → s.pc i = .won → Step calls s i ({ s with fn := f }.goto i .wrote)
  /-- :58 -/
  | onLoad {s : State} {i : Nat} : s.pc i = .wrote → Step calls s i (s.goto i (if s.hasRet then .complete else .done))
  /-- `doComplete` reads `completeFunc` (:67) -/
  | readFn {s : State} {i : Nat} : s.pc i = .complete →
      Step calls s i (s.goto i (match s.fn with | none => .done | some f => .fire f))
  /-- :72-77 -/
  | fireWin {s : State} {i f : Nat} : s.pc i = .fire f → s.called = false →
      Step calls s i ({ s with called := true, dispatched := s.dispatched ++ [f] }.goto i .done)
  | fireLose {s : State} {i f : Nat} : s.pc i = .fire f → s.called = true → Step calls s i (s.goto i .done)
  /-- a dispatched callback runs and reads the result (:32-34) -/
  | run {s : State} {i : Nat} : s.reads.length < s.dispatched.length → Step calls s i { s with reads := s.reads ++ [s.obj] }

/-! ## Workers -/

/-- Worker index (zasync_op/async_op.go:64-70). Negation wraps; `%` truncates. -/
def workerIndex (opId : Int) : Int :=
  let a := if opId < 0 then wrap64 (-opId) else opId
  a.tmod 2048

/-- An operation submitted under an ID. The arguments of `Process` (zasync_op/async_op.go:48); operations are numbered. -/
structure Op where
  id : Int
  op : Nat
  deriving DecidableEq

/-- The queues (zasync_op/async_worker.go:11-13) and what the workers are executing, by worker index. -/
structure WState where
  queue : Int → List Op
  busy : Int → Option Op

/-- Nothing has been submitted (zasync_op/async_op.go:44-46). -/
def winit : WState := ⟨fun _ => [], fun _ => none⟩

/-- A call of `Process` (zasync_op/async_op.go:48-59), and the begin and the end of an operation in its worker (zasync_op/async_worker.go:26-48). -/
inductive WLabel where
  | submit (o : Op)
  | begin (o : Op)
  | finish (o : Op) (panicked : Bool)

/-- Change of a table at one point. Auxiliary, for the array of zasync_op/async_op.go:45. -/
def wset {α : Type} (f : Int → α) (i : Int) (a : α) : Int → α := fun j => if j = i then a else f j

inductive WStep : WState → WLabel → WState → Prop
  /-- `Process` with an operation that is not nil (zasync_op/async_op.go:48-59; async_worker.go:26): the channel has capacity 2048 -/
  | submit {s : WState} {o : Op} : (s.queue (workerIndex o.id)).length < 2048 →
      WStep s (.submit o) { s with queue := wset s.queue (workerIndex o.id) (s.queue (workerIndex o.id) ++ [o]) }
  /-- zasync_op/async_worker.go:45-48 -/
  | begin {s : WState} {w : Int} {o : Op} {rest : List Op} : s.busy w = none → s.queue w = o :: rest →
      WStep s (.begin o) { queue := wset s.queue w rest, busy := wset s.busy w (some o) }
  /-- the operation returns or its panic is recovered (zasync_op/async_worker.go:27-34) -/
  | finish {s : WState} {w : Int} {o : Op} {panicked : Bool} : s.busy w = some o →
      WStep s (.finish o panicked) { s with busy := wset s.busy w none }

end Zinx.Async
