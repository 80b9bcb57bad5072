import Verif.Model.Fair

/-!
# The locks of the sharded map (zutils/shard_lock_map.go; line numbers are those of this file)

`Model/ShardMap` takes the calls on a shard as atomic and says what they do to the data. Here are the locks: which calls wait for which. Goroutines are numbers; a goroutine has the rest of the
instructions of its call. Each shard has a `sync.RWMutex`, as the Go runtime implements it: `Lock` takes the mutex `w`, which keeps out other writers and from then on new readers, then waits for the
readers inside; `RLock` goes in if no writer has taken `w`, and otherwise waits; `Unlock` lets all waiting readers in and gives up `w`.

`Keys`, `IterBuffered` and what is built on them (`Items`, `Clear`, `MarshalJSON`) visit each shard in a goroutine of its own; each of these behaves like a `read` of one shard here.
-/

namespace Zinx.MapLock

/-- The calls of the mutex of zutils/shard_lock_map.go:18-21. -/
inductive Instr where
  | rlock (i : Nat)
  | runlock (i : Nat)
  | lock (i : Nat)
  | unlock (i : Nat)
  /-- something in a callback that does not concern the map; it may take as long as it likes -/
  | work
deriving DecidableEq

/-- Code made of whole calls, one after another or one within a callback of another. zutils/shard_lock_map.go:50-145, :264-273. -/
inductive Whole : List Instr → Prop where
  | nil : Whole []
  | work : Whole [.work]
  | read (i : Nat) (c : List Instr) : Whole c → Whole (.rlock i :: (c ++ [.runlock i]))
  | write (i : Nat) (c : List Instr) : Whole c → Whole (.lock i :: (c ++ [.unlock i]))
  | append (c d : List Instr) : Whole c → Whole d → Whole (c ++ d)

/-- Calls. `read i`: `Get`, `Has` of a key in shard `i` (lines 62-68, 101-107); `write i`: `Set`, `SetNX`, `Remove`, `Pop`, one element of `MSet` (lines 71-98, 110-115, 138-145); `count`: `Count`,
`IsEmpty` (lines 50-59); `iter`: `IterCb` (lines 264-273), `body i` being what its callbacks do for the elements of shard `i`; `writeCb`: `RemoveCb` (lines 124-135). -/
inductive Op where
  | read (i : Nat)
  | write (i : Nat)
  | count
  | iter (body : Nat → List Instr)
  | writeCb (i : Nat) (body : List Instr)

/-- The instructions of a call on a map with `n` shards. zutils/shard_lock_map.go:50-145, :264-273. -/
def Op.code (n : Nat) : Op → List Instr
  | .read i => [.rlock i, .runlock i]
  | .write i => [.lock i, .unlock i]
  | .count => (List.range n).flatMap fun i => [.rlock i, .runlock i]
  | .iter body => (List.range n).flatMap fun i => .rlock i :: (body i ++ [.runlock i])
  | .writeCb i body => .lock i :: (body ++ [.unlock i])

/-- Callbacks make whole calls. The functions given to `RemoveCb` and `IterCb`, zutils/shard_lock_map.go:117-124, :256-264. -/
def Op.wf : Op → Prop
  | .iter body => ∀ i, Whole (body i)
  | .writeCb _ body => Whole body
  | _ => True

/-- Inside `sync.RWMutex`, zutils/shard_lock_map.go:20. -/
inductive Stat where
  | ready
  /-- waiting in `RLock` -/
  | waitR
  /-- waiting in `Lock` with `w` taken -/
  | waitW
deriving DecidableEq

/-- zutils/shard_lock_map.go:12-21 and the goroutines. -/
structure State where
  code : Nat → List Instr := fun _ => []
  stat : Nat → Stat := fun _ => .ready
  /-- by shard: who has the lock for reading, also those let in that do not know it yet -/
  readers : Nat → List Nat := fun _ => []
  /-- by shard: who has taken `w` -/
  writer : Nat → Option Nat := fun _ => none
  /-- by shard: who waits in `RLock` -/
  rwait : Nat → List Nat := fun _ => []

/-- zutils/shard_lock_map.go:50-145, :264-273; each is explained at `Step`. -/
inductive Label where
  | call (g : Nat) (op : Op)
  /-- `work` -/
  | work (g : Nat)
  /-- a step of `RLock`, `RUnlock`, `Unlock`, or the second step of `Lock` -/
  | own (g : Nat)
  /-- `Lock` takes `w` -/
  | take (g : Nat)

/-- Auxiliary. -/
def upd {A : Type} (f : Nat → A) (i : Nat) (a : A) : Nat → A := fun j => if j = i then a else f j

/-- The calls of zutils/shard_lock_map.go:50-145, :264-273, and `sync.RWMutex`. -/
inductive Step (n : Nat) : State → Label → State → Prop where
  | call (s : State) (g : Nat) (op : Op) : s.code g = [] → op.wf → Step n s (.call g op) { s with code := upd s.code g (op.code n) }
  | work (s : State) (g : Nat) (c : List Instr) : s.stat g = .ready → s.code g = .work :: c → Step n s (.work g) { s with code := upd s.code g c }
  | rlock (s : State) (g i : Nat) (c : List Instr) : s.stat g = .ready → s.code g = .rlock i :: c → s.writer i = none →
      Step n s (.own g) { s with code := upd s.code g c, readers := upd s.readers i (g :: s.readers i) }
  | rlockWait (s : State) (g i : Nat) (c : List Instr) : s.stat g = .ready → s.code g = .rlock i :: c → s.writer i ≠ none →
      Step n s (.own g) { s with stat := upd s.stat g .waitR, rwait := upd s.rwait i (g :: s.rwait i) }
  | resume (s : State) (g i : Nat) (c : List Instr) : s.stat g = .waitR → s.code g = .rlock i :: c → g ∉ s.rwait i →
      Step n s (.own g) { s with stat := upd s.stat g .ready, code := upd s.code g c }
  | runlock (s : State) (g i : Nat) (c : List Instr) : s.stat g = .ready → s.code g = .runlock i :: c →
      Step n s (.own g) { s with code := upd s.code g c, readers := upd s.readers i ((s.readers i).erase g) }
  | take (s : State) (g i : Nat) (c : List Instr) : s.stat g = .ready → s.code g = .lock i :: c → s.writer i = none →
      Step n s (.take g) { s with stat := upd s.stat g .waitW, writer := upd s.writer i (some g) }
  | locked (s : State) (g i : Nat) (c : List Instr) : s.stat g = .waitW → s.code g = .lock i :: c → s.readers i = [] →
      Step n s (.own g) { s with stat := upd s.stat g .ready, code := upd s.code g c }
  | unlock (s : State) (g i : Nat) (c : List Instr) : s.stat g = .ready → s.code g = .unlock i :: c →
      Step n s (.own g) { s with code := upd s.code g c, writer := upd s.writer i none, readers := upd s.readers i (s.rwait i ++ s.readers i), rwait := upd s.rwait i [] }

end Zinx.MapLock
