import Verif.Model.AcceptDelay
import Verif.Model.Sys

/-! # Model of the accept delay as it is used by several goroutines

`AcceptDelay` (znet/acceptdelay.go:11-15) is one object for the whole process, with one field `duration` and no lock. It is used by the
accept loop of every TCP listener (znet/server.go:278-296), by that of every KCP listener (:382-395) and by the HTTP handler of every
WebSocket handshake (:322-351), each handshake having its own goroutine. So here any number of goroutines, numbered, call `Delay` and
`Reset` on the same field.

Each read and each write of the field is a step. Simplification: memory is sequentially consistent, which the Go memory model does not
promise for a field read and written without synchronisation; every run of this model is one the code can have. A sleeping goroutine may
wake at any time: the model keeps how long it asked to sleep. -/

namespace Zinx.DelayConc

open Zinx Zinx.AcceptDelay

/-- Where a goroutine is. -/
inductive Pc where
  /-- Not in `Delay`. -/
  | idle
  /-- At znet/acceptdelay.go:31, about to compare the field with 0. -/
  | test
  /-- At :32, about to write five milliseconds. -/
  | first
  /-- At :35, about to read the field. -/
  | load
  /-- At :35, having read `r`, about to write its double. -/
  | store (r : Int)
  /-- At :36, about to compare the field with `maxDelay`. -/
  | compare
  /-- At :37, about to write `maxDelay`. -/
  | cap
  /-- At :42, about to compare the field with 0. -/
  | positive
  /-- At :43, about to read the field and sleep that long. -/
  | nap
  /-- In `time.Sleep(d)` (:43). -/
  | asleep (d : Int)
  deriving DecidableEq

/-- The field `duration` and the goroutines. znet/acceptdelay.go:11-19. -/
structure State where
  duration : Int
  pc : Nat → Pc

/-- Goroutine `i` moves to `p`. Auxiliary; no code of zinx. -/
def State.at (s : State) (i : Nat) (p : Pc) : State := { s with pc := fun j => if j = i then p else s.pc j }

/-- The process at its start (znet/acceptdelay.go:13-15). -/
def init : State := { duration := 0, pc := fun _ => .idle }

/-- What is seen of a step. znet/acceptdelay.go:21-45. -/
inductive Label where
  /-- Goroutine `i` calls `Delay`: an attempt of its has failed. -/
  | delay (i : Nat)
  /-- Goroutine `i` calls `Reset`: an attempt of its has succeeded. -/
  | reset (i : Nat)
  /-- Goroutine `i` reads or writes the field in `Delay`. -/
  | tau (i : Nat)
  /-- Goroutine `i` calls `time.Sleep(d)`. -/
  | sleep (i : Nat) (d : Int)
  /-- Goroutine `i` returns from `Delay`. -/
  | wake (i : Nat)
  deriving DecidableEq

/-- One step of one goroutine. -/
inductive Step : State → Label → State → Prop where
  /-- `Delay` calls `Up` (znet/acceptdelay.go:21-22). -/
  | delay {s : State} {i : Nat} : s.pc i = .idle → Step s (.delay i) (s.at i .test)
  /-- `Reset` (:26-28). -/
  | reset {s : State} {i : Nat} : s.pc i = .idle → Step s (.reset i) { s with duration := 0 }
  /-- The test of :31 succeeds. -/
  | zero {s : State} {i : Nat} : s.pc i = .test → s.duration = 0 → Step s (.tau i) (s.at i .first)
  /-- The test of :31 fails. -/
  | nonzero {s : State} {i : Nat} : s.pc i = .test → s.duration ≠ 0 → Step s (.tau i) (s.at i .load)
  /-- :32-33; `Up` returns and `do` starts (:23). -/
  | first {s : State} {i : Nat} : s.pc i = .first → Step s (.tau i) { s.at i .positive with duration := 5 * millisecond }
  /-- The read of :35. -/
  | load {s : State} {i : Nat} : s.pc i = .load → Step s (.tau i) (s.at i (.store s.duration))
  /-- The write of :35; a `time.Duration` is an int64. -/
  | store {s : State} {i : Nat} {r : Int} : s.pc i = .store r → Step s (.tau i) { s.at i .compare with duration := wrap64 (2 * r) }
  /-- The test of :36 succeeds. -/
  | above {s : State} {i : Nat} : s.pc i = .compare → s.duration > maxDelay → Step s (.tau i) (s.at i .cap)
  /-- The test of :36 fails; `Up` returns and `do` starts (:23). -/
  | below {s : State} {i : Nat} : s.pc i = .compare → s.duration ≤ maxDelay → Step s (.tau i) (s.at i .positive)
  /-- :37. -/
  | cap {s : State} {i : Nat} : s.pc i = .cap → Step s (.tau i) { s.at i .positive with duration := maxDelay }
  /-- The test of :42 succeeds. -/
  | positive {s : State} {i : Nat} : s.pc i = .positive → s.duration > 0 → Step s (.tau i) (s.at i .nap)
  /-- The test of :42 fails and `Delay` returns. -/
  | skip {s : State} {i : Nat} : s.pc i = .positive → s.duration ≤ 0 → Step s (.wake i) (s.at i .idle)
  /-- :43. -/
  | nap {s : State} {i : Nat} : s.pc i = .nap → Step s (.sleep i s.duration) (s.at i (.asleep s.duration))
  /-- The sleep ends and `Delay` returns. -/
  | wake {s : State} {i : Nat} {d : Int} : s.pc i = .asleep d → Step s (.wake i) (s.at i .idle)

end Zinx.DelayConc
