import Verif.Model.Fair

/-!
# The automatic timer scheduler (ztimer/timerscheduler.go:99-135, ztimer/delayfunc.go:40-50)

The goroutine of `Start` (lines 100-117), which collects due timers and sends their functions over the trigger channel; the goroutine of `NewAutoExecTimerScheduler` (lines 127-132), which receives
them and starts a goroutine for each; these goroutines, which run `DelayFunc.Call`; and anyone who creates timers. Timers have numbers. Which timers are collected and when is the business of
`Model/Timer`; here a poll collects any pending timers, in any order (`GetTimerWithIn` returns a Go map).

A timer function may return, panic or never end (nothing makes a running function end). A nil function inside a `DelayFunc` is a function that panics; a nil `*DelayFunc` is `isNil`. Logging is left
out, and so is the sleep between two polls.
-/

namespace Zinx.AutoTimer

/-- ztimer/timerscheduler.go:28-37 and the goroutines of :100-135. -/
structure State where
  created : List Nat := []
  pending : List Nat := []
  /-- what is left of `timerList` (line 106) -/
  batch : List Nat := []
  /-- `triggerChan` -/
  chan : List Nat := []
  /-- goroutines started (line 130) that have not begun -/
  spawned : List Nat := []
  /-- functions running -/
  running : List Nat := []

/-- The steps of ztimer/timerscheduler.go:65-135 and ztimer/delayfunc.go:41-50; each is explained at `Step`. -/
inductive Label where
  | create (x : Nat)
  | cancel (x : Nat)
  | collect (xs : List Nat)
  | trigger (x : Nat)
  | dispatch (x : Nat)
  | begin (x : Nat)
  /-- the function returns -/
  | ret (x : Nat)
  /-- the function panics and `Call` recovers -/
  | recovered (x : Nat)
  /-- the process ends -/
  | fatal
deriving DecidableEq

/-- `cap` is `MaxChanBuff` (2048); `isNil x`: timer `x` has a nil `*DelayFunc`. -/
inductive Step (cap : Nat) (isNil : Nat → Bool) : State → Label → State → Prop where
  /-- lines 65-80 -/
  | create (s : State) (x : Nat) : x ∉ s.created → Step cap isNil s (.create x) { s with created := x :: s.created, pending := x :: s.pending }
  /-- lines 83-92 -/
  | cancel (s : State) (x : Nat) : Step cap isNil s (.cancel x) { s with pending := s.pending.filter (· ≠ x) }
  /-- line 106 -/
  | collect (s : State) (xs : List Nat) : s.batch = [] → xs.Nodup → (∀ x ∈ xs, x ∈ s.pending) →
      Step cap isNil s (.collect xs) { s with pending := s.pending.filter (· ∉ xs), batch := xs }
  /-- line 112 -/
  | trigger (s : State) (x : Nat) (xs : List Nat) : s.batch = x :: xs → s.chan.length < cap → Step cap isNil s (.trigger x) { s with batch := xs, chan := s.chan ++ [x] }
  /-- lines 129-131 -/
  | dispatch (s : State) (x : Nat) (xs : List Nat) : s.chan = x :: xs → Step cap isNil s (.dispatch x) { s with chan := xs, spawned := x :: s.spawned }
  /-- delayfunc.go:49 -/
  | begin (s : State) (x : Nat) : x ∈ s.spawned → isNil x = false → Step cap isNil s (.begin x) { s with spawned := s.spawned.erase x, running := x :: s.running }
  /-- delayfunc.go:49 panics, and so does `df.String()` in the deferred function (line 44) -/
  | beginNil (s : State) (x : Nat) : x ∈ s.spawned → isNil x = true → Step cap isNil s .fatal s
  | ret (s : State) (x : Nat) : x ∈ s.running → Step cap isNil s (.ret x) { s with running := s.running.erase x }
  /-- delayfunc.go:42-46 -/
  | recovered (s : State) (x : Nat) : x ∈ s.running → Step cap isNil s (.recovered x) { s with running := s.running.erase x }

end Zinx.AutoTimer
