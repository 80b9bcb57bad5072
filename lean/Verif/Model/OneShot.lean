import Verif.Model.Fair

/-!
# Timers that run by themselves (ztimer/timer.go:48-90, ztimer/delayfunc.go:40-50)

A timer made with `NewTimerAt` or `NewTimerAfter` and started with `Run`, without a scheduler. Two clocks: `now` counts the nanoseconds of the monotonic clock, by which `time.Sleep` works; `wall` says
what `time.Now().UnixNano()` is at every moment of it, so that a wall clock that is set or corrected is covered. Both are read as `int64`.

Reading the clock and going to sleep is one step. A sleep may take any time longer than asked for. `DelayFunc` is one made by `NewDelayFunc`, whose `Call` recovers what the function panics with; a nil
`*DelayFunc` is the subject of C88. Anyone may make timers and run them, also more than once.
-/

namespace Zinx.OneShot

/-- A timer without its function: `unixts` (ms). ztimer/timer.go:49-54. -/
structure Timer where
  unixts : Int
deriving DecidableEq

/-- `UnixMilli` when the wall clock shows `ns`, ztimer/timer.go:57-59. -/
def unixMilli (ns : Int) : Int := ns.tdiv 1000000

/-- ztimer/timer.go:62-67 -/
def newTimerAt (unixNano : Int) : Timer := ⟨unixNano.tdiv 1000000⟩

/-- `NewTimerAfter` when the wall clock shows `ns`, ztimer/timer.go:70-72. -/
def newTimerAfter (ns duration : Int) : Timer := newTimerAt (wrap64 (ns + duration))

/-- How long (ns) a `Run` sleeps that finds the wall clock at `ns`, ztimer/timer.go:77-82; 0: it does not sleep. -/
def sleep (t : Timer) (ns : Int) : Int :=
  if t.unixts > unixMilli ns then wrap64 (wrap64 (t.unixts - unixMilli ns) * 1000000) else 0

/-- A goroutine of `Run`, ztimer/timer.go:76-86: before line 77, before line 85 (`till` is the moment of the monotonic clock at which the sleep is over), in the function since the moment `at`, ended. -/
inductive Phase where
  | ready
  | asleep (till : Int)
  | calling (at_ : Nat)
  | ended
deriving DecidableEq

/-- The goroutine of a call of `Run`, ztimer/timer.go:75-87, with its timer. -/
structure Run where
  timer : Timer
  phase : Phase := .ready
deriving DecidableEq

/-- The monotonic clock, the timers made and the goroutines of ztimer/timer.go:76. -/
structure State where
  now : Nat := 0
  timers : List Timer := []
  runs : List Run := []
deriving DecidableEq

/-- The actions of ztimer/timer.go:57-90; each is explained at `Step`. -/
inductive Label where
  | tick
  | at_ (unixNano : Int)
  | after (duration : Int)
  | run (i : Nat)
  | look (k : Nat)
  | call (k : Nat)
  | ret (k : Nat)
  | recovered (k : Nat)
deriving DecidableEq

/-- `x` is a value of type `int64`. Go's `int64`. -/
def I64 (x : Int) : Prop := -2 ^ 63 ≤ x ∧ x < 2 ^ 63

/-- The goroutines of ztimer/timer.go:57-90 and those that make timers. -/
inductive Step (wall : Nat → Int) : State → Label → State → Prop where
  /-- a nanosecond passes -/
  | tick (s : State) : Step wall s .tick { s with now := s.now + 1 }
  /-- timer.go:62-67 -/
  | at_ (s : State) (t : Int) : I64 t → Step wall s (.at_ t) { s with timers := s.timers ++ [newTimerAt t] }
  /-- timer.go:70-72 -/
  | after (s : State) (d : Int) : I64 d → Step wall s (.after d) { s with timers := s.timers ++ [newTimerAfter (wall s.now) d] }
  /-- timer.go:75-76 -/
  | run (s : State) (i : Nat) (t : Timer) : s.timers[i]? = some t → Step wall s (.run i) { s with runs := s.runs ++ [{ timer := t }] }
  /-- timer.go:77-82, up to the beginning of the sleep -/
  | look (s : State) (k : Nat) (r : Run) : s.runs[k]? = some r → r.phase = .ready →
      Step wall s (.look k) { s with runs := s.runs.set k { r with phase := .asleep (s.now + sleep r.timer (wall s.now)) } }
  /-- timer.go:81 returns; line 85, delayfunc.go:49 -/
  | call (s : State) (k : Nat) (r : Run) (till : Int) : s.runs[k]? = some r → r.phase = .asleep till → till ≤ s.now →
      Step wall s (.call k) { s with runs := s.runs.set k { r with phase := .calling s.now } }
  /-- the function returns -/
  | ret (s : State) (k : Nat) (r : Run) (m : Nat) : s.runs[k]? = some r → r.phase = .calling m → Step wall s (.ret k) { s with runs := s.runs.set k { r with phase := .ended } }
  /-- delayfunc.go:41-46 -/
  | recovered (s : State) (k : Nat) (r : Run) (m : Nat) : s.runs[k]? = some r → r.phase = .calling m → Step wall s (.recovered k) { s with runs := s.runs.set k { r with phase := .ended } }

end Zinx.OneShot
