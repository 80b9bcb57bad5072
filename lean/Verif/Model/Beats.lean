import Verif.Model.Alive

/-!
# Two endpoints that keep each other alive (znet/heartbeat.go, znet/connection.go:243-260, 300-315, 543-555)

`Model/Alive` is one endpoint; its peer may do anything. Here both endpoints of a connection have a heartbeat checker, and nothing else is sent. Time is in nanoseconds, and the model is timed: time passes
only as long as nothing is overdue. What is overdue when is given by these bounds (`Timing`):

* `lag`: from a tick of the ticker to the end of the check it starts, with the heartbeat sent;
* `delay`: from the end of `SendMsg` on one side to the end of `updateActivity` on the other, or from the start of the reader there, if that comes later;
* `skew`: from the start of one side to the start of the other.

A check takes place in one step, and so do delivery, `Read` and `updateActivity`. `delay` thus includes all that may keep a reader from reading. Heartbeats arrive in the order sent. An endpoint that finds
the other one dead sends nothing more (the default `onRemoteNotAlive` stops the connection, znet/heartbeat.go:50-53).
-/

namespace Zinx.Beats

/-- The settings: the heartbeat interval of each side, which is positive, the `HeartbeatMax` of each side in seconds, and the bounds. zconf/zconf.go:183-185 (`HeartbeatMax`), znet/heartbeat.go:55-71 (`interval`); the bounds are assumptions about the machine and the network. -/
structure Timing where
  interval : Bool → Nat
  heartbeatMax : Bool → Int
  lag : Nat
  delay : Nat
  skew : Nat

/-- Two connections (znet/connection.go:26-119: `lastActivityTime`), their checkers (znet/heartbeat.go:11-25), the network. -/
structure State where
  now : Int := 0
  /-- when each side was started -/
  start : Bool → Option Int := fun _ => none
  /-- `lastActivityTime` of each side -/
  last : Bool → Int := fun _ => 0
  /-- the number of checks each side has made -/
  checks : Bool → Nat := fun _ => 0
  /-- the sides that found the other one dead -/
  dead : Bool → Bool := fun _ => false
  /-- the heartbeats on their way to each side, with the times they were sent -/
  flight : Bool → List Int := fun _ => []
  /-- when the network was cut -/
  cut : Option Int := none

/-- Change of a table at one side. Auxiliary, for the two connections (znet/connection.go:26-119). -/
def upd {A : Type} (f : Bool → A) (x : Bool) (a : A) : Bool → A := fun y => if y = x then a else f y

/-- The steps of znet/heartbeat.go:105-116, :140-157 and znet/connection.go:241-260; each is explained at `Step`. -/
inductive Label where
  | advance (d : Nat)
  | start (x : Bool)
  /-- a check of side `x` and its verdict -/
  | check (x : Bool) (alive : Bool)
  | deliver (x : Bool)
  /-- from now on nothing arrives -/
  | cut
deriving DecidableEq

/-- Nothing is overdue at time `t`. -/
structure InTime (m : Timing) (s : State) (t : Int) : Prop where
  /-- the checks of a side that has not given up: the tick with number `n` comes `n` intervals after the start (znet/heartbeat.go:106) -/
  check : ∀ x t0, s.start x = some t0 → s.dead x = false → t ≤ t0 + (s.checks x + 1) * m.interval x + m.lag
  /-- deliveries, while there is a network -/
  deliver : s.cut = none → ∀ x t0, s.start x = some t0 → ∀ r ∈ s.flight x, t ≤ max r t0 + m.delay
  /-- the start of the other side -/
  start : ∀ x t0, s.start x = some t0 → s.start (!x) = none → t ≤ t0 + m.skew

inductive Step (m : Timing) : State → Label → State → Prop where
  | advance (s : State) (d : Nat) : InTime m s (s.now + d) → Step m s (.advance d) { s with now := s.now + d }
  /-- znet/connection.go:300-315 -/
  | start (s : State) (x : Bool) : s.start x = none → Step m s (.start x) { s with start := upd s.start x (some s.now), last := upd s.last x s.now }
  /-- znet/heartbeat.go:108-110, 140-157, znet/connection.go:543-551: the other side is alive; a heartbeat is sent -/
  | beat (s : State) (x : Bool) (t0 : Int) : s.start x = some t0 → s.dead x = false → t0 + (s.checks x + 1) * m.interval x ≤ s.now →
      Alive.elapsed s.now (some (s.last x)) < Alive.limit (m.heartbeatMax x) →
      Step m s (.check x true) { s with checks := upd s.checks x (s.checks x + 1), flight := upd s.flight (!x) (s.flight (!x) ++ [s.now]) }
  /-- the other side is dead -/
  | notAlive (s : State) (x : Bool) (t0 : Int) : s.start x = some t0 → s.dead x = false → t0 + (s.checks x + 1) * m.interval x ≤ s.now →
      ¬ Alive.elapsed s.now (some (s.last x)) < Alive.limit (m.heartbeatMax x) →
      Step m s (.check x false) { s with checks := upd s.checks x (s.checks x + 1), dead := upd s.dead x true }
  /-- znet/connection.go:249-260 -/
  | deliver (s : State) (x : Bool) (r : Int) (rs : List Int) : s.start x ≠ none → s.cut = none → s.flight x = r :: rs →
      Step m s (.deliver x) { s with last := upd s.last x s.now, flight := upd s.flight x rs }
  | cut (s : State) : s.cut = none → Step m s .cut { s with cut := some s.now }

end Zinx.Beats
