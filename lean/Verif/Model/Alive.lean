import Verif.Model.Sys

/-!
# Liveness checks of a connection with a heartbeat checker

The goroutine of `Start` (from the start of the checker on), the reader, the checker's goroutine, the peer, and anyone who stops the connection. Time is in
nanoseconds (the monotonic clock) and passes between any two actions. `lastActivityTime` is read and written atomically (in Go this is a data race).
-/

namespace Zinx.Alive

/-- Reader, znet/connection.go:241-286: waiting in `Read`; data read, activity not yet noted (between lines 249 and 259); handing the data on
(lines 264-285, which may take as long as the queue of the worker is full). -/
inductive ReaderPc where
  | reading
  | got
  | busy
deriving DecidableEq

/-- Checker goroutine: not started; in the `select` (znet/heartbeat.go:108); in `IsAlive` after `isClosed` (znet/connection.go:549); verdict reached. -/
inductive HbPc where
  | off
  | waiting
  | timing
  | closedSeen
  | decided (alive : Bool)
deriving DecidableEq

/-- The fields of znet/connection.go:26-119 that matter here, the clock, and the goroutines of znet/connection.go:227-288, :292-325 and znet/heartbeat.go:105-116. -/
structure State where
  now : Int := 0
  /-- `lastActivityTime`; `none` is the zero time. -/
  last : Option Int := none
  closed : Bool := false
  /-- bytes in the socket's receive buffer -/
  inbox : Nat := 0
  reader : ReaderPc := .reading
  hb : HbPc := .off
  /-- `Start` is past line 307 -/
  started : Bool := false
deriving DecidableEq

/-- Actions. The steps of znet/connection.go:241-286, :300-325 and znet/heartbeat.go:105-116, :140-157; each is explained at `Step`. -/
inductive Label where
  | advance (d : Nat)
  | hbStart
  | firstUpdate
  | arrive (n : Nat)
  | read (n : Nat)
  | update
  | handed
  | stop
  | checkBegin
  | verdict (alive : Bool)
  | beat
  | notAlive
deriving DecidableEq

/-- Largest `time.Duration`. As used by `time.Now().Sub` in znet/connection.go:550. -/
def maxDuration : Int := 2 ^ 63 - 1

/-- `HeartbeatMaxDuration` (zconf/zconf.go:183-185): seconds to nanoseconds in 64 bits. -/
def limit (heartbeatMax : Int) : Int := wrap64 (heartbeatMax * 1000000000)

/-- `time.Now().Sub(lastActivityTime)` (saturating; the zero time is more than 292 years ago). znet/connection.go:550. -/
def elapsed (now : Int) : Option Int → Int
  | none => maxDuration
  | some t => min (now - t) maxDuration

/-- One action, given `HeartbeatMax` in seconds. -/
inductive Step (heartbeatMax : Int) : State → Label → State → Prop where
  /-- time passes -/
  | advance (s : State) (d : Nat) : Step heartbeatMax s (.advance d) { s with now := s.now + d }
  /-- znet/connection.go:306 -/
  | hbStart (s : State) : s.hb = .off → Step heartbeatMax s .hbStart { s with hb := .waiting }
  /-- znet/connection.go:307; the reader goroutine is started afterwards (line 315) -/
  | firstUpdate (s : State) : s.hb ≠ .off → s.started = false → Step heartbeatMax s .firstUpdate { s with last := some s.now, started := true }
  /-- bytes arrive from the peer -/
  | arrive (s : State) (n : Nat) : 0 < n → Step heartbeatMax s (.arrive n) { s with inbox := s.inbox + n }
  /-- `Read` returns (line 249) with some of the bytes available -/
  | read (s : State) (n : Nat) : s.started = true → s.reader = .reading → 0 < n → n ≤ s.inbox →
      Step heartbeatMax s (.read n) { s with inbox := s.inbox - n, reader := .got }
  /-- `updateActivity` (lines 258-260, 553-555) -/
  | update (s : State) : s.reader = .got → Step heartbeatMax s .update { s with last := some s.now, reader := .busy }
  /-- the data has been handed on, back to line 241 -/
  | handed (s : State) : s.reader = .busy → Step heartbeatMax s .handed { s with reader := .reading }
  /-- the connection's context is cancelled, by anyone -/
  | stop (s : State) : Step heartbeatMax s .stop { s with closed := true }
  /-- a tick; `IsAlive` begins with `isClosed` (znet/heartbeat.go:109-110,146, znet/connection.go:544) -/
  | checkBegin (s : State) : s.hb = .waiting → Step heartbeatMax s .checkBegin { s with hb := if s.closed then .closedSeen else .timing }
  /-- znet/connection.go:545 -/
  | verdictClosed (s : State) : s.hb = .closedSeen → Step heartbeatMax s (.verdict false) { s with hb := .decided false }
  /-- znet/connection.go:550 -/
  | verdictTime (s : State) : s.hb = .timing →
      Step heartbeatMax s (.verdict (decide (elapsed s.now s.last < limit heartbeatMax))) { s with hb := .decided (decide (elapsed s.now s.last < limit heartbeatMax)) }
  /-- znet/heartbeat.go:149-153: one call of `beatFunc` or one heartbeat message -/
  | beat (s : State) : s.hb = .decided true → Step heartbeatMax s .beat { s with hb := .waiting }
  /-- znet/heartbeat.go:147 (`onRemoteNotAlive`; what it does is up to the user, the default stops the connection) -/
  | notAlive (s : State) : s.hb = .decided false → Step heartbeatMax s .notAlive { s with hb := .waiting }

end Zinx.Alive
