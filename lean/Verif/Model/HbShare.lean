import Verif.Model.Sys

/-! # Model of the heartbeat checker of a client that connects again

A client has one checker, made by `StartHeartBeat` (znet/client.go:212-222). Each time it connects, `Restart` binds the checker to the new connection (:181-185), and
`Start` of the connection runs another goroutine of it (znet/connection.go:305-308, znet/heartbeat.go:105-120). The finalizer of a connection sends on the
quit channel of the checker (znet/connection.go:504-506, znet/heartbeat.go:122-125), and whichever of the goroutines is in its `select` receives. A server clones its checker for
each connection (znet/server.go:226-232, C44); that is not the subject here.

* Connection `k` is the `k`-th the client makes (TCP); goroutine `k` of the checker is the one started for it.
* Time: `silent k` says that `time.Now().Sub(lastActivityTime)` has reached the limit. It does at first, when `lastActivityTime` is the zero time.
* The functions of the user (hooks, `onRemoteNotAlive`) take any time. `onRemoteNotAlive` is the default one, which stops the connection (znet/heartbeat.go:50-53). A heartbeat is
  sent in one step (for a send that does not return see C42). Panics of hooks are left out (C125). -/

namespace Zinx.HbShare

/-- A connection: not made; made and bound to the checker (znet/client.go:173-185), `ctx` and `cancel` are nil; `ctx` is set (znet/connection.go:298), in the start hook; the goroutine of the checker
is started (:306); in the `select` or before (:307-318); in the stop hook (:501); sending on the quit channel (:505); past that. -/
inductive CPc where
  | none
  | made
  | begun
  | watched
  | up
  | hook
  | quit
  | done
  deriving DecidableEq

/-- A goroutine of the checker: not started; in the `select` (znet/heartbeat.go:108); in `check` before line 146; `IsAlive` has said no, before `h.conn` is read again (:147); it has said yes,
before `h.conn` is read again (:149-153); in `onRemoteNotAlive` for connection `k`, before `conn.Stop()` (:52); returned. -/
inductive GPc where
  | none
  | select
  | check
  | dead
  | live
  | stopping (k : Nat)
  | gone
  deriving DecidableEq

/-- `n`, `bound`: znet/client.go:18-53, znet/heartbeat.go:11-25; the rest: znet/connection.go:26-119 and the goroutines. -/
structure State where
  /-- connections made so far -/
  n : Nat := 0
  /-- field `conn` of the checker -/
  bound : Option Nat := none
  conn : Nat → CPc := fun _ => .none
  /-- `cancel` of the connection has been called -/
  cancelled : Nat → Bool := fun _ => false
  silent : Nat → Bool := fun _ => true
  gor : Nat → GPc := fun _ => .none
  /-- the process has ended -/
  crashed : Bool := false

/-- Auxiliary; no code of zinx. -/
def upd {α : Type} (f : Nat → α) (i : Nat) (a : α) : Nat → α := fun j => if j = i then a else f j

/-- The actions of znet/client.go:173-185, znet/connection.go:292-331, :498-507, znet/heartbeat.go:105-157. -/
inductive Label where
  /-- the client has connected for the `k`-th time -/
  | bind (k : Nat)
  /-- `Start` of the connection begins -/
  | begin (k : Nat)
  | watch (k : Nat)
  /-- the connection is ready to be read from -/
  | up (k : Nat)
  /-- something is received on connection `k` -/
  | heard (k : Nat)
  /-- nothing has been received on connection `k` for the limit -/
  | fallSilent (k : Nat)
  /-- connection `k` is stopped by the user, the reader or the checker -/
  | stop (k : Nat)
  | hook (k : Nat)
  | hookDone (k : Nat)
  /-- the quit message of connection `k` is received by goroutine `j` of the checker -/
  | quit (k j : Nat)
  | tick (j : Nat)
  | judge (j : Nat)
  /-- goroutine `j` calls `onRemoteNotAlive` for connection `k` -/
  | notAlive (j k : Nat)
  /-- goroutine `j` sends a heartbeat on connection `k` -/
  | beat (j k : Nat)
  /-- the process ends: a nil function is called in a goroutine that does not recover -/
  | crash
  deriving DecidableEq

/-- `isClosed` (znet/connection.go:577-579). -/
def State.closed (s : State) (k : Nat) : Bool := decide (s.conn k = .none ∨ s.conn k = .made) || s.cancelled k

/-- `IsAlive` (znet/connection.go:543-551). -/
def State.alive (s : State) (k : Nat) : Bool := !s.closed k && !s.silent k

inductive Act : State → Label → State → Prop where
  /-- znet/client.go:173-185 -/
  | bind {s : State} : Act s (.bind s.n) { s with n := s.n + 1, bound := some s.n, conn := upd s.conn s.n .made }
  /-- znet/connection.go:298 -/
  | begin {s : State} {k : Nat} : s.conn k = .made → Act s (.begin k) { s with conn := upd s.conn k .begun }
  /-- the start hook has returned (:302), the goroutine is started (:306) -/
  | watch {s : State} {k : Nat} : s.conn k = .begun → Act s (.watch k) { s with conn := upd s.conn k .watched, gor := upd s.gor k .select }
  /-- `updateActivity` (:307) -/
  | up {s : State} {k : Nat} : s.conn k = .watched → Act s (.up k) { s with conn := upd s.conn k .up, silent := upd s.silent k false }
  /-- `updateActivity` by the reader (:258-260) -/
  | heard {s : State} {k : Nat} : s.conn k = .up ∨ s.conn k = .hook ∨ s.conn k = .quit ∨ s.conn k = .done → Act s (.heard k) { s with silent := upd s.silent k false }
  /-- time passes -/
  | fallSilent {s : State} {k : Nat} : Act s (.fallSilent k) { s with silent := upd s.silent k true }
  /-- `Stop` (:329-331) of a connection that has been started, by the user or the reader -/
  | stop {s : State} {k : Nat} : s.conn k ≠ .none → s.conn k ≠ .made → Act s (.stop k) { s with cancelled := upd s.cancelled k true }
  /-- :318-319, :501 -/
  | hook {s : State} {k : Nat} : s.conn k = .up → s.cancelled k = true → Act s (.hook k) { s with conn := upd s.conn k .hook }
  | hookDone {s : State} {k : Nat} : s.conn k = .hook → Act s (.hookDone k) { s with conn := upd s.conn k .quit }
  /-- :505, znet/heartbeat.go:124 and :111 -/
  | quit {s : State} {k j : Nat} : s.conn k = .quit → s.gor j = .select → Act s (.quit k j) { s with conn := upd s.conn k .done, gor := upd s.gor j .gone }
  /-- znet/heartbeat.go:109 -/
  | tick {s : State} {j : Nat} : s.gor j = .select → Act s (.tick j) { s with gor := upd s.gor j .check }
  /-- :142-146; `h.conn` is not nil -/
  | judge {s : State} {j k : Nat} : s.gor j = .check → s.bound = some k → Act s (.judge j) { s with gor := upd s.gor j (if s.alive k then .live else .dead) }
  /-- :147 -/
  | notAlive {s : State} {j k : Nat} : s.gor j = .dead → s.bound = some k → Act s (.notAlive j k) { s with gor := upd s.gor j (.stopping k) }
  /-- znet/heartbeat.go:52, `cancel` is there -/
  | stopped {s : State} {j k : Nat} : s.gor j = .stopping k → s.conn k ≠ .none → s.conn k ≠ .made →
      Act s (.stop k) { s with cancelled := upd s.cancelled k true, gor := upd s.gor j .select }
  /-- znet/heartbeat.go:52, `cancel` is nil (znet/connection.go:330) -/
  | crash {s : State} {j k : Nat} : s.gor j = .stopping k → s.conn k = .none ∨ s.conn k = .made → Act s .crash { s with crashed := true }
  /-- znet/heartbeat.go:149-153 -/
  | beat {s : State} {j k : Nat} : s.gor j = .live → s.bound = some k → Act s (.beat j k) { s with gor := upd s.gor j .select }

/-- A step of a process that has not ended. See `Act`; a panic in a goroutine ends the process (znet/heartbeat.go:118-120). -/
def Step (s : State) (l : Label) (t : State) : Prop := s.crashed = false ∧ Act s l t

end Zinx.HbShare
