import Verif.Model.Fair

/-!
# Starting and stopping a server again (znet/server.go)

`Start` makes a new exit channel and starts the goroutine that listens; `Stop` sends on the exit channel and closes it. One goroutine calls both, in any order. What `Stop` does before, with the connections, is
`Model/ServerStop.lean`.

* TCP alone or KCP alone; with WebSocket alone `Stop` does not return (C66_ws_refuted), and a second start of a server that listens for WebSocket connections panics in `http.HandleFunc` (C94_restart_refuted).
* The number of a start is the number of its exit channel, its listening goroutine and its accepting goroutine; channel 0 is nil. Worker goroutines are left out.
* The address and the certificate are good; listening fails if the port is taken, and only an earlier listener of this server takes it.
* `Accept` on a closed listener fails: for TCP with `net.ErrClosed`, for KCP with an error too (library). The wait at the connection limit (lines 277-281, 381-385) and connections are left out.
* A panic that is not recovered ends the process (`dead`).
-/

namespace Zinx.ServerCycle

/-- The modes of znet/server.go:437-447 treated here. -/
inductive Mode where
  | tcp
  | kcp
deriving DecidableEq

/-- The goroutine that listens, `ListenTcpConn` or `ListenKcpConn` (znet/server.go:238-314, 366-419): not started; before it listens; listening, before the `select`; in the `select` with the exit channel it has read; closing the listener; returned after that; returned since it could not listen. -/
inductive Lis where
  | none
  | starting
  | bound
  | waiting (ch : Nat)
  | closing
  | done
  | failed
deriving DecidableEq

/-- The goroutine that accepts (znet/server.go:273-306, 377-411): not started, in its loop, returned. -/
inductive Acc where
  | none
  | running
  | ended
deriving DecidableEq

/-- The goroutine that calls `Start` and `Stop`: outside; at znet/server.go:458, at line 459, with the exit channel it has read. -/
inductive Caller where
  | idle
  | sending (ch : Nat)
  | closing (ch : Nat)
deriving DecidableEq

/-- `gen` counts the starts and is the number of `s.exitChan` (znet/server.go:424); `port` is the listener that holds the port. -/
structure State where
  gen : Nat := 0
  closed : Nat → Bool := fun _ => false
  lis : Nat → Lis := fun _ => .none
  acc : Nat → Acc := fun _ => .none
  port : Option Nat := .none
  caller : Caller := .idle
  dead : Bool := false

/-- What can happen; the number is that of the start. znet/server.go:238-460. -/
inductive Label where
  | start
  | callStop
  | handOver (g : Nat)
  | stopReturns
  | listen (g : Nat)
  | select (g : Nat)
  | wake (g : Nat)
  | closeListener (g : Nat)
  | acceptErr (g : Nat)
deriving DecidableEq

/-- A function changed at one place. Auxiliary; no code of zinx. -/
def upd {α : Type} (f : Nat → α) (i : Nat) (a : α) : Nat → α := fun j => if j = i then a else f j

/-- The steps of znet/server.go:238-460. -/
inductive Step (mode : Mode) : State → Label → State → Prop where
  /-- znet/server.go:423-447 -/
  | start {s : State} : s.dead = false → s.caller = .idle → Step mode s .start { s with gen := s.gen + 1, lis := upd s.lis (s.gen + 1) .starting }
  /-- znet/server.go:266, 369 -/
  | listen {s : State} (g : Nat) : s.dead = false → s.lis g = .starting → s.port = none → Step mode s (.listen g) { s with port := some g, lis := upd s.lis g .bound, acc := upd s.acc g .running }
  /-- znet/server.go:267-269: a panic in a goroutine ends the process -/
  | listenDies {s : State} (g : Nat) : mode = .tcp → s.dead = false → s.lis g = .starting → s.port ≠ none → Step mode s (.listen g) { s with dead := true }
  /-- znet/server.go:370-373 -/
  | listenFails {s : State} (g : Nat) : mode = .kcp → s.dead = false → s.lis g = .starting → s.port ≠ none → Step mode s (.listen g) { s with lis := upd s.lis g .failed }
  /-- znet/server.go:307-308, 412-413 -/
  | select {s : State} (g : Nat) : s.dead = false → s.lis g = .bound → Step mode s (.select g) { s with lis := upd s.lis g (.waiting s.gen) }
  /-- znet/server.go:452-458, up to the send -/
  | callStop {s : State} : s.dead = false → s.caller = .idle → s.closed s.gen = false → Step mode s .callStop { s with caller := .sending s.gen }
  /-- znet/server.go:458, with a channel that is closed already: a panic -/
  | callStopDies {s : State} : s.dead = false → s.caller = .idle → s.closed s.gen = true → Step mode s .callStop { s with dead := true }
  /-- znet/server.go:458 and 308, 413: the channel has no buffer -/
  | handOver {s : State} (g ch : Nat) : s.dead = false → s.caller = .sending ch → s.lis g = .waiting ch → ch ≠ 0 → Step mode s (.handOver g) { s with caller := .closing ch, lis := upd s.lis g .closing }
  /-- znet/server.go:459 -/
  | stopReturns {s : State} (ch : Nat) : s.dead = false → s.caller = .closing ch → Step mode s .stopReturns { s with caller := .idle, closed := upd s.closed ch true }
  /-- znet/server.go:308, 413: another goroutine that waits on the channel sees that it is closed -/
  | wake {s : State} (g ch : Nat) : s.dead = false → s.lis g = .waiting ch → s.closed ch = true → Step mode s (.wake g) { s with lis := upd s.lis g .closing }
  /-- znet/server.go:309, 414 -/
  | closeListener {s : State} (g : Nat) : s.dead = false → s.lis g = .closing → Step mode s (.closeListener g) { s with lis := upd s.lis g .done, port := none }
  /-- znet/server.go:284-290: the goroutine returns -/
  | acceptEnds {s : State} (g : Nat) : mode = .tcp → s.dead = false → s.acc g = .running → s.lis g = .done → Step mode s (.acceptErr g) { s with acc := upd s.acc g .ended }
  /-- znet/server.go:388-393: it tries again -/
  | acceptAgain {s : State} (g : Nat) : mode = .kcp → s.dead = false → s.acc g = .running → s.lis g = .done → Step mode s (.acceptErr g) s

end Zinx.ServerCycle
