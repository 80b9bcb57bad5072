import Verif.Model.Fair

/-!
# Starting and stopping a client (znet/client.go; line numbers are those of this file)

One user goroutine calls `Start`, `Restart` and `Stop`; every start runs a goroutine that dials. The environment decides whether dialling succeeds and whether somebody receives from the error channel.

* The channel made by the `k`-th start, its goroutine and its connection have number `k`.
* The decoder added by `Start` (lines 202-204) is C19. The heartbeat checker is left out.
* The connection is represented by its `cancel` function: nil until `Start` of the connection has run (znet/connection.go:298, 329-331), then usable any number of times. It may also end by itself.
* Unbuffered channels: a send and a receive happen together. A send on a nil channel blocks for ever.
-/

namespace Zinx.Client

/-- The goroutine of `Restart` (znet/client.go:118-194): not started; dialling; dialling failed (lines 140, 160, 168); the connection is made (lines 144, 173); it is set (line 177), going to start it (line 188);
before the `select` (line 190); receiving from exit channel `c` (line 191); returned after a failure; returned after the exit; panicked. -/
inductive GPc where
  | none
  | dialing
  | failed
  | made
  | bound
  | eval
  | waiting (c : Nat)
  | gaveUp
  | exited
  | crashed
deriving DecidableEq

/-- A connection: not made; made, `cancel` is nil; running; stopped. znet/connection.go:163-189, :298, :329-331. -/
inductive CPc where
  | none
  | made
  | running
  | stopped
deriving DecidableEq

/-- The user: not in a call; in `Stop` before `con.Stop()` (lines 247-251); before line 252; sending on exit channel `c`, or on nil; at lines 253 and 254; panicked. znet/client.go:246-255. -/
inductive UPc where
  | idle
  | conn
  | eval
  | send (c : Option Nat)
  | close
  | closeErr
  | crashed
deriving DecidableEq

/-- znet/client.go:18-53 (`exitChan`, `ErrChan`, `conn`), the goroutines, the connections. -/
structure State where
  /-- number of starts so far -/
  n : Nat := 0
  /-- field `exitChan` -/
  exit : Option Nat := none
  closed : Nat → Bool := fun _ => false
  /-- `ErrChan` is closed -/
  errClosed : Bool := false
  /-- field `conn` -/
  conn : Option Nat := none
  g : Nat → GPc := fun _ => .none
  c : Nat → CPc := fun _ => .none
  u : UPc := .idle

/-- The steps of znet/client.go:115-207, :246-255; each is explained at `Step`. -/
inductive Label where
  /-- the user calls `Start` or `Restart` -/
  | restart
  | dialOk (k : Nat)
  | dialFail (k : Nat)
  /-- somebody receives the error of goroutine `k` -/
  | errRecv (k : Nat)
  /-- goroutine `k` panics -/
  | errPanic (k : Nat)
  /-- an inner step of goroutine `k` -/
  | own (k : Nat)
  /-- `Start` of connection `k` makes its context -/
  | connStart (k : Nat)
  /-- connection `k` ends by itself -/
  | connEnd (k : Nat)
  /-- the user calls `Stop` -/
  | stop
  /-- an inner step of `Stop` -/
  | user
  /-- goroutine `k` receives what `Stop` sends -/
  | meet (k : Nat)
  /-- goroutine `k` finds the exit channel closed -/
  | exit (k : Nat)
  /-- `Stop` returns -/
  | ret
  /-- `Stop` panics -/
  | panic
deriving DecidableEq

/-- Change of a table at one point. Auxiliary. -/
def set {α : Type} (f : Nat → α) (i : Nat) (v : α) : Nat → α := fun j => if j = i then v else f j

inductive Step : State → Label → State → Prop where
  /-- lines 115-118, 199-207 -/
  | restart (s : State) : s.u = .idle → Step s .restart { s with n := s.n + 1, exit := some s.n, g := set s.g s.n .dialing }
  /-- lines 128-173 -/
  | dialOk (s : State) (k : Nat) : s.g k = .dialing → Step s (.dialOk k) { s with g := set s.g k .made, c := set s.c k .made }
  | dialFail (s : State) (k : Nat) : s.g k = .dialing → Step s (.dialFail k) { s with g := set s.g k .failed }
  /-- lines 140-141, 160-161, 168-169 -/
  | errRecv (s : State) (k : Nat) : s.g k = .failed → s.errClosed = false → Step s (.errRecv k) { s with g := set s.g k .gaveUp }
  | errPanic (s : State) (k : Nat) : s.g k = .failed → s.errClosed = true → Step s (.errPanic k) { s with g := set s.g k .crashed }
  /-- line 177 -/
  | setConn (s : State) (k : Nat) : s.g k = .made → Step s (.own k) { s with conn := some k, g := set s.g k .bound }
  /-- line 188 -/
  | spawn (s : State) (k : Nat) : s.g k = .bound → Step s (.own k) { s with g := set s.g k .eval }
  /-- znet/connection.go:298 -/
  | connStart (s : State) (k : Nat) : (s.g k = .eval ∨ (∃ c, s.g k = .waiting c) ∨ s.g k = .exited) → s.c k = .made → Step s (.connStart k) { s with c := set s.c k .running }
  | connEnd (s : State) (k : Nat) : s.c k = .running → Step s (.connEnd k) { s with c := set s.c k .stopped }
  /-- line 191 -/
  | eval (s : State) (k c : Nat) : s.g k = .eval → s.exit = some c → Step s (.own k) { s with g := set s.g k (.waiting c) }
  | exit (s : State) (k c : Nat) : s.g k = .waiting c → s.closed c = true → Step s (.exit k) { s with g := set s.g k .exited }
  /-- line 246 -/
  | stop (s : State) : s.u = .idle → Step s .stop { s with u := .conn }
  /-- lines 247-251 -/
  | noConn (s : State) : s.u = .conn → s.conn = none → Step s .user { s with u := .eval }
  | connStop (s : State) (k : Nat) : s.u = .conn → s.conn = some k → s.c k ≠ .made → Step s .user { s with c := set s.c k .stopped, u := .eval }
  | connPanic (s : State) (k : Nat) : s.u = .conn → s.conn = some k → s.c k = .made → Step s .panic { s with u := .crashed }
  /-- line 252 -/
  | ueval (s : State) : s.u = .eval → Step s .user { s with u := .send s.exit }
  | meet (s : State) (k c : Nat) : s.u = .send (some c) → s.closed c = false → s.g k = .waiting c → Step s (.meet k) { s with u := .close, g := set s.g k .exited }
  | sendPanic (s : State) (c : Nat) : s.u = .send (some c) → s.closed c = true → Step s .panic { s with u := .crashed }
  /-- line 253 -/
  | close (s : State) (c : Nat) : s.u = .close → s.exit = some c → s.closed c = false → Step s .user { s with closed := set s.closed c true, u := .closeErr }
  | closePanic (s : State) (c : Nat) : s.u = .close → s.exit = some c → s.closed c = true → Step s .panic { s with u := .crashed }
  /-- line 254 -/
  | ret (s : State) : s.u = .closeErr → s.errClosed = false → Step s .ret { s with errClosed := true, u := .idle }
  | retPanic (s : State) : s.u = .closeErr → s.errClosed = true → Step s .panic { s with u := .crashed }

end Zinx.Client
