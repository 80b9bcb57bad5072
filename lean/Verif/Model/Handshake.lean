import Verif.Model.Sys

/-!
# WebSocket handshakes (znet/server.go:316-364)

Any number of handshakes at the same time, numbered, each in a goroutine of the HTTP server. All use one `websocket.Upgrader`, whose `Subprotocols` field they set and read without a lock. Connection limit and
connection IDs are the business of `Model/Accept`; here the limit is reached or not, at will. What the libraries do: `websocket.Subprotocols(r)` is the list of subprotocols in the request;
`Upgrade` selects the first of `upgrader.Subprotocols` that the request offers, and refuses requests that are no proper handshakes. A read of the field while it is written gives the old or the new
list (for the hardware that is an assumption; the Go memory model allows worse).
-/

namespace Zinx.Handshake

variable (P : Type) [DecidableEq P]

/-- A request: the header `Sec-Websocket-Protocol` is not empty; the subprotocols in it; it is a proper handshake. The request of znet/server.go:318. -/
structure Request where
  header : Bool
  offered : List P
  proper : Bool
deriving DecidableEq

/-- How a request is answered: limit reached (lines 321-325; net/http sends status 200), 401 (line 332 of znet/server.go), 500 (:347), or a connection with a subprotocol or none. -/
inductive Outcome where
  | full
  | unauthorized
  | failed
  | upgraded (p : Option P)
deriving DecidableEq

/-- Where a handshake is. Between the steps of znet/server.go:318-358. -/
inductive Pc where
  | idle
  | begun (r : Request P)
  | counted (r : Request P)
  | authorized (r : Request P)
  | set (r : Request P)
  | answered (r : Request P) (o : Outcome P)
  | ended (r : Request P) (o : Outcome P)
deriving DecidableEq

/-- The field of the upgrader (znet/server.go:340) and the handshakes. -/
structure State where
  /-- `s.upgrader.Subprotocols`; nil is empty here -/
  subs : List P := []
  pc : Nat → Pc P := fun _ => .idle

variable {P}

/-- Auxiliary; no code of zinx. -/
def State.goto (s : State P) (i : Nat) (p : Pc P) : State P := { s with pc := fun j => if j = i then p else s.pc j }

/-- The steps of znet/server.go:318-358. -/
inductive Label (P : Type) where
  | request (i : Nat) (r : Request P)
  | count (i : Nat)
  | auth (i : Nat)
  | setSubs (i : Nat)
  | answer (i : Nat) (o : Outcome P)
  /-- `newWebsocketConn` and `StartConn` (znet/server.go:354-356) -/
  | connect (i : Nat)
deriving DecidableEq

/-- `selectSubprotocol` of the library. Called in `Upgrade` (znet/server.go:344). -/
def select (subs offered : List P) : Option P := subs.find? (· ∈ offered)

/-- `auth`: `websocketAuth`, or none. The lines named below are those of znet/server.go. -/
inductive Step (auth : Option (Request P → Bool)) : State P → Label P → State P → Prop where
  | request (s : State P) (i : Nat) (r : Request P) : s.pc i = .idle → (r.header = false → r.offered = []) → Step auth s (.request i r) (s.goto i (.begun r))
  /-- lines 321-325 -/
  | full (s : State P) (i : Nat) (r : Request P) : s.pc i = .begun r → Step auth s (.answer i .full) (s.goto i (.answered r .full))
  | count (s : State P) (i : Nat) (r : Request P) : s.pc i = .begun r → Step auth s (.count i) (s.goto i (.counted r))
  /-- line 328 -/
  | noAuth (s : State P) (i : Nat) (r : Request P) : s.pc i = .counted r → auth = none → Step auth s (.auth i) (s.goto i (.authorized r))
  /-- line 329 -/
  | auth (s : State P) (i : Nat) (r : Request P) (f : Request P → Bool) : s.pc i = .counted r → auth = some f → f r = true → Step auth s (.auth i) (s.goto i (.authorized r))
  /-- lines 330-335 -/
  | denied (s : State P) (i : Nat) (r : Request P) (f : Request P → Bool) : s.pc i = .counted r → auth = some f → f r = false →
      Step auth s (.answer i .unauthorized) (s.goto i (.answered r .unauthorized))
  /-- lines 339-341 -/
  | setSubs (s : State P) (i : Nat) (r : Request P) : s.pc i = .authorized r →
      Step auth s (.setSubs i) { (s.goto i (.set r)) with subs := if r.header then r.offered else s.subs }
  /-- line 344 -/
  | upgrade (s : State P) (i : Nat) (r : Request P) : s.pc i = .set r → r.proper = true →
      Step auth s (.answer i (.upgraded (select s.subs r.offered))) (s.goto i (.answered r (.upgraded (select s.subs r.offered))))
  /-- lines 345-350 -/
  | failed (s : State P) (i : Nat) (r : Request P) : s.pc i = .set r → r.proper = false → Step auth s (.answer i .failed) (s.goto i (.answered r .failed))
  /-- lines 354-356 -/
  | connect (s : State P) (i : Nat) (r : Request P) (p : Option P) : s.pc i = .answered r (.upgraded p) → Step auth s (.connect i) (s.goto i (.ended r (.upgraded p)))

end Zinx.Handshake
