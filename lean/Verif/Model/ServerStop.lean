import Verif.Model.Fair

/-!
# Stopping a server (znet/server.go)

The goroutines are: whoever calls `Stop`, the one that listens (`ListenTcpConn`, `ListenKcpConn`), those that accept, those that look at the shards of the connection manager for `ClearConn`, those that start and
finalize connections, and the one in `Serve`. `Stop` is called once; what becomes of further calls and of starting again is `Model/ServerCycle.lean`.

* `ClearConn` looks at each shard of the manager under the lock of that shard, at different times (zutils/shard_lock_map.go:169-187); the contents of a shard at that time are one action. It then stops the connections it has
  seen, in any order (zutils/shard_lock_map.go:190-215, znet/connmanager.go:66-73). By the time it stops the first it has looked at all shards (zutils/shard_lock_map.go:187).
* A connection is taken from the listener, entered into the manager (by the constructor, znet/connection.go:156), started (its `cancel` is set) and, when it is stopped or ends by itself, finalized. The stop hook returns.
* `Serve` waits for a signal and returns (znet/server.go:463-471). Whether the process goes on afterwards is not described: it may, as long as `main` does not return.
-/

namespace Zinx.ServerStop

/-- `zconf.GlobalObject.Mode` (znet/server.go:437-447): the default is TCP and WebSocket together. -/
inductive Mode where
  | tcp
  | ws
  | kcp
  | both
deriving DecidableEq

structure Cfg where
  mode : Mode
  /-- number of shards: 32 (zutils/shard_lock_map.go:8) -/
  shards : Nat
  /-- the shard a connection is kept in (zutils/shard_lock_map.go:45-47) -/
  shard : Nat → Nat
  /-- does the connection come by WebSocket? -/
  web : Nat → Bool

/-- Does a goroutine wait for the exit channel? `ListenTcpConn` (znet/server.go:307-308) and `ListenKcpConn` (:412-413) do, `ListenWebsocketConn` (:316-364) does not. -/
def Mode.listens : Mode → Bool
  | .ws => false
  | _ => true

/-- A connection: unknown; taken from the listener (znet/server.go:284, 344, 388); in the manager (:301, 355, 407), not started; started (`cancel` is set, znet/connection.go:298); stopped; its stop hook has run
(znet/connection.go:501); closed and gone from the manager (:509-514). -/
inductive Conn where
  | absent
  | accepted
  | created
  | started
  | cancelled
  | hooked
  | removed
deriving DecidableEq

/-- The listening goroutine: before the `select`; in it; closing the listener; returned. znet/server.go:238-314, :366-419. -/
inductive Listener where
  | starting
  | waiting
  | closing
  | done
deriving DecidableEq

/-- `Stop`: not called; in `ClearConn` with these shards to look at and these connections seen; with these connections to stop; at znet/server.go:458; at :459; returned; panicked. -/
inductive Stopper where
  | idle
  | looking (left seen : List Nat)
  | clearing (todo : List Nat)
  | send
  | close
  | returned
  | panicked
deriving DecidableEq

/-- The goroutines named at the head of the file, in znet/server.go:238-471. -/
structure State where
  conns : Nat → Conn := fun _ => .absent
  listener : Listener := .starting
  stopper : Stopper := .idle
  /-- `Serve` has returned -/
  served : Bool := false

/-- The actions of znet/server.go:238-471. -/
inductive Label where
  | accept (c : Nat)
  | register (c : Nat)
  | start (c : Nat)
  | drop (c : Nat)
  | hook (c : Nat)
  | finalize (c : Nat)
  | listen
  | callStop
  | look (k : Nat)
  | seen
  | stop (c : Nat)
  | cleared
  | sendExit
  | closeExit
  | signal
deriving DecidableEq

/-- Auxiliary; no code of zinx. -/
def upd (f : Nat → Conn) (c : Nat) (v : Conn) : Nat → Conn := fun d => if d = c then v else f d

/-- In the manager. znet/connmanager.go:22-27. -/
def Conn.present : Conn → Bool
  | .created | .started | .cancelled | .hooked => true
  | _ => false

/-- Can a connection be taken from its listener? The WebSocket listener is never closed (znet/server.go:316-364). A KCP listener may hand out a connection it had accepted before it was closed (library). -/
def Cfg.open (cfg : Cfg) (s : State) (c : Nat) : Prop :=
  match cfg.mode, cfg.web c with
  | .tcp, false | .both, false => s.listener ≠ .done
  | .kcp, false => True
  | .ws, true | .both, true => True
  | _, _ => False

inductive Step (cfg : Cfg) : State → Label → State → Prop where
  /-- znet/server.go:284, 344, 388 -/
  | accept {s : State} (c : Nat) : s.conns c = .absent → cfg.open s c → Step cfg s (.accept c) { s with conns := upd s.conns c .accepted }
  /-- znet/server.go:301, 355, 407; znet/connection.go:156, znet/ws_connection.go:149, znet/kcp_connection.go:154 -/
  | register {s : State} (c : Nat) : s.conns c = .accepted → Step cfg s (.register c) { s with conns := upd s.conns c .created }
  /-- znet/server.go:303, 356, 409, 235; znet/connection.go:298 -/
  | start {s : State} (c : Nat) : s.conns c = .created → Step cfg s (.start c) { s with conns := upd s.conns c .started }
  /-- the connection ends by itself (znet/connection.go:230) -/
  | drop {s : State} (c : Nat) : s.conns c = .started → Step cfg s (.drop c) { s with conns := upd s.conns c .cancelled }
  /-- znet/connection.go:501 -/
  | hook {s : State} (c : Nat) : s.conns c = .cancelled → Step cfg s (.hook c) { s with conns := upd s.conns c .hooked }
  /-- znet/connection.go:503-514 -/
  | finalize {s : State} (c : Nat) : s.conns c = .hooked → Step cfg s (.finalize c) { s with conns := upd s.conns c .removed }
  /-- the listening goroutine gets to its `select` -/
  | listen {s : State} : cfg.mode.listens = true → s.listener = .starting → Step cfg s .listen { s with listener := .waiting }
  /-- `listener.Close` (znet/server.go:309, 414) -/
  | closeListener {s : State} : s.listener = .closing → Step cfg s .listen { s with listener := .done }
  /-- `Stop` is called (znet/server.go:452-457) -/
  | callStop {s : State} : s.stopper = .idle → Step cfg s .callStop { s with stopper := .looking (List.range cfg.shards) [] }
  /-- a shard is looked at (zutils/shard_lock_map.go:174-180) -/
  | look {s : State} (k : Nat) (left seen cs : List Nat) : s.stopper = .looking left seen → k ∈ left → (∀ c, c ∈ cs ↔ cfg.shard c = k ∧ (s.conns c).present = true) →
      Step cfg s (.look k) { s with stopper := .looking (left.erase k) (seen ++ cs) }
  /-- zutils/shard_lock_map.go:187 -/
  | seen {s : State} (seen : List Nat) : s.stopper = .looking [] seen → Step cfg s .seen { s with stopper := .clearing seen }
  /-- `conn.Stop()` (znet/connmanager.go:71; znet/connection.go:330): calling `cancel` when it is nil panics -/
  | stopNil {s : State} (c : Nat) (cs : List Nat) : s.stopper = .clearing cs → c ∈ cs → s.conns c = .created → Step cfg s (.stop c) { s with stopper := .panicked }
  | stopConn {s : State} (c : Nat) (cs : List Nat) : s.stopper = .clearing cs → c ∈ cs → s.conns c = .started →
      Step cfg s (.stop c) { s with stopper := .clearing (cs.erase c), conns := upd s.conns c .cancelled }
  | stopAgain {s : State} (c : Nat) (cs : List Nat) : s.stopper = .clearing cs → c ∈ cs → s.conns c ≠ .created → s.conns c ≠ .started →
      Step cfg s (.stop c) { s with stopper := .clearing (cs.erase c) }
  /-- znet/connmanager.go:66-76: the end of the loop -/
  | cleared {s : State} : s.stopper = .clearing [] → Step cfg s .cleared { s with stopper := .send }
  /-- znet/server.go:458, unbuffered: only together with the listening goroutine -/
  | sendExit {s : State} : s.stopper = .send → s.listener = .waiting → Step cfg s .sendExit { s with stopper := .close, listener := .closing }
  /-- znet/server.go:459 -/
  | closeExit {s : State} : s.stopper = .close → Step cfg s .closeExit { s with stopper := .returned }
  /-- znet/server.go:463-471: `Serve` returns when a signal comes -/
  | signal {s : State} : s.served = false → Step cfg s .signal { s with served := true }

end Zinx.ServerStop
