import Verif.Model.Sys

/-!
# World chat (zinx_app_demo/mmo_game/api/world_chat.go, core/player.go:154-173, core/world_manager.go)

A player who says something sends a message, which the worker of its connection hands to `WorldChatApi.Handle`. The handler looks the player up in the table of online
players, takes all players out of the table under the read lock, and sends the line to one after the other.

Simplifications: lines are numbered by speaker, in the order in which the worker takes them (for one connection that is the order in which they were sent, C27); a send to a
connection that is not closed puts the line on the way to that player (`Connection.SendMsg`, znet/connection.go:435-454; it takes as long as it takes, so it is a step of its own),
a send to a closed one fails, which `Player.SendMsg` only reports (player.go:394-420); messages that cannot be decoded do nothing and are left out, and so are the other messages of the game (`Model/WorldConc`).
-/

namespace Zinx.Chat

/-- The `n`-th line of player `who`. A message of zinx_app_demo/mmo_game/api/world_chat.go:19-27. -/
structure Line where
  who : Nat
  n : Nat
deriving DecidableEq, Repr

/-- What a worker does. -/
inductive Job where
  | idle
  /-- In `Handle`, before the player is looked up (world_chat.go:40). -/
  | begun (x : Line)
  /-- In `Talk`, before the table is read (player.go:166). -/
  | found (x : Line)
  /-- In the loop over the players (player.go:170-172). -/
  | telling (x : Line) (rest : List Nat)
deriving DecidableEq, Repr

/-- zinx_app_demo/mmo_game/core/world_manager.go:8-12 (`Players`), the connections and the workers. -/
structure State where
  /-- Players who have been in the table. -/
  came : Nat → Bool
  /-- `WorldManager.Players`. -/
  online : List Nat
  /-- Connections that have been closed. -/
  closed : Nat → Bool
  job : Nat → Job
  /-- Lines of each player taken so far. -/
  said : Nat → Nat

inductive Label where
  | join (q : Nat)
  | close (q : Nat)
  | quit (q : Nat)
  | say (w : Nat) (x : Line)
  | find (w : Nat) (x : Line)
  /-- The handler dereferences the nil pointer it found; the worker recovers (znet/msghandler.go:321-325). -/
  | nobody (w : Nat) (x : Line)
  | snap (w : Nat) (x : Line) (b : List Nat)
  | tell (w : Nat) (x : Line) (q : Nat)
  | miss (w : Nat) (x : Line) (q : Nat)
  | done (w : Nat) (x : Line)
deriving DecidableEq, Repr

/-- Change of a table at one point. Auxiliary. -/
def upd {α : Type} (f : Nat → α) (k : Nat) (v : α) : Nat → α := fun j => if j = k then v else f j

/-- `wid p`: the worker of the connection of player `p` (znet/msghandler.go:162-217). -/
inductive Step (wid : Nat → Nat) : State → Label → State → Prop where
  /-- world_manager.go:32-34, in `OnConnectionAdd` (zinx_app_demo/mmo_game/server.go:32); player numbers are not used again (player.go:30-33). -/
  | join (s : State) (q : Nat) (h : s.came q = false) : Step wid s (.join q) { s with came := upd s.came q true, online := s.online ++ [q] }
  /-- The connection of the player is closed. -/
  | close (s : State) (q : Nat) (h : s.came q = true) : Step wid s (.close q) { s with closed := upd s.closed q true }
  /-- world_manager.go:44-46, in `OnConnectionLost` (zinx_app_demo/mmo_game/server.go:47-68, player.go:388). -/
  | quit (s : State) (q : Nat) (h : q ∈ s.online) : Step wid s (.quit q) { s with online := s.online.erase q }
  /-- The worker takes the next message of player `p` and calls the handler (znet/msghandler.go:420-440). Messages are read once `OnConnectionAdd` has returned (znet/connection.go:302-315). -/
  | say (s : State) (p : Nat) (hc : s.came p = true) (h : s.job (wid p) = .idle) :
      Step wid s (.say (wid p) ⟨p, s.said p⟩) { s with job := upd s.job (wid p) (.begun ⟨p, s.said p⟩), said := upd s.said p (s.said p + 1) }
  /-- world_chat.go:40, world_manager.go:51-56. -/
  | find (s : State) (w : Nat) (x : Line) (h : s.job w = .begun x) (ho : x.who ∈ s.online) : Step wid s (.find w x) { s with job := upd s.job w (.found x) }
  | nobody (s : State) (w : Nat) (x : Line) (h : s.job w = .begun x) (ho : x.who ∉ s.online) : Step wid s (.nobody w x) { s with job := upd s.job w .idle }
  /-- world_manager.go:60-75: a Go map is iterated in any order. -/
  | snap (s : State) (w : Nat) (x : Line) (b : List Nat) (h : s.job w = .found x) (hb : b.Perm s.online) : Step wid s (.snap w x b) { s with job := upd s.job w (.telling x b) }
  /-- player.go:171. -/
  | tell (s : State) (w : Nat) (x : Line) (q : Nat) (b : List Nat) (h : s.job w = .telling x (q :: b)) (ho : s.closed q = false) :
      Step wid s (.tell w x q) { s with job := upd s.job w (.telling x b) }
  | miss (s : State) (w : Nat) (x : Line) (q : Nat) (b : List Nat) (h : s.job w = .telling x (q :: b)) (ho : s.closed q = true) :
      Step wid s (.miss w x q) { s with job := upd s.job w (.telling x b) }
  | done (s : State) (w : Nat) (x : Line) (h : s.job w = .telling x []) : Step wid s (.done w x) { s with job := upd s.job w .idle }

/-- Nobody is there yet. zinx_app_demo/mmo_game/core/world_manager.go:20-25. -/
def init : State := { came := fun _ => false, online := [], closed := fun _ => false, job := fun _ => .idle, said := fun _ => 0 }

end Zinx.Chat
