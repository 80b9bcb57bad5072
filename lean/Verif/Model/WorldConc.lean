import Verif.Model.Sys
import Verif.Model.Aoi

/-!
# Players who arrive, move and leave at the same time (zinx_app_demo/mmo_game)

`Model/Aoi.lean` runs the operations on the world one after the other. Here every player has two goroutines, as in znet: the one of `Connection.Start`, which
runs the two hooks (`OnConnectionAdd`, then, when the connection ends, `OnConnectionLost`), and the worker that runs the `MoveApi` handler for the messages of
that connection, one after the other. Each goroutine is a list of instructions, and one step is one instruction: an access to the table of online players
under its lock, to the set of one grid under the lock of that grid, or to the position of the player, which has no lock.

Simplifications: a position is reduced to the number of its grid, which exists (`C71` says for which positions), and is read and written in one step, although
its coordinates are four fields; messages are not sent, only the nil player to whom one cannot be sent is modelled; the players of one grid are looked up one
after the other also where the code does it under one read lock (world_manager.go:87-91); each player has a worker of its own; player numbers are never used
again (a counter under a lock, player.go:30-33, which wraps around after 2³² players). Chat (api/world_chat.go) only reads the table of online players
under its lock; it is in `Model/Chat.lean`.
-/

namespace Zinx.WorldConc

/-- The two goroutines of a player. -/
inductive Gor where
  /-- znet/connection.go:292-325 with the hooks of zinx_app_demo/mmo_game/server.go:16-68. -/
  | hooks (p : Nat)
  /-- The worker running api/move.go:19-47. -/
  | mover (p : Nat)
deriving DecidableEq, Repr

/-- Whose goroutine it is. Auxiliary. -/
def Gor.owner : Gor → Nat
  | hooks p => p
  | mover p => p

/-- The accesses to shared data. -/
inductive Instr where
  /-- Enter oneself in the table of online players, world_manager.go:32-34. -/
  | online
  /-- Take oneself out of the table, world_manager.go:44-46. -/
  | offline
  /-- Enter oneself in a grid, grid.go:32-37. -/
  | enter (g : Int)
  /-- Take oneself out of a grid, grid.go:40-45. -/
  | exit (g : Int)
  /-- Take oneself out of the grid of one's position, player.go:387: reads the position, then does `exit`. -/
  | exitHere
  /-- Look oneself up in the table, api/move.go:42; if one is not there, `UpdatePos` dereferences nil. -/
  | self
  /-- player.go:183: read the old position, then do the rest of `UpdatePos`. -/
  | go (g : Int)
  /-- player.go:190-193. -/
  | setPos (g : Int)
  /-- aoi.go:145-159: read one's own position, then collect the players of the grids around it and look each up (player.go:87-121 and 351-364). -/
  | look
  /-- Collect the numbers of the players in one grid, grid.go:48-57. -/
  | scan (g : Int)
  /-- Look the collected players up in the table, one by one (player.go:98-100, 359-361, world_manager.go:88-90), and send something to each: a nil player
  is dereferenced in `SendMsg` (player.go:395). -/
  | find
deriving DecidableEq, Repr

/-- What the goroutine that runs the hooks is doing. -/
inductive Stage where
  /-- Not connected yet. -/
  | away
  /-- In `OnConnectionAdd`. -/
  | coming
  /-- Serving the connection. -/
  | here
  /-- In `OnConnectionLost`, or through with it. -/
  | left
  /-- `OnConnectionAdd` panicked: `Start` recovers (connection.go:293-297 of znet) and returns, so that nothing is ever read. -/
  | lostStart
  /-- `OnConnectionLost` panicked, and `Start` returned. -/
  | lostStop
deriving DecidableEq, Repr

/-- What can be seen of a step. zinx_app_demo/mmo_game/server.go:16-68, zinx_app_demo/mmo_game/api/move.go:19-47. -/
inductive Act where
  | arrive (p : Nat) (g : Int)
  | served (p : Nat)
  | move (p : Nat) (g : Int)
  | leave (p : Nat)
  /-- A goroutine does an instruction. -/
  | does (x : Gor) (i : Instr)
  /-- A goroutine dereferences the nil pointer it got when it looked up player `q`. -/
  | panic (x : Gor) (q : Nat)
deriving DecidableEq, Repr

/-- zinx_app_demo/mmo_game/core/world_manager.go:8-12, core/grid.go:9-17, core/player.go:15-22, and the goroutines. -/
structure St where
  /-- `WorldManager.Players`. -/
  online : Nat → Bool := fun _ => false
  /-- The sets `playerIDs` of the grids. -/
  listed : Int → Nat → Bool := fun _ _ => false
  /-- The grid of the position of each player. -/
  pos : Nat → Int := fun _ => 0
  stage : Nat → Stage := fun _ => .away
  code : Gor → List Instr := fun _ => []
  /-- The players collected and not looked up yet. -/
  found : Gor → List Nat := fun _ => []

/-- One goroutine goes on with `c`. Auxiliary. -/
def St.goOn (s : St) (x : Gor) (c : List Instr) : St := { s with code := fun y => if y = x then c else s.code y }

/-- One goroutine keeps the players `b` to look up. Auxiliary. -/
def St.keep (s : St) (x : Gor) (b : List Nat) : St := { s with found := fun y => if y = x then b else s.found y }

/-- Auxiliary. -/
def St.setStage (s : St) (p : Nat) (v : Stage) : St := { s with stage := fun q => if q = p then v else s.stage q }

/-- Auxiliary. -/
def St.setOnline (s : St) (p : Nat) (v : Bool) : St := { s with online := fun q => if q = p then v else s.online q }

/-- Auxiliary. -/
def St.setPos (s : St) (p : Nat) (g : Int) : St := { s with pos := fun q => if q = p then g else s.pos q }

/-- Auxiliary. -/
def St.setListed (s : St) (g : Int) (p : Nat) (v : Bool) : St :=
  { s with listed := fun h q => if h = g ∧ q = p then v else s.listed h q }

/-- The rest of `OnConnectionAdd` from `AddPlayer` on: world_manager.go:29-39 and player.go:87-121. -/
def arriving (g : Int) : List Instr := [.online, .enter g, .look]

/-- player.go:368-389. The player is found at zinx_app_demo/mmo_game/server.go:58 because only this code takes it out of the table. -/
def leaving : List Instr := [.look, .exitHere, .offline]

/-- world_manager.go:79-94 for one grid. -/
def tellGrid (g : Int) : List Instr := [.scan g, .find]

/-- player.go:190-233 after the old position has been read: with the grids of the old neighbourhood not in the new one, then those of the new one not in the
old one (player.go:235-347). -/
def updatePos (near : Int → List Int) (old new : Int) : List Instr :=
  if old = new then [.setPos new, .look] else
  .setPos new :: .exit old :: .enter new ::
    (((near old).filter (· ∉ near new)).flatMap tellGrid ++ ((near new).filter (· ∉ near old)).flatMap tellGrid ++ [.look])

/-- What a panic leaves of a goroutine: the hooks are over, the worker goes on with the next message (msghandler.go:321-325 of znet recovers). -/
def St.crash (s : St) : Gor → St
  | .hooks p => ((s.goOn (.hooks p) []).keep (.hooks p) []).setStage p (if s.stage p = .coming then .lostStart else .lostStop)
  | .mover p => (s.goOn (.mover p) []).keep (.mover p) []

/-- `near g`: the grids around `g` (`Aoi.surround`). -/
inductive Step (near : Int → List Int) : St → Act → St → Prop where
  /-- zinx_app_demo/mmo_game/server.go:20-32: a new player at a position of its own. -/
  | arrive (s : St) (p : Nat) (g : Int) : s.stage p = .away →
      Step near s (.arrive p g) (((s.setStage p .coming).setPos p g).goOn (.hooks p) (arriving g))
  /-- connection.go:315 of znet: messages are read once `OnConnectionAdd` has returned. -/
  | served (s : St) (p : Nat) : s.stage p = .coming → s.code (.hooks p) = [] → Step near s (.served p) (s.setStage p .here)
  /-- A message for `MoveApi`, possibly one received before the connection ended. -/
  | move (s : St) (p : Nat) (g : Int) : (s.stage p = .here ∨ s.stage p = .left ∨ s.stage p = .lostStop) → s.code (.mover p) = [] →
      Step near s (.move p g) (s.goOn (.mover p) [.self, .go g])
  /-- connection.go:318-319 of znet: the connection ends. -/
  | leave (s : St) (p : Nat) : s.stage p = .here →
      Step near s (.leave p) ((s.setStage p .left).goOn (.hooks p) leaving)
  | online (s : St) (x : Gor) (c : List Instr) : s.code x = .online :: c →
      Step near s (.does x .online) ((s.setOnline x.owner true).goOn x c)
  | offline (s : St) (x : Gor) (c : List Instr) : s.code x = .offline :: c →
      Step near s (.does x .offline) ((s.setOnline x.owner false).goOn x c)
  | enter (s : St) (x : Gor) (g : Int) (c : List Instr) : s.code x = .enter g :: c →
      Step near s (.does x (.enter g)) ((s.setListed g x.owner true).goOn x c)
  | exit (s : St) (x : Gor) (g : Int) (c : List Instr) : s.code x = .exit g :: c →
      Step near s (.does x (.exit g)) ((s.setListed g x.owner false).goOn x c)
  | exitHere (s : St) (x : Gor) (c : List Instr) : s.code x = .exitHere :: c →
      Step near s (.does x .exitHere) (s.goOn x (.exit (s.pos x.owner) :: c))
  | self (s : St) (x : Gor) (c : List Instr) : s.code x = .self :: c → s.online x.owner = true →
      Step near s (.does x .self) (s.goOn x c)
  | selfNil (s : St) (x : Gor) (c : List Instr) : s.code x = .self :: c → s.online x.owner = false →
      Step near s (.panic x x.owner) (s.crash x)
  | go (s : St) (x : Gor) (g : Int) (c : List Instr) : s.code x = .go g :: c →
      Step near s (.does x (.go g)) (s.goOn x (updatePos near (s.pos x.owner) g ++ c))
  | setPos (s : St) (x : Gor) (g : Int) (c : List Instr) : s.code x = .setPos g :: c →
      Step near s (.does x (.setPos g)) ((s.setPos x.owner g).goOn x c)
  | look (s : St) (x : Gor) (c : List Instr) : s.code x = .look :: c →
      Step near s (.does x .look) (s.goOn x ((near (s.pos x.owner)).map .scan ++ .find :: c))
  /-- A Go map is iterated in any order. -/
  | scan (s : St) (x : Gor) (g : Int) (c : List Instr) (b : List Nat) : s.code x = .scan g :: c → b.Nodup →
      (∀ q, q ∈ b ↔ s.listed g q = true) →
      Step near s (.does x (.scan g)) ((s.keep x (s.found x ++ b)).goOn x c)
  | find (s : St) (x : Gor) (q : Nat) (b : List Nat) (c : List Instr) : s.code x = .find :: c → s.found x = q :: b → s.online q = true →
      Step near s (.does x .find) (s.keep x b)
  | findNil (s : St) (x : Gor) (q : Nat) (b : List Nat) (c : List Instr) : s.code x = .find :: c → s.found x = q :: b → s.online q = false →
      Step near s (.panic x q) (s.crash x)
  | found (s : St) (x : Gor) (c : List Instr) : s.code x = .find :: c → s.found x = [] →
      Step near s (.does x .find) (s.goOn x c)

/-- No goroutine is in the middle of an operation. Auxiliary. -/
def St.quiet (s : St) : Prop := ∀ x, s.code x = []

/-- The grids around a grid in a world, by number. zinx_app_demo/mmo_game/core/aoi.go (`GetSurroundGrIDsByGID`), see Model/Aoi.lean. -/
def around (m : Aoi.Mgr) (g : Int) : List Int := (Aoi.surround m g).filterMap fun c => c.map (·.gid)

end Zinx.WorldConc
