import Verif.Model.Aoi

/-!
# What the clients of the multiplayer demo are sent (zinx_app_demo/mmo_game)

The messages about who is where, with the whole positions in them: on arrival, on a move, on departure. The world is that of `Model/Aoi`; operations are
taken one at a time. Sends succeed and keep their order; the protobuf encoding, the pauses of 200 ms between messages and chat (player.go:154-173) are not
modelled.
-/

namespace Zinx.Screen

open Zinx.Aoi

/-- zinx_app_demo/mmo_game/core/player.go:18-21, the position of a player; rationals for `float32`. -/
structure Place where
  x : Rat
  y : Rat
  z : Rat
  v : Rat
deriving DecidableEq, Repr

/-- The two coordinates that decide the grid. zinx_app_demo/mmo_game/core/player.go:183-186. -/
def Place.flat (p : Place) : Rat × Rat := (p.x, p.z)

/-- The world with the whole positions. zinx_app_demo/mmo_game/core/world_manager.go:8-12, player.go:15-22. `place` matters for online players only. -/
structure Scene where
  world : World
  place : Int → Place

/-- A world without players. zinx_app_demo/mmo_game/core/world_manager.go:20-25. -/
def Scene.empty : Scene := ⟨World.empty, fun _ => ⟨0, 0, 0, 0⟩⟩

/-- player.go:190-193 (and 35-42, a new player). -/
def Scene.put (s : Scene) (pid : Int) (p : Place) : Int → Place := fun q => if q = pid then p else s.place q

/-- Messages: 1 (player.go:49-59), 200 with a position, Tp 2 or 4 (:63-83, :104-121, :211-232, :303-342), 201 (:259-287, :375-383), 202 (:127-149). -/
inductive Note where
  | you (pid : Int)
  | here (pid : Int) (p : Place)
  | gone (pid : Int)
  | all (ps : List (Int × Place))
deriving DecidableEq, Repr

/-- A message for the client of player `to`. zinx_app_demo/mmo_game/core/player.go:394-411. -/
structure Sent where
  to : Int
  note : Note
deriving DecidableEq, Repr

/-- How an operation ends: the scene afterwards, what was sent, whether it panicked on the way. zinx_app_demo/mmo_game/core/player.go:177-389. -/
structure Out where
  scene : Scene
  sent : List Sent
  panicked : Bool

/-- aoi.go:145-159 (`GetPIDsByPos`), with the lookups of player.go:90-100 and 351-364; the division by zero of `GetGIDByPos` is accounted for by the callers. -/
def around (m : Mgr) (w : World) (p : Place) : List Int :=
  match gidByPos m p.x p.z with
  | none => []
  | some g => ((surround m g).filterMap id).flatMap fun g => w.members g.gid

/-- zinx_app_demo/mmo_game/server.go:16-43: `SyncPID`, `BroadCastStartPosition`, `AddPlayer`, `SyncSurrounding` (player.go:87-150). -/
def arrive (m : Mgr) (s : Scene) (pid : Int) (p : Place) : Out :=
  let greeting := [⟨pid, .you pid⟩, ⟨pid, .here pid p⟩]
  let r := Aoi.add m s.world pid p.flat
  let s' : Scene := ⟨r.world, s.put pid p⟩
  if r.panicked then ⟨s', greeting, true⟩
  else
    let l := around m s'.world p
    ⟨s', greeting ++ (l.map (⟨·, .here pid p⟩)) ++ [⟨pid, .all (l.map fun q => (q, s'.place q))⟩], false⟩

/-- player.go:274-290: for the players of the grids that are left, 201 both ways. -/
def part (w : World) (pid : Int) (gs : List Grid) : List Sent :=
  gs.flatMap fun g => (w.members g.gid).flatMap fun q => [⟨q, .gone pid⟩, ⟨pid, .gone q⟩]

/-- player.go:303-344: for the players of the grids that are entered, 200 both ways. -/
def meet (s : Scene) (pid : Int) (gs : List Grid) : List Sent :=
  gs.flatMap fun g => (s.world.members g.gid).flatMap fun q => [⟨q, .here pid (s.place pid)⟩, ⟨pid, .here q (s.place q)⟩]

/-- player.go:235-347 (`OnExchangeAoiGrID`). -/
def exchange (m : Mgr) (s : Scene) (pid old new : Int) : List Sent :=
  let o := (surround m old).filterMap id
  let n := (surround m new).filterMap id
  part s.world pid (o.filter fun g => g.gid ∉ n.map (·.gid)) ++ meet s pid (n.filter fun g => g.gid ∉ o.map (·.gid))

/-- player.go:177-233 (`UpdatePos`) for an online player that was at `p0`. -/
def move (m : Mgr) (s : Scene) (pid : Int) (p0 : Rat × Rat) (p : Place) : Out :=
  match gidByPos m p0.1 p0.2, gidByPos m p.x p.z with
  | some old, some new =>
    let r := Aoi.move m s.world pid p0 p.flat
    let s' : Scene := ⟨r.world, s.put pid p⟩
    if r.panicked then ⟨s', [], true⟩
    else ⟨s', (if old = new then [] else exchange m s' pid old new) ++ (around m s'.world p).map (⟨·, .here pid p⟩), false⟩
  | _, _ => ⟨s, [], true⟩

/-- player.go:368-389 (`LostConnection`) for an online player that was at `p0`. -/
def lost (m : Mgr) (s : Scene) (pid : Int) (p0 : Rat × Rat) : Out :=
  let r := Aoi.lost m s.world pid p0
  ⟨⟨r.world, s.place⟩, (around m s.world (s.place pid)).map (⟨·, .gone pid⟩), r.panicked⟩

/-- Operations: a connection is made (server.go:16-43), a position arrives (api/move.go:19-47), a connection is lost (server.go:47-68). -/
inductive Op where
  | arrive (pid : Int) (p : Place)
  | move (pid : Int) (p : Place)
  | lost (pid : Int)

/-- An operation on behalf of a player; as in `Aoi.World.op`, nothing happens for players that are not online, or arrive twice. zinx_app_demo/mmo_game/api/move.go:19-47,
zinx_app_demo/mmo_game/server.go:16-68. -/
def Scene.op (m : Mgr) (s : Scene) : Op → Out
  | .arrive pid p => match s.world.pos pid with
    | none => Screen.arrive m s pid p
    | some _ => ⟨s, [], false⟩
  | .move pid p => match s.world.pos pid with
    | none => ⟨s, [], false⟩
    | some p0 => Screen.move m s pid p0 p
  | .lost pid => match s.world.pos pid with
    | none => ⟨s, [], false⟩
    | some p0 => Screen.lost m s pid p0

end Zinx.Screen
