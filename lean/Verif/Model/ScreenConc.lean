import Verif.Model.Screen

/-!
# Moves handled at the same time (zinx_app_demo/mmo_game)

`Model/Screen` takes the operations one after the other. The server handles messages of connections with different workers at the same time. Here a move is a
list of instructions, one for each access to shared data under its lock and one for each message sent, and a schedule says whose instruction is next. Positions
are read and written in one step although they are four fields without a lock. Players neither arrive nor leave meanwhile (see `Model/WorldConc` for that), and
each has a worker of its own.
-/

namespace Zinx.Screen

open Zinx.Aoi

/-- Instructions of `UpdatePos`, zinx_app_demo/mmo_game/core/player.go:177-347. -/
inductive Instr where
  /-- :190-193. -/
  | place (p : Place)
  /-- :200, aoi.go:170-172. -/
  | exit (g : Int)
  /-- :204, aoi.go:176-178. -/
  | enter (g : Int)
  /-- :275, the players of a grid that is left (world_manager.go:79-94). -/
  | part (g : Int)
  /-- :319, the players of a grid that is entered. -/
  | meet (g : Int) (p : Place)
  /-- :328-339, reading the place of another player. -/
  | ask (q : Int)
  /-- Sending a message, :280, :287, :324, :342, :231. -/
  | say (to : Int) (n : Note)
  /-- :226, collecting the players of the grids around, one grid after the other (aoi.go:145-159); then a message to each (:230-232). -/
  | scan (gs : List Int) (got : List Int) (p : Place)
deriving DecidableEq, Repr

/-- The scene, and what each player's worker has still to do. zinx_app_demo/mmo_game/core/player.go:177-347. -/
structure Multi where
  scene : Scene
  code : Int → List Instr

/-- One worker goes on with `c`. Auxiliary. -/
def Multi.goOn (s : Multi) (pid : Int) (c : List Instr) : Multi := { s with code := fun q => if q = pid then c else s.code q }

/-- The instructions of `UpdatePos` after the two grids have been computed (player.go:183-186). -/
def moveCode (m : Mgr) (old new : Int) (p : Place) : List Instr :=
  let o := ((surround m old).filterMap id)
  let n := ((surround m new).filterMap id)
  .place p :: ((if old = new then [] else
    .exit old :: .enter new :: ((o.filter fun g => g.gid ∉ n.map (·.gid)).map fun g => .part g.gid) ++
      ((n.filter fun g => g.gid ∉ o.map (·.gid)).map fun g => .meet g.gid p)) ++ [.scan (n.map (·.gid)) [] p])

/-- What a worker's next instruction does: the state afterwards, what was sent. A grid that does not exist is a nil dereference (aoi.go:171, :177), after which the
handler is over (znet/msghandler.go:321-325). zinx_app_demo/mmo_game/core/player.go:177-347. -/
def Multi.exec (m : Mgr) (s : Multi) (pid : Int) : Multi × List Sent :=
  match s.code pid with
  | [] => (s, [])
  | .place p :: c => ({ s with scene := ⟨s.scene.world.setPos pid (some p.flat), s.scene.put pid p⟩ }.goOn pid c, [])
  | .exit g :: c =>
    if m.grids g = none then (s.goOn pid [], [])
    else ({ s with scene := ⟨s.scene.world.removeFrom pid g, s.scene.place⟩ }.goOn pid c, [])
  | .enter g :: c =>
    if m.grids g = none then (s.goOn pid [], [])
    else ({ s with scene := ⟨s.scene.world.addTo pid g, s.scene.place⟩ }.goOn pid c, [])
  | .part g :: c => (s.goOn pid ((s.scene.world.members g).flatMap (fun q => [.say q (.gone pid), .say pid (.gone q)]) ++ c), [])
  | .meet g p :: c => (s.goOn pid ((s.scene.world.members g).flatMap (fun q => [.say q (.here pid p), .ask q]) ++ c), [])
  | .ask q :: c => (s.goOn pid (.say pid (.here q (s.scene.place q)) :: c), [])
  | .say r n :: c => (s.goOn pid c, [⟨r, n⟩])
  | .scan [] got p :: c => (s.goOn pid (got.map (fun q => .say q (.here pid p)) ++ c), [])
  | .scan (g :: gs) got p :: c => (s.goOn pid (.scan gs (got ++ s.scene.world.members g) p :: c), [])

/-- What happens next: a worker takes a move of its player (api/move.go:19-47, for an online player), or goes on with the one it has taken. -/
inductive Turn where
  | take (pid : Int) (p : Place)
  | next (pid : Int)
deriving DecidableEq, Repr

/-- zinx_app_demo/mmo_game/api/move.go:19-47, core/player.go:177-347. A worker that is busy takes nothing; a division by zero in `GetGIDByPos` ends the handler. -/
def Multi.turn (m : Mgr) (s : Multi) : Turn → Multi × List Sent
  | .take pid p => match s.code pid, s.scene.world.pos pid with
    | [], some p0 => match gidByPos m p0.1 p0.2, gidByPos m p.x p.z with
      | some old, some new => (s.goOn pid (moveCode m old new p), [])
      | _, _ => (s, [])
    | _, _ => (s, [])
  | .next pid => s.exec m pid

end Zinx.Screen
