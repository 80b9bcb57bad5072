import Verif.Model.Basic

/-!
# Area-of-interest grids (zinx_app_demo/mmo_game/core)

A rectangular world is cut into `cntsX × cntsY` grids. Machine integers are modelled as integers: nothing overflows as long as the extents of the world and
the number of grids fit in 64 bits. Positions (`float32`) are rationals. `none` as the result of a function is a run-time panic.
-/

namespace Zinx.Aoi

/-- zinx_app_demo/mmo_game/core/grid.go:9-17 without the players, which are kept in `World.players`. -/
structure Grid where
  gid : Int
  minX : Int
  maxX : Int
  minY : Int
  maxY : Int
deriving DecidableEq, Repr

/-- zinx_app_demo/mmo_game/core/aoi.go:15-23. -/
structure Mgr where
  minX : Int
  maxX : Int
  cntsX : Int
  minY : Int
  maxY : Int
  cntsY : Int
  grids : Int → Option Grid

/-- zinx_app_demo/mmo_game/core/aoi.go:62-64 and 68-70; only used where the count is not zero. -/
def width (lo hi cnts : Int) : Int := (hi - lo).tdiv cnts

/-- A Go map assignment. As in `aoiMgr.grIDs[gID] = …` (zinx_app_demo/mmo_game/core/aoi.go:49). -/
def set {α : Type} (g : Int → Option α) (k : Int) (v : α) : Int → Option α := fun j => if j = k then some v else g j

/-- The arguments of `NewGrID` at aoi.go:48-52. -/
def cell (minX maxX cntsX minY maxY cntsY : Int) (x y : Int) : Grid :=
  ⟨y * cntsX + x, minX + x * width minX maxX cntsX, minX + (x + 1) * width minX maxX cntsX,
    minY + y * width minY maxY cntsY, minY + (y + 1) * width minY maxY cntsY⟩

/-- The inner loop, aoi.go:40-53. -/
def fillRow (c : Int → Int → Grid) (cntsX : Int) (y : Int) (n : Nat) (g : Int → Option Grid) : Int → Option Grid :=
  (List.range n).foldl (fun g (x : Nat) => set g (y * cntsX + x) (c x y)) g

/-- zinx_app_demo/mmo_game/core/aoi.go:26-57. -/
def newMgr (minX maxX cntsX minY maxY cntsY : Int) : Mgr :=
  ⟨minX, maxX, cntsX, minY, maxY, cntsY,
    (List.range cntsY.toNat).foldl (fun g (y : Nat) => fillRow (cell minX maxX cntsX minY maxY cntsY) cntsX y cntsX.toNat g) (fun _ => none)⟩

/-- The direction vectors, aoi.go:110-111. -/
def directions : List (Int × Int) := [(-1, -1), (-1, 0), (-1, 1), (0, -1), (0, 1), (1, -1), (1, 0), (1, 1)]

/-- zinx_app_demo/mmo_game/core/aoi.go:86-132. Elements of the result are map lookups, `none` being a nil pointer. -/
def surround (m : Mgr) (gid : Int) : List (Option Grid) :=
  match m.grids gid with
  | none => []
  | some g =>
    let x := gid.tmod m.cntsX
    let y := gid.tdiv m.cntsX
    some g :: (directions.filterMap fun (dx, dy) =>
      if x + dx ≥ 0 ∧ x + dx < m.cntsX ∧ y + dy ≥ 0 ∧ y + dy < m.cntsY then some ((y + dy) * m.cntsX + (x + dx)) else none).map m.grids

/-- Go's conversion `int(x)` of a finite float in range: towards zero. As in zinx_app_demo/mmo_game/core/aoi.go:137-138. -/
def toInt (q : Rat) : Int := if 0 ≤ q then q.floor else q.ceil

/-- zinx_app_demo/mmo_game/core/aoi.go:136-141; division by zero panics. -/
def gidByPos (m : Mgr) (x y : Rat) : Option Int :=
  if m.cntsX = 0 ∨ m.cntsY = 0 then none else
  let w := width m.minX m.maxX m.cntsX
  let l := width m.minY m.maxY m.cntsY
  if w = 0 ∨ l = 0 then none else
  let gx := (toInt x - m.minX).tdiv w
  let gy := (toInt y - m.minY).tdiv l
  some (gy * m.cntsX + gx)

/-- zinx_app_demo/mmo_game/core/aoi.go:5-12 and world_manager.go:20-25. -/
def demo : Mgr := newMgr 85 410 10 75 400 20

/-- world_manager.go:8-12 and the player sets of the grids: the position of each online player (X and Z of player.go:15-22), the players listed in each
grid. Operations are modelled one at a time. -/
structure World where
  pos : Int → Option (Rat × Rat)
  members : Int → List Int

/-- A world without players. zinx_app_demo/mmo_game/core/world_manager.go:20-25. -/
def World.empty : World := ⟨fun _ => none, fun _ => []⟩

/-- grid.go:32-37, a map used as a set. -/
def World.addTo (w : World) (pid gid : Int) : World :=
  { w with members := fun j => if j = gid then (if pid ∈ w.members j then w.members j else w.members j ++ [pid]) else w.members j }

/-- grid.go:40-45. -/
def World.removeFrom (w : World) (pid gid : Int) : World :=
  { w with members := fun j => if j = gid then (w.members j).filter (· ≠ pid) else w.members j }

/-- The position of a player, or that there is none (zinx_app_demo/mmo_game/core/player.go:15-22, world_manager.go:29-47). -/
def World.setPos (w : World) (pid : Int) (p : Option (Rat × Rat)) : World := { w with pos := fun j => if j = pid then p else w.pos j }

/-- What other players see: message 200 with Tp 2, message 201. zinx_app_demo/mmo_game/core/player.go:262-344. -/
inductive Sight where
  | appears
  | disappears
deriving DecidableEq, Repr

/-- Player `to` is sent that player `about` appears or disappears. zinx_app_demo/mmo_game/core/player.go:262-344. -/
structure Msg where
  to : Int
  sight : Sight
  about : Int
deriving DecidableEq, Repr

/-- How an operation ends: the world afterwards, the messages of `OnExchangeAoiGrID`, and whether it panicked on the way (nil grid or division by zero). zinx_app_demo/mmo_game/core/player.go:177-347. -/
structure Result where
  world : World
  msgs : List Msg
  panicked : Bool

/-- The messages for the players of some grids, player.go:274-290 and 318-344. -/
def tell (w : World) (pid : Int) (s : Sight) (gs : List Grid) : List Msg :=
  gs.flatMap fun g => (w.members g.gid).flatMap fun q => [⟨q, s, pid⟩, ⟨pid, s, q⟩]

/-- player.go:235-347: grids of the old neighbourhood not in the new one, then those of the new one not in the old one. The pointers in a neighbourhood are
never nil (`C63`). -/
def exchange (m : Mgr) (w : World) (pid old new : Int) : List Msg :=
  let o := (surround m old).filterMap id
  let n := (surround m new).filterMap id
  tell w pid .disappears (o.filter fun g => g.gid ∉ n.map (·.gid)) ++ tell w pid .appears (n.filter fun g => g.gid ∉ o.map (·.gid))

/-- world_manager.go:29-39 (`AddPlayer`). -/
def add (m : Mgr) (w : World) (pid : Int) (p : Rat × Rat) : Result :=
  let w := w.setPos pid (some p)
  match gidByPos m p.1 p.2 with
  | none => ⟨w, [], true⟩
  | some g => if m.grids g = none then ⟨w, [], true⟩ else ⟨w.addTo pid g, [], false⟩

/-- player.go:177-233 (`UpdatePos`) for an online player at `p0`. -/
def move (m : Mgr) (w : World) (pid : Int) (p0 p : Rat × Rat) : Result :=
  match gidByPos m p0.1 p0.2, gidByPos m p.1 p.2 with
  | some old, some new =>
    let w := w.setPos pid (some p)
    if old = new then ⟨w, [], false⟩
    else if m.grids old = none then ⟨w, [], true⟩
    else
      let w := w.removeFrom pid old
      if m.grids new = none then ⟨w, [], true⟩
      else
        let w := w.addTo pid new
        ⟨w, exchange m w pid old new, false⟩
  | _, _ => ⟨w, [], true⟩

/-- player.go:368-389 (`LostConnection`) for an online player at `p0`, without its messages. -/
def lost (m : Mgr) (w : World) (pid : Int) (p0 : Rat × Rat) : Result :=
  match gidByPos m p0.1 p0.2 with
  | none => ⟨w, [], true⟩
  | some g => if m.grids g = none then ⟨w, [], true⟩ else ⟨(w.removeFrom pid g).setPos pid none, [], false⟩

/-- Operations on the world. `AddPlayer` (zinx_app_demo/mmo_game/core/world_manager.go:29-39), `UpdatePos` (player.go:177-233), `LostConnection` (player.go:368-389). -/
inductive Op where
  | add (pid : Int) (p : Rat × Rat)
  | move (pid : Int) (p : Rat × Rat)
  | lost (pid : Int)

/-- An operation on behalf of a player: moves and losses concern online players (the handlers look the player up first, zinx_app_demo/mmo_game/api/move.go:19-47 and
zinx_app_demo/mmo_game/server.go:47-68); a new player has a fresh ID (player.go:29-33). Otherwise nothing happens. -/
def World.op (m : Mgr) (w : World) : Op → Result
  | .add pid p => match w.pos pid with
    | none => Aoi.add m w pid p
    | some _ => ⟨w, [], false⟩
  | .move pid p => match w.pos pid with
    | none => ⟨w, [], false⟩
    | some p0 => Aoi.move m w pid p0 p
  | .lost pid => match w.pos pid with
    | none => ⟨w, [], false⟩
    | some p0 => Aoi.lost m w pid p0

end Zinx.Aoi
