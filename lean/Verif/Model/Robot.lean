import Verif.Model.Sys
import Verif.Model.Pack

/-!
# The robot client of the demo (zinx_app_demo/mmo_game/client_AI_robot.go; numbers are lines of this file)

A client that is not written with zinx: it cuts the byte stream into messages itself, takes its player number and its position from the server's messages, starts a loop that talks and walks, and disconnects after ten
seconds. Three kinds of goroutines: the reader, the caller of `Start`, and one loop of actions per message that told the robot its own position.

Left out: the protobuf encoding (messages are what they decode to; a message that does not decode counts as the zero value it leaves, `other` or `place` with number 0), `V` and `Y` of positions. Positions (`float32`) are rationals. Reads and
writes of the fields `PID`, `X`, `Z`, which the goroutines share without a lock, are atomic here.
-/

namespace Zinx.Robot

open Zinx Zinx.Frame

/-- client_AI_robot.go:21-25. -/
structure Message where
  len : UInt32
  id : UInt32
  data : List UInt8
deriving DecidableEq, Repr

/-- client_AI_robot.go:37-58: the head of a message, eight bytes read by the caller. -/
def unpack (s : List UInt8) : Option Message :=
  match Pack.readUint32 .little s with
  | none => none
  | some (len, s) =>
    match Pack.readUint32 .little s with
    | none => none
    | some (id, _) => some ⟨len, id, []⟩

/-- client_AI_robot.go:60-79. -/
def pack (id : UInt32) (data : List UInt8) : List UInt8 :=
  Pack.putUint32 .little (UInt32.ofNat data.length) ++ Pack.putUint32 .little id ++ data

/-- client_AI_robot.go:203-227, the reader's loop as long as all it reads is `s`: the messages it has handled and what is left over for the next read. `io.ReadFull` returns when it has all bytes it was asked for, however they were
cut, so the loop depends on the bytes only. Where the stream ends within a message the reader waits (or ends, when the connection does). -/
def readLoop (s : List UInt8) : List Message × List UInt8 :=
  if s.length < 8 then ([], s) else
  match unpack (s.take 8) with
  | none => ([], s)
  | some m =>
    if s.length < 8 + m.len.toNat then ([], s) else
    let r := readLoop (s.drop (8 + m.len.toNat))
    ({ m with data := (s.drop 8).take m.len.toNat } :: r.1, r.2)
termination_by s.length

/-- What `DoMsg` (163-199) makes of a message. Lines of zinx_app_demo/mmo_game/client_AI_robot.go. -/
inductive In where
  /-- message 1: the number of the player -/
  | pid (p : Int)
  /-- message 200 with Tp 2: player `p` is at `(x, z)` -/
  | place (p : Int) (x z : Rat)
  /-- any other message -/
  | other
deriving DecidableEq

/-- What the robot sends: message 2, message 3. zinx_app_demo/mmo_game/client_AI_robot.go:100-158. -/
inductive Out where
  | talk (p : Int)
  | move (x z : Rat)
deriving DecidableEq

/-- 126-136. Lines of zinx_app_demo/mmo_game/client_AI_robot.go. -/
def clamp (lo hi x : Rat) : Rat := if x > hi then hi else if x < lo then lo else x

/-- 113-136: `back` is the first random choice, `i` and `j` (below 10) the next two. Lines of zinx_app_demo/mmo_game/client_AI_robot.go. -/
def walk (x z : Rat) (back : Bool) (i j : Nat) : Rat × Rat :=
  if back then (clamp 85 410 (x - i), clamp 75 400 (z - j)) else (clamp 85 410 (x + i), clamp 75 400 (z + j))

/-- The goroutine of 202-228. Lines of zinx_app_demo/mmo_game/client_AI_robot.go. -/
inductive Reader where
  | reading
  /-- at 193, sending to `isOnline` -/
  | telling
  | ended
deriving DecidableEq

/-- The caller of `Start` (201-245). Lines of zinx_app_demo/mmo_game/client_AI_robot.go. -/
inductive Caller where
  /-- in the select statement; the timer of 240 was started at `since` -/
  | select (since : Nat)
  | returned
deriving DecidableEq

/-- zinx_app_demo/mmo_game/client_AI_robot.go:27-35, :201-245. -/
structure State where
  /-- messages that have arrived and are not yet read -/
  inbox : List In := []
  /-- the server has closed the connection -/
  gone : Bool := false
  /-- the robot has closed the connection (241) -/
  closed : Bool := false
  /-- seconds since the call of `Start` -/
  now : Nat := 0
  pid : Int := 0
  x : Rat := 0
  z : Rat := 0
  reader : Reader := .reading
  caller : Caller := .select 0
  /-- number of goroutines in the loop 235-238 -/
  loops : Nat := 0
  /-- messages written to the connection -/
  sent : List Out := []

/-- zinx_app_demo/mmo_game/client_AI_robot.go:163-245; each is explained at `Step`. -/
inductive Label where
  | arrive (m : In)
  | lose
  | tick
  | read
  | online
  | timeout
  | readEnd
  | act (o : Out)
deriving DecidableEq

/-- 166-198 up to the send at 193. Lines of zinx_app_demo/mmo_game/client_AI_robot.go. -/
def State.doMsg (s : State) : In → State
  | .pid p => { s with pid := p }
  | .place p x z => if p = s.pid then { s with x := x, z := z, reader := .telling } else s
  | .other => s

/-- Lines of zinx_app_demo/mmo_game/client_AI_robot.go:100-245. -/
inductive Step : State → Label → State → Prop where
  /-- the server sends -/
  | arrive (s : State) (m : In) (h : s.gone = false) : Step s (.arrive m) { s with inbox := s.inbox ++ [m] }
  /-- the server closes the connection -/
  | lose (s : State) : Step s .lose { s with gone := true }
  | tick (s : State) : Step s .tick { s with now := s.now + 1 }
  /-- 207-226 -/
  | read (s : State) (m : In) (rest : List In) (h : s.reader = .reading) (hc : s.closed = false) (hi : s.inbox = m :: rest) : Step s .read ({ s with inbox := rest }.doMsg m)
  /-- 193 and 233: the channel has no buffer. The next timer is started when the loop comes back to the select statement. -/
  | online (s : State) (n : Nat) (h : s.reader = .telling) (hc : s.caller = .select n) : Step s .online { s with reader := .reading, caller := .select s.now, loops := s.loops + 1 }
  /-- 240-242 -/
  | timeout (s : State) (n : Nat) (hc : s.caller = .select n) (ht : n + 10 ≤ s.now) : Step s .timeout { s with caller := .returned, closed := true }
  /-- 209-212 and 220-222: the read fails; nothing can be read from a connection closed by the robot itself. -/
  | readEnd (s : State) (h : s.reader = .reading) (hc : s.closed = true ∨ s.gone = true ∧ s.inbox = []) : Step s .readEnd { s with reader := .ended }
  /-- 104-110; the error of the write is ignored (92). -/
  | talk (s : State) (h : 0 < s.loops) : Step s (.act (.talk s.pid)) { s with sent := if s.closed || s.gone then s.sent else s.sent ++ [.talk s.pid] }
  /-- 112-157 -/
  | move (s : State) (back : Bool) (i j : Nat) (hi : i < 10) (hj : j < 10) (h : 0 < s.loops) :
      Step s (.act (.move (walk s.x s.z back i j).1 (walk s.x s.z back i j).2))
        { s with sent := if s.closed || s.gone then s.sent else s.sent ++ [.move (walk s.x s.z back i j).1 (walk s.x s.z back i j).2] }

end Zinx.Robot
