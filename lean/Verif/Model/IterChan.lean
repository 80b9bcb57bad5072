import Verif.Model.Fair

/-!
# The channels of `IterBuffered` (zutils/shard_lock_map.go:165-215)

`IterBuffered` starts one goroutine for each shard, which copies the shard into a channel, waits until each of them has made its channel, makes a channel that has room for everything, starts a goroutine which starts one
goroutine for each channel that copies it into the last one, and returns the last channel. Who called it reads from it, or stops reading at any time. `Items`, `Clear` and `MarshalJSON` use it and read to the end.

* `n` shards; `m` is the value of `ShardCount` during the call, a variable that users may set (line 8).
* Other goroutines change shards under the write lock, at any time; readers of other calls do not get in the way and are left out. How the lock is made fair is left out (see `Model/MapLock.lean`).
* An index out of range in a goroutine ends the process (`dead`), as does a send on a closed channel, a second close, and a WaitGroup below zero.
-/

namespace Zinx.IterChan

/-- Change of a table at one point. Auxiliary. -/
def upd {α : Type} (f : Nat → α) (i : Nat) (a : α) : Nat → α := fun j => if j = i then a else f j

/-- A channel: capacity, what is in it, whether it is closed. As made in zutils/shard_lock_map.go:176, :212. -/
structure Chan (E : Type) where
  cap : Nat
  buf : List E
  closed : Bool

/-- The goroutine of shard `i` (lines 174-183): not started; before line 175; before line 176; before line 177; in the loop of lines 178-180, with what is left of it; before line 182; returned. Lines of zutils/shard_lock_map.go. -/
inductive Snap (E : Type) where
  | absent
  | lock
  | locked
  | made
  | send (rest : List E)
  | unlocked
  | ended

/-- The caller, in `IterBuffered`: about to start the goroutine of shard `j` (line 173); in `wg.Wait` (line 185); returned, with the capacity of the channel it has made (lines 207-213). Lines of zutils/shard_lock_map.go. -/
inductive Main where
  | spawn (j : Nat)
  | wait
  | returned (total : Nat)

/-- The goroutine of `fanIn` (lines 190-203): not started; about to start the goroutine of channel `j`; in `wg.Wait`; returned. Lines of zutils/shard_lock_map.go. -/
inductive Fan where
  | absent
  | spawn (j : Nat)
  | wait
  | ended

/-- The goroutine of channel `j` in `fanIn` (lines 194-199): not started; before a receive (line 195); before a send (line 196); returned. Lines of zutils/shard_lock_map.go. -/
inductive Copy (E : Type) where
  | absent
  | ready
  | holding (x : E)
  | ended

/-- `items`: the shards; `writer i`: another goroutine has the write lock of shard `i`; `chan`: `chanList`; `wg`, `fwg`: the two WaitGroups; `out`: the channel returned; `taken`: what the caller has received from it;
`seen i`: what shard `i` held when its goroutine got the lock (of no effect). zutils/shard_lock_map.go:12-21, :169-215. -/
structure State (E : Type) where
  items : Nat → List E
  writer : Nat → Bool := fun _ => false
  main : Main := .spawn 0
  snap : Nat → Snap E := fun _ => .absent
  chan : Nat → Option (Chan E) := fun _ => none
  wg : Nat
  fan : Fan := .absent
  copy : Nat → Copy E := fun _ => .absent
  fwg : Nat := 0
  out : List (Nat × E) := []
  outClosed : Bool := false
  taken : List (Nat × E) := []
  seen : Nat → List E := fun _ => []
  dead : Bool := false

/-- At the call, `wg.Add(ShardCount)` done (lines 170-172). Lines of zutils/shard_lock_map.go. -/
def start {E : Type} (items : Nat → List E) (m : Nat) : State E := { items := items, wg := m }

/-- What can happen. zutils/shard_lock_map.go:169-215; each is explained at `Step`. -/
inductive Label (E : Type) where
  | main
  | snap (i : Nat)
  | fan
  | copy (i : Nat)
  | take (x : Nat × E)
  | lockW (i : Nat)
  | unlockW (i : Nat) (l : List E)

/-- Sum of the capacities of the first `m` channels of `chanList` (lines 208-211); a nil channel has capacity 0. Lines of zutils/shard_lock_map.go. -/
def capSum {E : Type} (chan : Nat → Option (Chan E)) : Nat → Nat
  | 0 => 0
  | m + 1 => capSum chan m + (match chan m with | some c => c.cap | none => 0)

/-- The shard's goroutine holds the read lock. zutils/shard_lock_map.go:175-181. -/
def Snap.reads {E : Type} : Snap E → Bool
  | .locked | .made | .send _ => true
  | _ => false

/-- The actions: `n` shards, `ShardCount` being `m`. Lines of zutils/shard_lock_map.go. -/
inductive Step {E : Type} (n m : Nat) : State E → Label E → State E → Prop where
  /-- Line 174. -/
  | spawn {s : State E} (j : Nat) (hd : s.dead = false) (h : s.main = .spawn j) (hj : j < n) : Step n m s .main { s with main := .spawn (j + 1), snap := upd s.snap j .lock }
  /-- The loop of line 173 ends. -/
  | spawned {s : State E} (hd : s.dead = false) (h : s.main = .spawn n) : Step n m s .main { s with main := .wait }
  /-- `wg.Wait` returns; lines 186, 207-214 with `wg.Add` of line 192. -/
  | waited {s : State E} (hd : s.dead = false) (h : s.main = .wait) (hw : s.wg = 0) : Step n m s .main { s with main := .returned (capSum s.chan m), fan := .spawn 0, fwg := m }
  /-- Line 175. -/
  | rlock {s : State E} (i : Nat) (hd : s.dead = false) (h : s.snap i = .lock) (hw : s.writer i = false) : Step n m s (.snap i) { s with snap := upd s.snap i .locked, seen := upd s.seen i (s.items i) }
  /-- Line 176. -/
  | make {s : State E} (i : Nat) (hd : s.dead = false) (h : s.snap i = .locked) (hi : i < m) :
      Step n m s (.snap i) { s with snap := upd s.snap i .made, chan := upd s.chan i (some ⟨(s.items i).length, [], false⟩) }
  /-- Line 176: the index is out of range. -/
  | makePanic {s : State E} (i : Nat) (hd : s.dead = false) (h : s.snap i = .locked) (hi : m ≤ i) : Step n m s (.snap i) { s with dead := true }
  /-- Line 177; the map is ranged over in any order, here that of the list. -/
  | done {s : State E} (i : Nat) (hd : s.dead = false) (h : s.snap i = .made) (hw : 0 < s.wg) : Step n m s (.snap i) { s with snap := upd s.snap i (.send (s.items i)), wg := s.wg - 1 }
  /-- Line 177: negative counter. -/
  | donePanic {s : State E} (i : Nat) (hd : s.dead = false) (h : s.snap i = .made) (hw : s.wg = 0) : Step n m s (.snap i) { s with dead := true }
  /-- Line 179. -/
  | send {s : State E} (i : Nat) (x : E) (rest : List E) (c : Chan E) (hd : s.dead = false) (h : s.snap i = .send (x :: rest)) (hc : s.chan i = some c) (ho : c.closed = false) (hr : c.buf.length < c.cap) :
      Step n m s (.snap i) { s with snap := upd s.snap i (.send rest), chan := upd s.chan i (some { c with buf := c.buf ++ [x] }) }
  /-- Line 179: the channel is closed. -/
  | sendPanic {s : State E} (i : Nat) (x : E) (rest : List E) (c : Chan E) (hd : s.dead = false) (h : s.snap i = .send (x :: rest)) (hc : s.chan i = some c) (ho : c.closed = true) : Step n m s (.snap i) { s with dead := true }
  /-- Line 181. -/
  | runlock {s : State E} (i : Nat) (hd : s.dead = false) (h : s.snap i = .send []) : Step n m s (.snap i) { s with snap := upd s.snap i .unlocked }
  /-- Line 182. -/
  | close {s : State E} (i : Nat) (c : Chan E) (hd : s.dead = false) (h : s.snap i = .unlocked) (hc : s.chan i = some c) (ho : c.closed = false) :
      Step n m s (.snap i) { s with snap := upd s.snap i .ended, chan := upd s.chan i (some { c with closed := true }) }
  /-- Line 182: the channel is nil or closed. -/
  | closePanic {s : State E} (i : Nat) (hd : s.dead = false) (h : s.snap i = .unlocked) (hc : ∀ c, s.chan i = some c → c.closed = true) : Step n m s (.snap i) { s with dead := true }
  /-- Line 194. -/
  | fanSpawn {s : State E} (j : Nat) (hd : s.dead = false) (h : s.fan = .spawn j) (hj : j < m) : Step n m s .fan { s with fan := .spawn (j + 1), copy := upd s.copy j .ready }
  /-- The loop of line 193 ends. -/
  | fanSpawned {s : State E} (hd : s.dead = false) (h : s.fan = .spawn m) : Step n m s .fan { s with fan := .wait }
  /-- Lines 201-202. -/
  | fanWaited {s : State E} (hd : s.dead = false) (h : s.fan = .wait) (hw : s.fwg = 0) : Step n m s .fan { s with fan := .ended, outClosed := true }
  /-- Line 195: a receive. -/
  | recv {s : State E} (i : Nat) (x : E) (rest : List E) (c : Chan E) (hd : s.dead = false) (h : s.copy i = .ready) (hc : s.chan i = some c) (hb : c.buf = x :: rest) :
      Step n m s (.copy i) { s with copy := upd s.copy i (.holding x), chan := upd s.chan i (some { c with buf := rest }) }
  /-- Lines 195, 198: the channel is closed and empty. -/
  | recvEnd {s : State E} (i : Nat) (c : Chan E) (hd : s.dead = false) (h : s.copy i = .ready) (hc : s.chan i = some c) (hb : c.buf = []) (ho : c.closed = true) (hw : 0 < s.fwg) :
      Step n m s (.copy i) { s with copy := upd s.copy i .ended, fwg := s.fwg - 1 }
  /-- Line 198: negative counter. -/
  | recvPanic {s : State E} (i : Nat) (c : Chan E) (hd : s.dead = false) (h : s.copy i = .ready) (hc : s.chan i = some c) (hb : c.buf = []) (ho : c.closed = true) (hw : s.fwg = 0) : Step n m s (.copy i) { s with dead := true }
  /-- Line 196. -/
  | pass {s : State E} (i : Nat) (x : E) (total : Nat) (hd : s.dead = false) (h : s.copy i = .holding x) (ht : s.main = .returned total) (ho : s.outClosed = false) (hr : s.out.length < total) :
      Step n m s (.copy i) { s with copy := upd s.copy i .ready, out := s.out ++ [(i, x)] }
  /-- Line 196: the channel is closed. -/
  | passPanic {s : State E} (i : Nat) (x : E) (hd : s.dead = false) (h : s.copy i = .holding x) (ho : s.outClosed = true) : Step n m s (.copy i) { s with dead := true }
  /-- The caller receives from the channel it was given. -/
  | take {s : State E} (x : Nat × E) (rest : List (Nat × E)) (hd : s.dead = false) (h : s.out = x :: rest) : Step n m s (.take x) { s with out := rest, taken := s.taken ++ [x] }
  /-- Another goroutine gets the write lock of a shard (`Set`, `Remove`, …). -/
  | lockW {s : State E} (i : Nat) (hd : s.dead = false) (h : s.writer i = false) (hr : (s.snap i).reads = false) : Step n m s (.lockW i) { s with writer := upd s.writer i true }
  /-- It has changed the shard to `l` and gives the lock back. -/
  | unlockW {s : State E} (i : Nat) (l : List E) (hd : s.dead = false) (h : s.writer i = true) : Step n m s (.unlockW i l) { s with writer := upd s.writer i false, items := upd s.items i l }

end Zinx.IterChan
