import Verif.Model.IterChan

/-!
# The channel of `Keys` (zutils/shard_lock_map.go:229-254)

`Keys` counts the entries, makes a channel with room for so many, starts a goroutine which starts one goroutine for each shard and closes the channel when all of them are done, and reads the channel to its end. Each shard's goroutine
sends the keys of its shard while it holds the read lock.

* `n` shards; `m` is the value of `ShardCount` at the call (line 8: a variable that users may set); `cap` is what `Count` returned (line 230). As entries may come and go during and after the count (C47), it is any number; 0 makes a channel
  without buffer.
* Other goroutines change shards under the write lock at any time; how the lock is made fair is left out (see `Model/MapLock.lean`).
* A send on a closed channel and a WaitGroup below zero end the process (`dead`).
-/

namespace Zinx.KeysChan

open Zinx.IterChan (upd)

/-- Lines are those of zutils/shard_lock_map.go, here and below. The goroutine of a shard (zutils/shard_lock_map.go:236-243): not started; before line 237; in the loop of lines 238-240, with what is left of it; before line 242; returned. -/
inductive Shard (E : Type) where
  | absent
  | lock
  | send (rest : List E)
  | unlocked
  | ended

/-- The goroutine of zutils/shard_lock_map.go:232-247: about to start the goroutine of shard `j`; in `wg.Wait`; returned. -/
inductive Closer where
  | spawn (j : Nat)
  | wait
  | ended

/-- `items`: the keys of the shards; `writer i`: another goroutine has the write lock of shard `i`; `buf`, `closed`: the channel, keys with the numbers of their shards; `keys`: the slice of zutils/shard_lock_map.go:249; `returned`: `Keys` has returned it;
`seen i`: what shard `i` held when its goroutine got the lock (of no effect). -/
structure State (E : Type) where
  items : Nat → List E
  writer : Nat → Bool := fun _ => false
  closer : Closer := .spawn 0
  shard : Nat → Shard E := fun _ => .absent
  wg : Nat
  buf : List (Nat × E) := []
  closed : Bool := false
  keys : List (Nat × E) := []
  returned : Bool := false
  seen : Nat → List E := fun _ => []
  dead : Bool := false

/-- Before zutils/shard_lock_map.go:235, `wg.Add(ShardCount)` done (lines 230-234); nobody else sees the WaitGroup. -/
def start {E : Type} (items : Nat → List E) (m : Nat) : State E := { items := items, wg := m }

/-- What can happen. The actions of zutils/shard_lock_map.go:229-254 and of other goroutines. -/
inductive Label (E : Type) where
  | closer
  | shard (i : Nat)
  | read
  | lockW (i : Nat)
  | unlockW (i : Nat) (l : List E)

/-- The shard's goroutine holds the read lock. zutils/shard_lock_map.go:237-241. -/
def Shard.reads {E : Type} : Shard E → Bool
  | .send _ => true
  | _ => false

/-- The actions: `n` shards, a channel with room for `cap`. Lines are those of zutils/shard_lock_map.go:229-254. -/
inductive Step {E : Type} (n cap : Nat) : State E → Label E → State E → Prop where
  /-- Line 236. -/
  | spawn {s : State E} (j : Nat) (hd : s.dead = false) (h : s.closer = .spawn j) (hj : j < n) : Step n cap s .closer { s with closer := .spawn (j + 1), shard := upd s.shard j .lock }
  /-- The loop of line 235 ends. -/
  | spawned {s : State E} (hd : s.dead = false) (h : s.closer = .spawn n) : Step n cap s .closer { s with closer := .wait }
  /-- Lines 245, 246. -/
  | close {s : State E} (hd : s.dead = false) (h : s.closer = .wait) (hw : s.wg = 0) : Step n cap s .closer { s with closer := .ended, closed := true }
  /-- Line 237; the map is ranged over in any order, here that of the list. -/
  | rlock {s : State E} (i : Nat) (hd : s.dead = false) (h : s.shard i = .lock) (hw : s.writer i = false) : Step n cap s (.shard i) { s with shard := upd s.shard i (.send (s.items i)), seen := upd s.seen i (s.items i) }
  /-- Line 239, into the buffer. -/
  | send {s : State E} (i : Nat) (x : E) (rest : List E) (hd : s.dead = false) (h : s.shard i = .send (x :: rest)) (ho : s.closed = false) (hr : s.buf.length < cap) :
      Step n cap s (.shard i) { s with shard := upd s.shard i (.send rest), buf := s.buf ++ [(i, x)] }
  /-- Lines 239, 250: with an empty buffer the key goes straight to the caller, who waits for one. -/
  | hand {s : State E} (i : Nat) (x : E) (rest : List E) (hd : s.dead = false) (h : s.shard i = .send (x :: rest)) (ho : s.closed = false) (hb : s.buf = []) (hr : s.returned = false) :
      Step n cap s (.shard i) { s with shard := upd s.shard i (.send rest), keys := s.keys ++ [(i, x)] }
  /-- Line 239: the channel is closed. -/
  | sendPanic {s : State E} (i : Nat) (x : E) (rest : List E) (hd : s.dead = false) (h : s.shard i = .send (x :: rest)) (ho : s.closed = true) : Step n cap s (.shard i) { s with dead := true }
  /-- Line 241. -/
  | runlock {s : State E} (i : Nat) (hd : s.dead = false) (h : s.shard i = .send []) : Step n cap s (.shard i) { s with shard := upd s.shard i .unlocked }
  /-- Line 242. -/
  | done {s : State E} (i : Nat) (hd : s.dead = false) (h : s.shard i = .unlocked) (hw : 0 < s.wg) : Step n cap s (.shard i) { s with shard := upd s.shard i .ended, wg := s.wg - 1 }
  /-- Line 242: negative counter. -/
  | donePanic {s : State E} (i : Nat) (hd : s.dead = false) (h : s.shard i = .unlocked) (hw : s.wg = 0) : Step n cap s (.shard i) { s with dead := true }
  /-- Lines 250, 251. -/
  | take {s : State E} (x : Nat × E) (rest : List (Nat × E)) (hd : s.dead = false) (hr : s.returned = false) (hb : s.buf = x :: rest) : Step n cap s .read { s with buf := rest, keys := s.keys ++ [x] }
  /-- Lines 250, 253: the channel is closed and empty. -/
  | ret {s : State E} (hd : s.dead = false) (hr : s.returned = false) (hb : s.buf = []) (ho : s.closed = true) : Step n cap s .read { s with returned := true }
  /-- Another goroutine gets the write lock of a shard (`Set`, `Remove`, …). -/
  | lockW {s : State E} (i : Nat) (hd : s.dead = false) (h : s.writer i = false) (hr : (s.shard i).reads = false) : Step n cap s (.lockW i) { s with writer := upd s.writer i true }
  /-- It has changed the shard to `l` and gives the lock back. -/
  | unlockW {s : State E} (i : Nat) (l : List E) (hd : s.dead = false) (h : s.writer i = true) : Step n cap s (.unlockW i l) { s with writer := upd s.writer i false, items := upd s.items i l }

end Zinx.KeysChan
