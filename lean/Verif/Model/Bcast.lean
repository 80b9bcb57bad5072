import Verif.Model.Fair

/-!
# Broadcasts of the notify table that overlap (znotify/notify.go, zutils/shard_lock_map.go)

Any number of goroutines call `NotifyAll` or `NotifyBuffAll` while others set and remove IDs and connections are closed. A goroutine goes through the shards one after the other; it has the read lock
of a shard while it sends to the connections of the shard. Numbers stand for goroutines, IDs and connections. The send is one action here; it may take any time (C102).
Simplified: a writer of a shard, which has the lock for a single assignment, is one action (zutils/shard_lock_map.go:71-76, :110-115), and a waiting writer keeps no reader out, which allows more
executions than the code has.
-/

namespace Zinx.Bcast

/-- A call of `NotifyAll` (znotify/notify.go:77-88) or `NotifyBuffAll` (:103-114): the goroutine that makes it and how many it has made before. -/
structure Msg where
  who : Nat
  n : Nat
deriving DecidableEq, Repr

/-- What a goroutine does. zutils/shard_lock_map.go:264-273. -/
inductive Job where
  | idle
  /-- Before the lock of shard `i` (:267), or after the loop. -/
  | at (x : Msg) (i : Nat)
  /-- In the loop over shard `i` (:268-270). -/
  | inn (x : Msg) (i : Nat) (rest : List (Nat × Nat))
deriving DecidableEq, Repr

/-- The table of znotify/notify.go:20-22 with its shards (zutils/shard_lock_map.go:12-21), the goroutines and the connections. -/
structure State where
  /-- The items of the shards: IDs with their connections. -/
  tab : Nat → List (Nat × Nat) := fun _ => []
  closed : Nat → Bool := fun _ => false
  job : Nat → Job := fun _ => .idle
  /-- Broadcasts begun by each goroutine. -/
  said : Nat → Nat := fun _ => 0

/-- Calls and what they do. znotify/notify.go:44-47, :59-62, :77-88, :103-114. -/
inductive Label where
  | set (id c : Nat)
  | del (id : Nat)
  | close (c : Nat)
  | start (x : Msg)
  | lock (x : Msg) (i : Nat)
  /-- The message is sent to connection `c`, registered as `id`; whether the send succeeds. -/
  | send (x : Msg) (id c : Nat) (ok : Bool)
  | unlock (x : Msg) (i : Nat)
  | done (x : Msg)
deriving DecidableEq, Repr

/-- Change of a table at one point. Auxiliary. -/
def upd {α : Type} (f : Nat → α) (k : Nat) (v : α) : Nat → α := fun j => if j = k then v else f j

/-- `n`: the number of shards; `home`: the shard of an ID (zutils/shard_lock_map.go:45-47). -/
inductive Step (n : Nat) (home : Nat → Nat) : State → Label → State → Prop where
  /-- znotify/notify.go:44-47, zutils/shard_lock_map.go:71-76: nobody has the read lock. -/
  | set {s : State} (id c : Nat) (h : ∀ g x b, s.job g ≠ .inn x (home id) b) :
      Step n home s (.set id c) { s with tab := upd s.tab (home id) ((id, c) :: (s.tab (home id)).filter fun p => p.1 ≠ id) }
  /-- znotify/notify.go:59-62, zutils/shard_lock_map.go:110-115. -/
  | del {s : State} (id : Nat) (h : ∀ g x b, s.job g ≠ .inn x (home id) b) :
      Step n home s (.del id) { s with tab := upd s.tab (home id) ((s.tab (home id)).filter fun p => p.1 ≠ id) }
  /-- The connection is closed (znet/connection.go:329-331). -/
  | close {s : State} (c : Nat) : Step n home s (.close c) { s with closed := upd s.closed c true }
  /-- znotify/notify.go:79, :105. -/
  | start {s : State} (g : Nat) (h : s.job g = .idle) : Step n home s (.start ⟨g, s.said g⟩) { s with job := upd s.job g (.at ⟨g, s.said g⟩ 0), said := upd s.said g (s.said g + 1) }
  /-- zutils/shard_lock_map.go:265-267; the loop of :268 takes the items in any order. -/
  | lock {s : State} (g : Nat) (x : Msg) (i : Nat) (b : List (Nat × Nat)) (h : s.job g = .at x i) (hi : i < n) (hb : b.Perm (s.tab i)) :
      Step n home s (.lock x i) { s with job := upd s.job g (.inn x i b) }
  /-- zutils/shard_lock_map.go:269, znotify/notify.go:80-84, :106-110: an error is logged. -/
  | send {s : State} (g : Nat) (x : Msg) (i id c : Nat) (b : List (Nat × Nat)) (h : s.job g = .inn x i ((id, c) :: b)) :
      Step n home s (.send x id c (!s.closed c)) { s with job := upd s.job g (.inn x i b) }
  /-- zutils/shard_lock_map.go:271. -/
  | unlock {s : State} (g : Nat) (x : Msg) (i : Nat) (h : s.job g = .inn x i []) : Step n home s (.unlock x i) { s with job := upd s.job g (.at x (i + 1)) }
  /-- zutils/shard_lock_map.go:273, znotify/notify.go:87, :113. -/
  | done {s : State} (g : Nat) (x : Msg) (h : s.job g = .at x n) : Step n home s (.done x) { s with job := upd s.job g .idle }

end Zinx.Bcast
