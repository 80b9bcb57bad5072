import Verif.Model.ShardMap

/-!
# A sharded map after `ShardCount` has been set (zutils/shard_lock_map.go:8)

`ShardCount` is an exported variable; the methods use its value at the time of the call, not the number of shards the map was made with. Here `m` is that value (a number not below zero); `none` stands for a panic.
The goroutines of `IterBuffered` are in `Model/IterChan.lean`.
-/

namespace Zinx.ShardMap

section
variable {K V : Type} [DecidableEq K]

/-- `GetShard` (zutils/shard_lock_map.go:45-47): division by zero, or an index that is out of range, is a panic. -/
def Shards.indexWith (s : Shards K V) (m : Nat) (k : K) : Option Nat :=
  if UInt32.ofNat m = 0 then none
  else if ((s.hash k) % (UInt32.ofNat m)).toNat < s.shards.length then some ((s.hash k) % (UInt32.ofNat m)).toNat else none

/-- `Get` (zutils/shard_lock_map.go:62-68). -/
def Shards.getWith (s : Shards K V) (m : Nat) (k : K) : Option (Option V) := (s.indexWith m k).map fun i => lookup (s.shard i) k

/-- `Set` (zutils/shard_lock_map.go:71-76). -/
def Shards.setWith (s : Shards K V) (m : Nat) (k : K) (v : V) : Option (Shards K V) := (s.indexWith m k).map fun i => s.put i (assign (s.shard i) k v)

/-- `Remove` (zutils/shard_lock_map.go:110-115). -/
def Shards.removeWith (s : Shards K V) (m : Nat) (k : K) : Option (Shards K V) := (s.indexWith m k).map fun i => s.put i (delete (s.shard i) k)

/-- `Count` (zutils/shard_lock_map.go:50-59): the first `m` shards. -/
def Shards.countWith (s : Shards K V) (m : Nat) : Option Nat := if m ≤ s.shards.length then some (((s.shards.take m).map (·.length)).sum) else none

end

end Zinx.ShardMap
