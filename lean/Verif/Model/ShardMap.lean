import Verif.Model.Sys

/-!
# Model of `zutils/shard_lock_map.go` and `zutils/hash.go`
-/

namespace Zinx.ShardMap

open Zinx

/-! ## One shard: a Go map -/

/-- A Go map with keys `K`: its entries, each key at most once. The order of the list stands for the unspecified iteration order. `items` of zutils/shard_lock_map.go:18-21. -/
abbrev GoMap (K V : Type) := List (K × V)

section
variable {K V : Type} [DecidableEq K]

/-- `m[k]` with the comma-ok form. As in zutils/shard_lock_map.go:65. -/
def lookup (m : GoMap K V) (k : K) : Option V := (m.find? fun x => x.1 = k).map (·.2)

/-- `delete(m, k)`. As in zutils/shard_lock_map.go:113. -/
def delete (m : GoMap K V) (k : K) : GoMap K V := m.filter fun x => x.1 ≠ k

/-- `m[k] = v`. As in zutils/shard_lock_map.go:74. -/
def assign (m : GoMap K V) (k : K) (v : V) : GoMap K V := (k, v) :: delete m k

/-! ## The sharded map -/

/-- `ShardLockMaps` (zutils/shard_lock_map.go:12-15): hash function and shards. `ShardCount` (a package variable) is taken not to change after
the map was created; it is the number of shards. -/
structure Shards (K V : Type) where
  hash : K → UInt32
  shards : List (GoMap K V)

/-- `createShardLockMaps` (zutils/shard_lock_map.go:24-33) with `ShardCount = n`. -/
def create (V : Type) (hash : K → UInt32) (n : Nat) : Shards K V := { hash := hash, shards := List.replicate n [] }

/-- Index computed by `GetShard` (zutils/shard_lock_map.go:45-47). -/
def Shards.index (s : Shards K V) (k : K) : Nat := ((s.hash k) % (UInt32.ofNat s.shards.length)).toNat

/-- Contents of shard `i`. zutils/shard_lock_map.go:45-47. -/
def Shards.shard (s : Shards K V) (i : Nat) : GoMap K V := (s.shards[i]?).getD []

/-- Replaces the contents of shard `i`. Auxiliary, for what is done to `items` in zutils/shard_lock_map.go:71-145. -/
def Shards.put (s : Shards K V) (i : Nat) (m : GoMap K V) : Shards K V := { s with shards := s.shards.set i m }

/-- `Count` (zutils/shard_lock_map.go:50-59) when nothing runs concurrently. -/
def Shards.count (s : Shards K V) : Nat := (s.shards.map (·.length)).sum

/-- `Get` (zutils/shard_lock_map.go:62-68). -/
def Shards.get (s : Shards K V) (k : K) : Option V := lookup (s.shard (s.index k)) k

/-- `Set` (zutils/shard_lock_map.go:71-76). -/
def Shards.set (s : Shards K V) (k : K) (v : V) : Shards K V := s.put (s.index k) (assign (s.shard (s.index k)) k v)

/-- `SetNX` (zutils/shard_lock_map.go:79-88). -/
def Shards.setNX (s : Shards K V) (k : K) (v : V) : Bool × Shards K V :=
  match lookup (s.shard (s.index k)) k with
  | some _ => (false, s)
  | none => (true, s.put (s.index k) (assign (s.shard (s.index k)) k v))

/-- `MSet` (zutils/shard_lock_map.go:91-98); `data` is a Go map. -/
def Shards.mset (s : Shards K V) (data : GoMap K V) : Shards K V := data.foldl (fun s x => s.set x.1 x.2) s

/-- `Has` (zutils/shard_lock_map.go:101-107). -/
def Shards.has (s : Shards K V) (k : K) : Bool := (lookup (s.shard (s.index k)) k).isSome

/-- `Remove` (zutils/shard_lock_map.go:110-115). -/
def Shards.remove (s : Shards K V) (k : K) : Shards K V := s.put (s.index k) (delete (s.shard (s.index k)) k)

/-- `RemoveCb` (zutils/shard_lock_map.go:124-135). `cb` gets the value if there is one (nil value and `false` otherwise). -/
def Shards.removeCb (s : Shards K V) (k : K) (cb : K → Option V → Bool) : Bool × Shards K V :=
  let old := lookup (s.shard (s.index k)) k
  if cb k old = true ∧ old.isSome = true then (true, s.put (s.index k) (delete (s.shard (s.index k)) k)) else (cb k old, s)

/-- `Pop` (zutils/shard_lock_map.go:138-145). -/
def Shards.pop (s : Shards K V) (k : K) : Option V × Shards K V :=
  (lookup (s.shard (s.index k)) k, s.put (s.index k) (delete (s.shard (s.index k)) k))

/-- `IterBuffered` (zutils/shard_lock_map.go:169-215), `IterCb` (:264-273), `Keys` (:229-254, keys only) when nothing runs concurrently: the
entries shard by shard. The channels of `IterBuffered` deliver them in some order. -/
def Shards.entries (s : Shards K V) : List (K × V) := s.shards.flatten

/-- `Clear` (zutils/shard_lock_map.go:148-152), the entries arriving in the order `order`. -/
def Shards.clear (s : Shards K V) (order : List (K × V)) : Shards K V := order.foldl (fun s x => s.remove x.1) s

/-- `IsEmpty` (zutils/shard_lock_map.go:155-157). -/
def Shards.isEmpty (s : Shards K V) : Bool := s.count == 0

/-- `Items` (zutils/shard_lock_map.go:218-226), the entries arriving in the order `order`. -/
def items (order : List (K × V)) : GoMap K V := order.foldl (fun m x => assign m x.1 x.2) []

/-- Calls of the map. zutils/shard_lock_map.go:50-273. -/
inductive Op (K V : Type) where
  | set (k : K) (v : V)
  | setNX (k : K) (v : V)
  | mset (data : GoMap K V)
  | get (k : K)
  | has (k : K)
  | remove (k : K)
  | removeCb (k : K) (cb : K → Option V → Bool)
  | pop (k : K)
  | clear
  | count
  | isEmpty
  | keys
  | items
  | iterate        -- `IterBuffered`, `IterCb`

/-- What a call gives back. zutils/shard_lock_map.go:50-273. -/
inductive Res (K V : Type) where
  | unit
  | bool (b : Bool)
  | value (v : Option V)
  | nat (n : Nat)
  | keys (l : List K)
  | entries (l : List (K × V))

/-- One call while nothing else runs. zutils/shard_lock_map.go:50-273. -/
inductive Call : Shards K V → Op K V × Res K V → Shards K V → Prop where
  | set (s : Shards K V) (k : K) (v : V) : Call s (.set k v, .unit) (s.set k v)
  | setNX (s : Shards K V) (k : K) (v : V) : Call s (.setNX k v, .bool (s.setNX k v).1) (s.setNX k v).2
  | mset (s : Shards K V) (data : GoMap K V) (h : (data.map (·.1)).Nodup) : Call s (.mset data, .unit) (s.mset data)
  | get (s : Shards K V) (k : K) : Call s (.get k, .value (s.get k)) s
  | has (s : Shards K V) (k : K) : Call s (.has k, .bool (s.has k)) s
  | remove (s : Shards K V) (k : K) : Call s (.remove k, .unit) (s.remove k)
  | removeCb (s : Shards K V) (k : K) (cb : K → Option V → Bool) : Call s (.removeCb k cb, .bool (s.removeCb k cb).1) (s.removeCb k cb).2
  | pop (s : Shards K V) (k : K) : Call s (.pop k, .value (s.pop k).1) (s.pop k).2
  | clear (s : Shards K V) (order : List (K × V)) (h : order.Perm s.entries) : Call s (.clear, .unit) (s.clear order)
  | count (s : Shards K V) : Call s (.count, .nat s.count) s
  | isEmpty (s : Shards K V) : Call s (.isEmpty, .bool s.isEmpty) s
  | keys (s : Shards K V) (order : List (K × V)) (h : order.Perm s.entries) : Call s (.keys, .keys (order.map (·.1))) s
  | items (s : Shards K V) (order : List (K × V)) (h : order.Perm s.entries) : Call s (.items, .entries (items order)) s
  | iterate (s : Shards K V) (order : List (K × V)) (h : order.Perm s.entries) : Call s (.iterate, .entries order) s

/-! ## Concurrency -/

/-- An atomic update: what happens under one shard lock. zutils/shard_lock_map.go:71-76, :110-115. -/
inductive Update (K V : Type) where
  | set (k : K) (v : V)
  | remove (k : K)

/-- Effect of an update. zutils/shard_lock_map.go:71-76, :110-115. -/
def Shards.update (s : Shards K V) : Update K V → Shards K V
  | .set k v => s.set k v
  | .remove k => s.remove k

/-- A scan in progress: the map, shards not visited yet, entries collected. zutils/shard_lock_map.go:169-187, :229-273. -/
structure Scan (K V : Type) where
  map : Shards K V
  left : List Nat
  out : List (K × V)

/-- Actions during a scan: an update by some goroutine, or the scan visits a shard (holding its read lock, so atomically). zutils/shard_lock_map.go:71-115, :169-187, :229-273. -/
inductive ScanAct (K V : Type) where
  | update (u : Update K V)
  | visit (i : Nat)

/-- `snapshot`, `Keys` and `IterCb`: every shard is visited once, by `snapshot` and `Keys` in any order (one goroutine each), by `IterCb` in
index order (a special case). The collected entries of a shard come in any order. zutils/shard_lock_map.go:169-187, :229-254, :264-273. -/
inductive ScanStep : Scan K V → ScanAct K V → Scan K V → Prop where
  | update (s : Scan K V) (u : Update K V) : ScanStep s (.update u) { s with map := s.map.update u }
  | visit (s : Scan K V) (i : Nat) (h : i ∈ s.left) (es : List (K × V)) (he : es.Perm (s.map.shard i)) :
      ScanStep s (.visit i) { s with left := s.left.erase i, out := s.out ++ es }

/-- A scan about to begin. zutils/shard_lock_map.go:169, :229, :264. -/
def scanStart (m : Shards K V) : Scan K V := { map := m, left := List.range m.shards.length, out := [] }

/-- A `Count` in progress: the map, next shard, sum so far. zutils/shard_lock_map.go:50-59. -/
structure Counting (K V : Type) where
  map : Shards K V
  next : Nat
  sum : Nat

/-- `Count` (zutils/shard_lock_map.go:50-59) interleaved with updates. -/
inductive CountStep : Counting K V → ScanAct K V → Counting K V → Prop where
  | update (s : Counting K V) (u : Update K V) : CountStep s (.update u) { s with map := s.map.update u }
  | visit (s : Counting K V) (h : s.next < s.map.shards.length) :
      CountStep s (.visit s.next) { s with next := s.next + 1, sum := s.sum + (s.map.shard s.next).length }

/-- A `Count` about to begin. zutils/shard_lock_map.go:50-52. -/
def countStart (m : Shards K V) : Counting K V := { map := m, next := 0, sum := 0 }

end

/-! ## The default hash -/

/-- `Fnv32Hash.Sum` (zutils/hash.go:19-28). -/
def fnv32 (key : Bytes) : UInt32 := key.foldl (fun h b => (h * 16777619) ^^^ b.toUInt32) 2166136261

/-- `ShardCount` (zutils/shard_lock_map.go:8). -/
def shardCount : Nat := 32

end Zinx.ShardMap
