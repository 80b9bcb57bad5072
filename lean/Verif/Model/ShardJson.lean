import Verif.Model.ShardCount

/-!
# `MarshalJSON` and `UnmarshalJSON` of a sharded map (zutils/shard_lock_map.go:276-297)

`encoding/json` is a parameter: `enc` stands for `json.Marshal` of a map, `dec` for `json.Unmarshal` into an empty map (`none`: an error). Both methods have a value receiver. A `ShardLockMaps` that was not made by
`NewShardLockMaps` or `NewWithCustomHash` is the zero value: no shards, no hash function (`none`).
-/

namespace Zinx.ShardMap

section
variable {K V B : Type} [DecidableEq K]

/-- What a call comes to. zutils/shard_lock_map.go:276-297. -/
inductive JsonRes where
  | ok
  | err
  | panic
  deriving DecidableEq

/-- `MarshalJSON` (zutils/shard_lock_map.go:275-282) of a map, nothing else running, the entries arriving in the order `order`. -/
def marshal (enc : GoMap K V → Option B) (order : List (K × V)) : Option B := enc (items order)

/-- The loop of `UnmarshalJSON` (zutils/shard_lock_map.go:293-295): `Set` of the zero value panics (nil hash function). -/
def setAll : Option (Shards K V) → GoMap K V → JsonRes × Option (Shards K V)
  | none, [] => (.ok, none)
  | none, _ :: _ => (.panic, none)
  | some s, data => (.ok, some (s.mset data))

/-- `UnmarshalJSON` (zutils/shard_lock_map.go:285-297); the decoded entries come in the order of the list. -/
def unmarshal (dec : B → Option (GoMap K V)) (recv : Option (Shards K V)) (b : B) : JsonRes × Option (Shards K V) :=
  match dec b with
  | none => (.err, recv)
  | some data => setAll recv data

end

end Zinx.ShardMap
