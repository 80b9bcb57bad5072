import Verif.Model.ShardMap

/-!
# What an ordinary map does

A map is a partial function. The calls and results (`Op`, `Res`) are those of the code; nothing else of the model is used.
-/

namespace Zinx.Spec.ShardMap

open Zinx.ShardMap (Op Res)

section
variable {K V : Type}

/-- Contents of a map. -/
abbrev Map (K V : Type) := K → Option V

/-- `m` and `m'` agree except at `k`, where `m'` has `v`. -/
def SetTo (m m' : Map K V) (k : K) (v : Option V) : Prop := m' k = v ∧ ∀ k', k' ≠ k → m' k' = m k'

/-- `l` lists the keys of `m`, each once. -/
def ListsKeys (m : Map K V) (l : List K) : Prop := l.Nodup ∧ ∀ k, k ∈ l ↔ m k ≠ none

/-- `l` lists the entries of `m`, each once. -/
def ListsEntries (m : Map K V) (l : List (K × V)) : Prop := (l.map (·.1)).Nodup ∧ ∀ k v, (k, v) ∈ l ↔ m k = some v

/-- `m` has `n` keys. -/
def HasSize (m : Map K V) (n : Nat) : Prop := ∃ l, ListsKeys m l ∧ l.length = n

/-- One call of an ordinary map. -/
inductive Call : Map K V → Op K V × Res K V → Map K V → Prop where
  | set {m m' : Map K V} {k : K} {v : V} : SetTo m m' k (some v) → Call m (.set k v, .unit) m'
  | setNXnew {m m' : Map K V} {k : K} {v : V} : m k = none → SetTo m m' k (some v) → Call m (.setNX k v, .bool true) m'
  | setNXold {m : Map K V} {k : K} {v : V} : m k ≠ none → Call m (.setNX k v, .bool false) m
  | mset {m m' : Map K V} {data : List (K × V)} : (∀ k v, (k, v) ∈ data → m' k = some v) → (∀ k, k ∉ data.map (·.1) → m' k = m k) →
      Call m (.mset data, .unit) m'
  | get {m : Map K V} {k : K} : Call m (.get k, .value (m k)) m
  | hasYes {m : Map K V} {k : K} : m k ≠ none → Call m (.has k, .bool true) m
  | hasNo {m : Map K V} {k : K} : m k = none → Call m (.has k, .bool false) m
  | remove {m m' : Map K V} {k : K} : SetTo m m' k none → Call m (.remove k, .unit) m'
  | removeCbYes {m m' : Map K V} {k : K} {cb : K → Option V → Bool} : cb k (m k) = true → SetTo m m' k none →
      Call m (.removeCb k cb, .bool true) m'
  | removeCbNo {m : Map K V} {k : K} {cb : K → Option V → Bool} : cb k (m k) = false → Call m (.removeCb k cb, .bool false) m
  | pop {m m' : Map K V} {k : K} : SetTo m m' k none → Call m (.pop k, .value (m k)) m'
  | clear {m : Map K V} : Call m (.clear, .unit) fun _ => none
  | count {m : Map K V} {n : Nat} : HasSize m n → Call m (.count, .nat n) m
  | isEmptyYes {m : Map K V} : (∀ k, m k = none) → Call m (.isEmpty, .bool true) m
  | isEmptyNo {m : Map K V} {k : K} : m k ≠ none → Call m (.isEmpty, .bool false) m
  | keys {m : Map K V} {l : List K} : ListsKeys m l → Call m (.keys, .keys l) m
  | items {m : Map K V} {l : List (K × V)} : ListsEntries m l → Call m (.items, .entries l) m
  | iterate {m : Map K V} {l : List (K × V)} : ListsEntries m l → Call m (.iterate, .entries l) m

end

end Zinx.Spec.ShardMap
