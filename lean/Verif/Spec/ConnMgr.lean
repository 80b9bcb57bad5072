import Verif.Spec.ShardMap
import Verif.Model.ConnMgr

/-!
# What a connection manager and a notifier keyed by ID should do

Stated on partial functions from 64-bit IDs; of the model only calls, results and connections are used.
-/

namespace Zinx.Spec.ConnMgr

open Zinx Zinx.Spec.ShardMap
open Zinx.ConnMgr (Conn Op Res NOp NRes)

/-- A manager as a partial function. -/
abbrev Mgr := Map UInt64 Conn

/-- One call of the manager. -/
inductive Call : Mgr → Op × Res → Mgr → Prop where
  | add {m m' : Mgr} {c : Conn} : SetTo m m' c.id (some c) → Call m (.add c, .unit) m'
  | remove {m m' : Mgr} {c : Conn} : SetTo m m' c.id none → Call m (.remove c, .unit) m'
  | get {m : Mgr} {id : UInt64} : Call m (.get id, .conn (m id)) m
  | get2 {m : Mgr} {c : Conn} : Call m (.get2 c.idStr, .conn (m c.id)) m
  | get2other {m : Mgr} {s : Bytes} : (∀ c : Conn, c.idStr ≠ s) → Call m (.get2 s, .conn none) m
  | len {m : Mgr} {n : Nat} : HasSize m n → Call m (.len, .nat n) m
  | allIds {m : Mgr} {l : List UInt64} : ListsKeys m l → Call m (.allIds, .ids l) m
  | allIdStrs {m : Mgr} {l : List (UInt64 × Conn)} : ListsEntries m l → Call m (.allIdStrs, .idStrs (l.map (·.2.idStr))) m
  | clear {m : Mgr} {l : List (UInt64 × Conn)} : ListsEntries m l → Call m (.clear, .stopped (l.map (·.2))) m

/-- A notifier as a partial function. -/
abbrev Notify := Map UInt64 Nat

/-- One call of the notifier, when `ok c` says whether sending to `c` succeeds. -/
inductive NCall (ok : Nat → Bool) : Notify → NOp × NRes → Notify → Prop where
  | set {m m' : Notify} {id : UInt64} {c : Nat} : SetTo m m' id (some c) → NCall ok m (.set id c, .unit) m'
  | get {m : Notify} {id : UInt64} : NCall ok m (.get id, .conn (m id)) m
  | hasYes {m : Notify} {id : UInt64} : m id ≠ none → NCall ok m (.has id, .bool true) m
  | hasNo {m : Notify} {id : UInt64} : m id = none → NCall ok m (.has id, .bool false) m
  | del {m m' : Notify} {id : UInt64} : SetTo m m' id none → NCall ok m (.del id, .unit) m'
  | nums {m : Notify} {n : Nat} : HasSize m n → NCall ok m (.nums, .nat n) m
  | sendUnknown {m : Notify} {id : UInt64} : m id = none → NCall ok m (.send id, .sent [] true) m
  | send {m : Notify} {id : UInt64} {c : Nat} : m id = some c → NCall ok m (.send id, .sent [c] (!ok c)) m
  | sendAll {m : Notify} {l : List (UInt64 × Nat)} {failed : Bool} : ListsEntries m l → (failed = true ↔ ∃ x ∈ l, ok x.2 = false) →
      NCall ok m (.sendAll, .sent (l.map (·.2)) failed) m

end Zinx.Spec.ConnMgr
