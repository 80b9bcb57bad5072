import Verif.Model.Fair

/-!
# The properties of a connection: `SetProperty`, `GetProperty`, `RemoveProperty` (znet/connection.go:466-492)

The same code is in znet/ws_connection.go:463-489 and znet/kcp_connection.go:454-480. Any number of goroutines call these methods. A value is any `V` (`interface{}`). An access to the Go map has a
beginning and an end: two accesses at the same time, one of which writes, end the process ("concurrent map read and map write"), and so does a write to the nil map.
-/

namespace Zinx.Property

/-- A call. znet/connection.go:466, :476, :487. -/
inductive Op (V : Type) where
  | set (key : String) (value : V)
  | get (key : String)
  | remove (key : String)

/-- What a call returns: `GetProperty` the value, or an error (`none`). znet/connection.go:476-485. -/
inductive Res (V : Type) where
  | unit
  | got (value : Option V)

/-- A goroutine: in no call; before `Lock`; after it (znet/connection.go:467, :477, :488); before the assignment (:473); in the access to the map; before the deferred `Unlock`; before the return. -/
inductive Pc (V : Type) where
  | idle
  | want (op : Op V)
  | locked (op : Op V)
  | put (key : String) (value : V)
  | access (op : Op V)
  | unlock (res : Res V)
  | leave (res : Res V)

structure State (V : Type) where
  /-- `property`; `none` is the nil map, which it is at first (znet/connection.go:68) -/
  map : Option (String → Option V) := none
  /-- who holds `propertyLock` -/
  lock : Option Nat := none
  pc : Nat → Pc V := fun _ => .idle

/-- The actions of znet/connection.go:466-492. -/
inductive Label (V : Type) where
  | call (i : Nat) (op : Op V)
  | inside (i : Nat)
  | ret (i : Nat) (res : Res V)
  /-- the process ends -/
  | fatal

/-- Auxiliary; no code of zinx. -/
def set {α : Type} (f : Nat → α) (i : Nat) (v : α) : Nat → α := fun j => if j = i then v else f j

/-- Entry of a map. Auxiliary; no code of zinx. -/
def entry {V : Type} (m : Option (String → Option V)) (k : String) : Option V := match m with
  | none => none
  | some f => f k

/-- The call writes to the map. Auxiliary; no code of zinx. -/
def Op.writes {V : Type} : Op V → Bool
  | .get _ => false
  | _ => true

/-- Lines of znet/connection.go:466-492. -/
inductive Step (V : Type) : State V → Label V → State V → Prop where
  | call (s : State V) (i : Nat) (op : Op V) : s.pc i = .idle → Step V s (.call i op) { s with pc := set s.pc i (.want op) }
  /-- lines 467, 477, 488 -/
  | lock (s : State V) (i : Nat) (op : Op V) : s.pc i = .want op → s.lock = none → Step V s (.inside i) { s with lock := some i, pc := set s.pc i (.locked op) }
  /-- lines 469-471 -/
  | make (s : State V) (i : Nat) (k : String) (v : V) : s.pc i = .locked (.set k v) → s.map = none →
      Step V s (.inside i) { s with map := some fun _ => none, pc := set s.pc i (.put k v) }
  | exists (s : State V) (i : Nat) (k : String) (v : V) : s.pc i = .locked (.set k v) → s.map ≠ none → Step V s (.inside i) { s with pc := set s.pc i (.put k v) }
  /-- line 473, beginning -/
  | put (s : State V) (i : Nat) (k : String) (v : V) : s.pc i = .put k v → Step V s (.inside i) { s with pc := set s.pc i (.access (.set k v)) }
  /-- lines 480, 491, beginning -/
  | get (s : State V) (i : Nat) (k : String) : s.pc i = .locked (.get k) → Step V s (.inside i) { s with pc := set s.pc i (.access (.get k)) }
  | remove (s : State V) (i : Nat) (k : String) : s.pc i = .locked (.remove k) → Step V s (.inside i) { s with pc := set s.pc i (.access (.remove k)) }
  /-- line 473 -/
  | setDone (s : State V) (i : Nat) (k : String) (v : V) (m : String → Option V) : s.pc i = .access (.set k v) → s.map = some m →
      Step V s (.inside i) { s with map := some fun k' => if k' = k then some v else m k', pc := set s.pc i (.unlock .unit) }
  /-- line 473 on the nil map -/
  | setNil (s : State V) (i : Nat) (k : String) (v : V) : s.pc i = .access (.set k v) → s.map = none → Step V s .fatal s
  /-- lines 480-484; the nil map has no entries -/
  | getDone (s : State V) (i : Nat) (k : String) : s.pc i = .access (.get k) → Step V s (.inside i) { s with pc := set s.pc i (.unlock (.got (entry s.map k))) }
  /-- line 491; on the nil map it does nothing -/
  | removeDone (s : State V) (i : Nat) (k : String) : s.pc i = .access (.remove k) →
      Step V s (.inside i) { s with map := s.map.map fun m k' => if k' = k then none else m k', pc := set s.pc i (.unlock .unit) }
  /-- two accesses at the same time, one of which writes -/
  | clash (s : State V) (i j : Nat) (a b : Op V) : i ≠ j → s.pc i = .access a → s.pc j = .access b → a.writes = true → Step V s .fatal s
  /-- the deferred `Unlock` (lines 468, 478, 489) -/
  | unlock (s : State V) (i : Nat) (r : Res V) : s.pc i = .unlock r → Step V s (.inside i) { s with lock := none, pc := set s.pc i (.leave r) }
  | ret (s : State V) (i : Nat) (r : Res V) : s.pc i = .leave r → Step V s (.ret i r) { s with pc := set s.pc i .idle }

end Zinx.Property
