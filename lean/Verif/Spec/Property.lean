import Verif.Model.Property

/-!
What is expected of the properties of a connection, without lock and Go map: calls and returns as before, and in between each call takes effect at one instant (`act`) on a table of keys and values.
-/

namespace Zinx.Property

/-- A caller: in no call; its call has not taken effect; it has, with this result. -/
inductive APc (V : Type) where
  | idle
  | waiting (op : Op V)
  | done (res : Res V)

structure Atomic (V : Type) where
  table : String → Option V := fun _ => none
  pc : Nat → APc V := fun _ => .idle

/-- What a call does to the table. -/
def Op.apply {V : Type} (op : Op V) (t : String → Option V) : String → Option V := match op with
  | .set k v => fun k' => if k' = k then some v else t k'
  | .get _ => t
  | .remove k => fun k' => if k' = k then none else t k'

/-- What it returns. -/
def Op.result {V : Type} (op : Op V) (t : String → Option V) : Res V := match op with
  | .get k => .got (t k)
  | _ => .unit

inductive ALabel (V : Type) where
  | call (i : Nat) (op : Op V)
  | act (i : Nat)
  | ret (i : Nat) (res : Res V)

inductive AStep (V : Type) : Atomic V → ALabel V → Atomic V → Prop where
  | call (s : Atomic V) (i : Nat) (op : Op V) : s.pc i = .idle → AStep V s (.call i op) { s with pc := fun j => if j = i then .waiting op else s.pc j }
  | act (s : Atomic V) (i : Nat) (op : Op V) : s.pc i = .waiting op →
      AStep V s (.act i) { s with table := op.apply s.table, pc := fun j => if j = i then .done (op.result s.table) else s.pc j }
  | ret (s : Atomic V) (i : Nat) (r : Res V) : s.pc i = .done r → AStep V s (.ret i r) { s with pc := fun j => if j = i then .idle else s.pc j }

/-- Calls and returns, which callers see. -/
inductive Event (V : Type) where
  | call (i : Nat) (op : Op V)
  | ret (i : Nat) (res : Res V)

def Label.event {V : Type} : Label V → Option (Event V)
  | .call i op => some (.call i op)
  | .ret i r => some (.ret i r)
  | _ => none

def ALabel.event {V : Type} : ALabel V → Option (Event V)
  | .call i op => some (.call i op)
  | .ret i r => some (.ret i r)
  | .act _ => none

end Zinx.Property
