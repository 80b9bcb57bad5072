import Verif.Model.Basic

/-!
# Close callbacks (znet/callbacks.go)

A singly linked list with a pointer to its last element. Objects live in a heap; a pointer is the number of an object, nil is `none`. Handlers and keys are
interface values of comparable types. The connection guards the list with a read-write mutex (znet/connection.go:585-607), so operations are atomic.
`none` as a result is a nil dereference or a loop that does not end.
-/

namespace Zinx.Callbacks

/-- znet/callbacks.go:3-8; `call` names the function. -/
structure Node (α : Type) where
  handler : α
  key : α
  call : Nat
  next : Option Nat

/-- znet/callbacks.go:10-13 and the heap with the number of objects allocated so far. -/
structure State (α : Type) where
  heap : Nat → Node α
  size : Nat
  first : Option Nat
  last : Option Nat

section
variable {α : Type}

/-- Assignment to the `next` field of object `p`. znet/callbacks.go:23, :35. -/
def setNext (heap : Nat → Node α) (p : Nat) (n : Option Nat) : Nat → Node α := fun i => if i = p then { heap i with next := n } else heap i

/-- Allocation of object `p`. znet/callbacks.go:19. -/
def alloc (heap : Nat → Node α) (p : Nat) (x : Node α) : Nat → Node α := fun i => if i = p then x else heap i

/-- The empty list of a new connection: both pointers nil. znet/connection.go:26-119 (`closeCallback`), znet/callbacks.go:10-13. -/
def init (x : Node α) : State α := ⟨fun _ => x, 0, none, none⟩

/-- znet/callbacks.go:15-26; `callback` is `none` for nil. -/
def State.add (s : State α) (handler key : α) (callback : Option Nat) : Option (State α) :=
  match callback with
  | none => some s
  | some c =>
    let item := s.size
    let heap := alloc s.heap item ⟨handler, key, c, none⟩
    match s.first with
    | none => some ⟨heap, s.size + 1, some item, some item⟩
    | some _ =>
      match s.last with
      | none => none
      | some l => some ⟨setNext heap l (some item), s.size + 1, s.first, some item⟩

variable [DecidableEq α]

/-- The loop of `Remove`, znet/callbacks.go:30-42, with at most `fuel` more rounds. -/
def removeLoop (s : State α) (handler key : α) : (fuel : Nat) → (prev cur : Option Nat) → Option (State α)
  | _, _, none => some s
  | 0, _, some _ => none
  | fuel + 1, prev, some c =>
    if (s.heap c).handler = handler ∧ (s.heap c).key = key then
      let (heap, first) :=
        if s.first = some c then (s.heap, (s.heap c).next)
        else match prev with
          | some p => (setNext s.heap p (s.heap c).next, s.first)
          | none => (s.heap, s.first)
      let last := if s.last = some c then prev else s.last
      some ⟨heap, s.size, first, last⟩
    else removeLoop s handler key fuel (some c) (s.heap c).next

/-- znet/callbacks.go:28-43. A list without cycles has at most `size` elements. -/
def State.remove (s : State α) (handler key : α) : Option (State α) := removeLoop s handler key s.size none s.first

omit [DecidableEq α] in
/-- The loop of `Invoke`, znet/callbacks.go:45-49: the calls made, given which functions panic (the panic ends the loop; it is recovered in the
goroutine started by the finalizer). -/
def invokeLoop (s : State α) (panics : Nat → Bool) : (fuel : Nat) → (cur : Option Nat) → Option (List Nat)
  | _, none => some []
  | 0, some _ => none
  | fuel + 1, some c =>
    if panics (s.heap c).call then some [(s.heap c).call]
    else (invokeLoop s panics fuel (s.heap c).next).map ((s.heap c).call :: ·)

omit [DecidableEq α] in
/-- `Invoke`, znet/callbacks.go:45-49. -/
def State.invoke (s : State α) (panics : Nat → Bool) : Option (List Nat) := invokeLoop s panics s.size s.first

omit [DecidableEq α] in
/-- The loop of `Count`, znet/callbacks.go:51-57. -/
def countLoop (s : State α) : (fuel : Nat) → (cur : Option Nat) → Option Nat
  | _, none => some 0
  | 0, some _ => none
  | fuel + 1, some c => (countLoop s fuel (s.heap c).next).map (· + 1)

omit [DecidableEq α] in
/-- `Count`, znet/callbacks.go:51-57. -/
def State.count (s : State α) : Option Nat := countLoop s s.size s.first

/-- Calls to `Add` and `Remove`. znet/callbacks.go:15, :28. -/
inductive Op (α : Type) where
  | add (handler key : α) (callback : Option Nat)
  | remove (handler key : α)

/-- One call, znet/callbacks.go:15-43. -/
def State.op (s : State α) : Op α → Option (State α)
  | .add h k c => s.add h k c
  | .remove h k => s.remove h k

/-- A history of calls. znet/callbacks.go:15-43. -/
def State.run (s : State α) : List (Op α) → Option (State α)
  | [] => some s
  | o :: os => (s.op o).bind (·.run os)

end

end Zinx.Callbacks
