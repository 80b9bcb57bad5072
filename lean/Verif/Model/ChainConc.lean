import Verif.Model.Sys

/-! # Model of interceptors that are added while messages are handled

`AddInterceptor` (znet/chainbuilder.go:39-41) appends to the slice `body` of the builder, and `Execute` (:44-63), which the reader of every
connection calls for every message (znet/msghandler.go:346-350), reads it. Neither takes a lock.

A slice is three words, pointer, length and capacity, and `append` writes the new element and the words that change. The language does not say in
which order another goroutine sees these writes, nor in which order `Execute` reads the words. So each word is written and read in a step of its
own, in any order. Simplifications, all in favour of the code: an adder reads the three words at once; an element, which is an interface value of two
words, is written at once; `Execute` copies the elements at once; and memory is otherwise sequentially consistent. The head and the tail of the
chain are not modelled here, see `Model/Chain`. Interceptors are numbers. -/

namespace Zinx.ChainConc

/-- Where a goroutine is that calls `AddInterceptor`. znet/chainbuilder.go:39-41. -/
inductive Adder where
  | idle
  /-- called with `x`, has not read the slice -/
  | want (x : Nat)
  /-- the writes that are still to be made: element (array and index), pointer, capacity, length -/
  | storing (x : Nat) (cell : Option (Nat × Nat)) (ptr cap len : Option Nat)
  deriving DecidableEq

/-- Where a goroutine is that calls `Execute`. -/
inductive Reader where
  | idle
  /-- at the test of the length (znet/chainbuilder.go:51) -/
  | test
  /-- about to read pointer and length for the second `append` (znet/chainbuilder.go:52) -/
  | load
  | hasLen (n : Nat)
  | hasPtr (p : Nat)
  | copy (n p : Nat)
  /-- what was copied; `none`: memory outside of the array was read -/
  | got (r : Option (List (Option Nat)))
  deriving DecidableEq

/-- Arrays (their length is their capacity; `none` is a nil interface), the three words of `body`, the goroutines. znet/chainbuilder.go:16-19 (`body`), and the goroutines. -/
structure State where
  arr : Nat → List (Option Nat) := fun _ => []
  fresh : Nat := 1
  ptr : Nat := 0
  len : Nat := 0
  cap : Nat := 0
  adder : Nat → Adder := fun _ => .idle
  reader : Nat → Reader := fun _ => .idle

/-- Change of a table at one point. Auxiliary. -/
def upd {α : Type} (f : Nat → α) (i : Nat) (a : α) : Nat → α := fun j => if j = i then a else f j

/-- What is seen. Calls and returns of znet/chainbuilder.go:39-41 and :44-63. -/
inductive Label where
  /-- goroutine `j` calls `AddInterceptor(x)` -/
  | addBegin (j x : Nat)
  /-- the call returns -/
  | addEnd (j x : Nat)
  /-- goroutine `i` calls `Execute` -/
  | execBegin (i : Nat)
  /-- the interceptors the chain is made of, between head and tail, `none` if memory outside of the array was read -/
  | execEnd (i : Nat) (r : Option (List (Option Nat)))
  | tau
  deriving DecidableEq

/-- The slice as `newChainBuilder` makes it (znet/chainbuilder.go:22-26). -/
def init : State := {}

inductive Step : State → Label → State → Prop where
  | addBegin {s : State} {j x : Nat} : s.adder j = .idle → Step s (.addBegin j x) { s with adder := upd s.adder j (.want x) }
  /-- `append` (znet/chainbuilder.go:40) when there is room: the element and the length are to be written -/
  | inPlace {s : State} {j x : Nat} : s.adder j = .want x → s.len < s.cap →
      Step s .tau { s with adder := upd s.adder j (.storing x (some (s.ptr, s.len)) none none (some (s.len + 1))) }
  /-- `append` when there is none: a new array of any sufficient capacity `c` gets the old elements; the element and all words are to be written -/
  | grow {s : State} {j x c : Nat} : s.adder j = .want x → ¬ s.len < s.cap → s.len + 1 ≤ c →
      Step s .tau { s with
        arr := upd s.arr s.fresh ((s.arr s.ptr).take s.len ++ List.replicate (c - s.len) none), fresh := s.fresh + 1,
        adder := upd s.adder j (.storing x (some (s.fresh, s.len)) (some s.fresh) (some c) (some (s.len + 1))) }
  | writeCell {s : State} {j x a k : Nat} {p c l : Option Nat} : s.adder j = .storing x (some (a, k)) p c l →
      Step s .tau { s with arr := upd s.arr a ((s.arr a).set k (some x)), adder := upd s.adder j (.storing x none p c l) }
  | writePtr {s : State} {j x p : Nat} {e : Option (Nat × Nat)} {c l : Option Nat} : s.adder j = .storing x e (some p) c l →
      Step s .tau { s with ptr := p, adder := upd s.adder j (.storing x e none c l) }
  | writeCap {s : State} {j x c : Nat} {e : Option (Nat × Nat)} {p l : Option Nat} : s.adder j = .storing x e p (some c) l →
      Step s .tau { s with cap := c, adder := upd s.adder j (.storing x e p none l) }
  | writeLen {s : State} {j x l : Nat} {e : Option (Nat × Nat)} {p c : Option Nat} : s.adder j = .storing x e p c (some l) →
      Step s .tau { s with len := l, adder := upd s.adder j (.storing x e p c none) }
  | addEnd {s : State} {j x : Nat} : s.adder j = .storing x none none none none → Step s (.addEnd j x) { s with adder := upd s.adder j .idle }
  | execBegin {s : State} {i : Nat} : s.reader i = .idle → Step s (.execBegin i) { s with reader := upd s.reader i .test }
  /-- :51, there are none -/
  | empty {s : State} {i : Nat} : s.reader i = .test → s.len = 0 → Step s .tau { s with reader := upd s.reader i (.got (some [])) }
  /-- :51, there are some -/
  | some {s : State} {i : Nat} : s.reader i = .test → s.len ≠ 0 → Step s .tau { s with reader := upd s.reader i .load }
  /-- the reads of :52 -/
  | lenFirst {s : State} {i : Nat} : s.reader i = .load → Step s .tau { s with reader := upd s.reader i (.hasLen s.len) }
  | ptrSecond {s : State} {i n : Nat} : s.reader i = .hasLen n → Step s .tau { s with reader := upd s.reader i (.copy n s.ptr) }
  | ptrFirst {s : State} {i : Nat} : s.reader i = .load → Step s .tau { s with reader := upd s.reader i (.hasPtr s.ptr) }
  | lenSecond {s : State} {i p : Nat} : s.reader i = .hasPtr p → Step s .tau { s with reader := upd s.reader i (.copy s.len p) }
  /-- the elements of :52 -/
  | copy {s : State} {i n p : Nat} : s.reader i = .copy n p →
      Step s .tau { s with reader := upd s.reader i (.got (if n ≤ (s.arr p).length then some ((s.arr p).take n) else none)) }
  /-- the chain is made (:59) -/
  | execEnd {s : State} {i : Nat} {r : Option (List (Option Nat))} : s.reader i = .got r →
      Step s (.execEnd i r) { s with reader := upd s.reader i .idle }

end Zinx.ChainConc
