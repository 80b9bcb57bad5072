/-!
# Data races (the Go memory model, https://go.dev/ref/mem)

The other models let the goroutines of a program take turns, and every step sees the effect of all steps before it. Go promises that only for programs without data races. This file has what is needed
to speak about races: what the goroutines do with the fields and locks of an object (`Act`), traces of it, the order "happens before", the code of an object's methods as far as it concerns fields and locks
(`Code`), and executions, in which any number of goroutines call methods in any order.
-/

namespace Zinx.Race

/-- What a goroutine may do, as far as the order of events is concerned. Vocabulary of the Go memory model; no code of zinx. -/
inductive Act (F L : Type) where
  /-- reads a field -/
  | rd (f : F)
  /-- writes a field, or changes the map, slice or buffer it holds -/
  | wr (f : F)
  /-- `Lock` (`true`) or `RLock` (`false`) -/
  | acq (l : L) (x : Bool)
  /-- `Unlock` or `RUnlock` -/
  | rel (l : L) (x : Bool)
  /-- `go`, with the number of the new goroutine -/
  | fork (t : Nat)
  /-- sends or closes on a channel; receives what was sent or sees the close -/
  | snd (m : Nat)
  | rcv (m : Nat)
  /-- an operation of `sync/atomic` on a variable -/
  | atom (v : Nat)
deriving DecidableEq

/-- The events of an execution in the order in which they take place, with the number of the goroutine. Vocabulary of the Go memory model; no code of zinx. -/
abbrev Trace (F L : Type) := List (Nat × Act F L)

variable {F L : Type}

/-- The event at `i` comes before the event at `j` by a single rule of the memory model: both are of the same goroutine; an unlock before a later lock, unless both are for reading; a `go` statement before
everything the new goroutine does; a send before its receive. Atomic operations are ordered if the later one observes the earlier one. That is not recorded in a trace: with `all`, any two of them on the
same variable count as ordered, without it none do. What is claimed to be ordered is so without `all`; what is claimed not to be ordered is not even so with `all`. Vocabulary of the Go memory model; no code of zinx. -/
def Edge (all : Bool) (tr : Trace F L) (i j : Nat) : Prop :=
  i < j ∧ ∃ t a u b, tr[i]? = some (t, a) ∧ tr[j]? = some (u, b) ∧
    (t = u ∨ (∃ l x y, a = .rel l x ∧ b = .acq l y ∧ (x || y) = true) ∨ a = .fork u ∨ (∃ m, a = .snd m ∧ b = .rcv m) ∨ (all = true ∧ ∃ v, a = .atom v ∧ b = .atom v))

/-- "Happens before". Vocabulary of the Go memory model; no code of zinx. -/
inductive HB (all : Bool) (tr : Trace F L) : Nat → Nat → Prop where
  | one {i j : Nat} : Edge all tr i j → HB all tr i j
  | trans {i j k : Nat} : HB all tr i j → HB all tr j k → HB all tr i k

/-- Vocabulary of the Go memory model; no code of zinx. -/
def Act.reads (f : F) : Act F L → Prop
  | .rd g => g = f
  | _ => False

/-- Vocabulary of the Go memory model; no code of zinx. -/
def Act.writes (f : F) : Act F L → Prop
  | .wr g => g = f
  | _ => False

/-- Two events of different goroutines that access the same field, one of them writing. Vocabulary of the Go memory model; no code of zinx. -/
def Conflict (tr : Trace F L) (f : F) (i j : Nat) : Prop :=
  i < j ∧ ∃ t a u b, tr[i]? = some (t, a) ∧ tr[j]? = some (u, b) ∧ t ≠ u ∧ ((a.writes f ∧ (b.reads f ∨ b.writes f)) ∨ (a.reads f ∧ b.writes f))

/-- There is no data race on the field. Vocabulary of the Go memory model; no code of zinx. -/
def RaceFree (tr : Trace F L) (f : F) : Prop := ∀ i j, Conflict tr f i j → HB false tr i j

/-- There is a data race on the field. Vocabulary of the Go memory model; no code of zinx. -/
def Races (tr : Trace F L) (f : F) : Prop := ∃ i j, Conflict tr f i j ∧ ¬ HB true tr i j

/-! ## Locks -/

/-- Who holds each lock: the goroutine that locked it, those that locked it for reading. `sync.Mutex` and `sync.RWMutex`, as used e.g. in zutils/shard_lock_map.go:62-76. -/
structure Held (L : Type) where
  excl : L → Option Nat := fun _ => none
  shared : L → List Nat := fun _ => []

variable [DecidableEq F] [DecidableEq L]

/-- One event, if it can take place. An unlock of a lock the goroutine does not hold is a fatal error or spoils somebody else's critical section; `Execution` excludes it, and `check` shows that it never
happens. `sync.Mutex` and `sync.RWMutex`, as used e.g. in zutils/shard_lock_map.go:62-76. -/
def lockStep (h : Held L) (t : Nat) : Act F L → Option (Held L)
  | .acq l true => if h.excl l = none ∧ h.shared l = [] then some { h with excl := fun k => if k = l then some t else h.excl k } else none
  | .acq l false => if h.excl l = none then some { h with shared := fun k => if k = l then t :: h.shared k else h.shared k } else none
  | .rel l true => if h.excl l = some t then some { h with excl := fun k => if k = l then none else h.excl k } else none
  | .rel l false => if t ∈ h.shared l then some { h with shared := fun k => if k = l then (h.shared k).erase t else h.shared k } else none
  | _ => some h

/-- `sync.Mutex` and `sync.RWMutex`, as used e.g. in zutils/shard_lock_map.go:62-76. -/
def locks : Held L → Trace F L → Option (Held L)
  | h, [] => some h
  | h, (t, a) :: tr => (lockStep h t a).bind fun h' => locks h' tr

/-! ## Code -/

/-- Code as far as fields, locks and goroutines are concerned. `alt` is a branch, whatever the condition; `star` a loop, however often it runs. Language in which Model/RaceCode.lean describes the methods of zinx; no code of zinx by itself. -/
inductive Code (F L : Type) where
  | fail
  | skip
  | rd (f : F)
  | wr (f : F)
  | acq (l : L) (x : Bool)
  | rel (l : L) (x : Bool)
  | go
  | snd
  | rcv
  | atom (v : Nat)
  | seq (c d : Code F L)
  | alt (c d : Code F L)
  | star (c : Code F L)
deriving DecidableEq

/-- Several commands in a row. Language in which Model/RaceCode.lean describes the methods of zinx; no code of zinx by itself. -/
def Code.all : List (Code F L) → Code F L
  | [] => .skip
  | [c] => c
  | c :: cs => .seq c (Code.all cs)

/-- One of several commands. Language in which Model/RaceCode.lean describes the methods of zinx; no code of zinx by itself. -/
def Code.any : List (Code F L) → Code F L
  | [] => .fail
  | [c] => c
  | c :: cs => .alt c (Code.any cs)

/-- With the lock held (`l.Lock(); defer l.Unlock()`). Language in which Model/RaceCode.lean describes the methods of zinx; no code of zinx by itself. -/
def Code.within (l : L) (x : Bool) (c : Code F L) : Code F L := .seq (.acq l x) (.seq c (.rel l x))

/-- May or may not happen. Language in which Model/RaceCode.lean describes the methods of zinx; no code of zinx by itself. -/
def Code.opt (c : Code F L) : Code F L := .alt .skip c

/-- The sequences of actions that code may carry out. -/
inductive Lang : Code F L → List (Act F L) → Prop where
  | skip : Lang .skip []
  | rd (f : F) : Lang (.rd f) [.rd f]
  | wr (f : F) : Lang (.wr f) [.wr f]
  | acq (l : L) (x : Bool) : Lang (.acq l x) [.acq l x]
  | rel (l : L) (x : Bool) : Lang (.rel l x) [.rel l x]
  | go (t : Nat) : Lang .go [.fork t]
  | snd (m : Nat) : Lang .snd [.snd m]
  | rcv (m : Nat) : Lang .rcv [.rcv m]
  | atom (v : Nat) : Lang (.atom v) [.atom v]
  | seq {c d : Code F L} {v w : List (Act F L)} : Lang c v → Lang d w → Lang (.seq c d) (v ++ w)
  | altl {c d : Code F L} {w : List (Act F L)} : Lang c w → Lang (.alt c d) w
  | altr {c d : Code F L} {w : List (Act F L)} : Lang d w → Lang (.alt c d) w
  | stop {c : Code F L} : Lang (.star c) []
  | more {c : Code F L} {v w : List (Act F L)} : Lang c v → Lang (.star c) w → Lang (.star c) (v ++ w)

/-- What goroutine `t` does. Vocabulary; no code of zinx by itself. -/
def proj (t : Nat) (tr : Trace F L) : List (Act F L) := tr.filterMap fun e => if e.1 = t then some e.2 else none

/-- An execution in which goroutine `t` runs the code `code t`. The locks work as locks do, a goroutine does nothing before the `go` statement that starts it, a message is received after it was sent. The
execution may end in the middle. Vocabulary; no code of zinx by itself. -/
structure Execution (code : Nat → Code F L) (tr : Trace F L) : Prop where
  locks : ∃ h, locks {} tr = some h
  threads : ∀ t, ∃ rest, Lang (code t) (proj t tr ++ rest)
  started : ∀ (i j t u : Nat) (a : Act F L), tr[i]? = some (u, Act.fork t) → tr[j]? = some (t, a) → i < j
  sent : ∀ (j u m : Nat), tr[j]? = some (u, Act.rcv m) → ∃ i t, i < j ∧ tr[i]? = some (t, Act.snd m)

/-- What goroutines know of an object: who has a pointer to it, whether it is in the table, which messages carry it. Vocabulary; no code of zinx by itself. -/
structure Known where
  who : List Nat
  published : Bool := false
  carried : List Nat := []
deriving DecidableEq

/-- An event in which only goroutines with a pointer to the object access the field `f` of it. A goroutine has one if it was started by one with a pointer (`go` statements with the object or a closure
over it), found it in the table in which one with a pointer has put it, or received it in a message. That is generous: a pointer may be passed wherever it can. Vocabulary; no code of zinx by itself. -/
def knowStep (table f : F) (k : Known) : Nat × Act F L → Option Known
  | (t, .rd g) => if g = f ∧ t ∉ k.who then none else if g = table ∧ k.published then some { k with who := t :: k.who } else some k
  | (t, .wr g) => if g = f ∧ t ∉ k.who then none else if g = table ∧ t ∈ k.who then some { k with published := true } else some k
  | (t, .fork u) => if t ∈ k.who then some { k with who := u :: k.who } else some k
  | (t, .snd m) => if t ∈ k.who then some { k with carried := m :: k.carried } else some k
  | (t, .rcv m) => if m ∈ k.carried then some { k with who := t :: k.who } else some k
  | _ => some k

/-- Vocabulary; no code of zinx by itself. -/
def knows (table f : F) : Known → Trace F L → Option Known
  | k, [] => some k
  | k, e :: tr => (knowStep table f k e).bind fun k' => knows table f k' tr

/-- Only goroutines that have a pointer to the object access `f`; the first to have one is `c`. Vocabulary; no code of zinx by itself. -/
def Owned (table f : F) (c : Nat) (tr : Trace F L) : Prop := ∃ k, knows table f { who := [c] } tr = some k

/-- Every goroutine calls one after the other any of the methods. Vocabulary; no code of zinx by itself. -/
def uses (methods : List (Code F L)) : Nat → Code F L := fun _ => .star (.any methods)

end Zinx.Race
