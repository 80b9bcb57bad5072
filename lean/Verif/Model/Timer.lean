import Verif.Model.Sys

/-!
# Model of `ztimer`: the timer wheels and the timer scheduler

Three wheels; level 2 counts hours, level 1 minutes, level 0 seconds. A timer is its ID and its due time in milliseconds; the function to call
goes with it unchanged. Map iteration order is arbitrary. Times are unbounded: the code's are milliseconds got by dividing an int64 by 1000000, so
their differences do not overflow.
-/

namespace Zinx.Timer

/-- A timer and the ID under which it is stored (ztimer/timer.go:49-54; ztimer/timewheel.go:42). -/
structure Timer where
  id : Nat
  due : Int
  deriving DecidableEq

/-- A wheel: the pointer and the slots (ztimer/timewheel.go:30-48). -/
structure Wheel where
  cur : Nat
  slots : Nat → List Timer

/-- Milliseconds between ticks (ztimer/timer.go:15,22,29; ztimer/timerscheduler.go:42-47). -/
def interval : Nat → Int
  | 0 => 1000
  | 1 => 60000
  | _ => 3600000

/-- Number of slots (ztimer/timer.go:17,24,31). -/
def scales : Nat → Nat
  | 0 => 60
  | 1 => 60
  | _ => 12

/-- `addTimer` on the wheel of a level (ztimer/timewheel.go:96-129): the slot, or none to pass the timer on to the next wheel. -/
def place (level cur : Nat) (delay : Int) (force : Bool) : Option Nat :=
  if delay ≥ interval level then some ((cur + (delay / interval level).toNat) % scales level)
  else if level = 0 then some (if force then (cur + 1) % scales level else cur)
  else none

/-- Storing in a slot, a map indexed by ID (ztimer/timewheel.go:103,115,118). -/
def put (l : List Timer) (t : Timer) : List Timer := l.filter (fun x => x.id ≠ t.id) ++ [t]

/-- A slot changed. Change of `timerQueue`, ztimer/timewheel.go:30-48. Auxiliary. -/
def Wheel.set (w : Wheel) (j : Nat) (l : List Timer) : Wheel :=
  { w with slots := fun i => if i = j then l else w.slots i }

/-- A timer stored in a slot. ztimer/timewheel.go:103, :116, :119. -/
def Wheel.store (w : Wheel) (j : Nat) (t : Timer) : Wheel := w.set j (put (w.slots j) t)

/-- `RemoveTimer` (ztimer/timewheel.go:141-150). -/
def Wheel.remove (w : Wheel) (level id : Nat) : Wheel :=
  { w with slots := fun i => if i < scales level then (w.slots i).filter (fun x => x.id ≠ id) else w.slots i }

/-- The slot after the pointer. ztimer/timewheel.go:116, :177. -/
def Wheel.after (w : Wheel) (level : Nat) : Nat := (w.cur + 1) % scales level

/-- A new wheel (ztimer/timewheel.go:51-71). -/
def Wheel.empty : Wheel := ⟨0, fun _ => []⟩

/-- Wheels with the wheel of a level changed. Auxiliary; the wheels are linked by `nextTimeWheel`, ztimer/timewheel.go:45. -/
def wset (f : Nat → α) (k : Nat) (a : α) : Nat → α := fun i => if i = k then a else f i

/-! ## Goroutines -/

/-- Where a rotating goroutine is: waiting for its next turn, in the loop at ztimer/timewheel.go:171-174, in the loop at :179-181. -/
inductive Phase where
  | idle
  | cur
  | next
  deriving DecidableEq

/-- A rotating goroutine (`run`, ztimer/timewheel.go:161-188). Outside `idle` it holds its wheel's lock. `todo` is what is left of the map
it ranges over. `carry = some (t, k)`: in the call chain of `AddTimer` for `t`, about to lock level `k`, holding the locks of all levels above
`k` up to its own. -/
structure Rot where
  phase : Phase
  todo : List Timer
  carry : Option (Timer × Nat)

/-- Calls of `CreateTimerAt`, `CreateTimerAfter` and `CancelTimer` exclude each other (ztimer/timerscheduler.go:66,75,84). -/
inductive User where
  | idle
  | adding (t : Timer) (k : Nat)        -- about to lock level `k`, holding the locks above
  | cancelling (id : Nat) (n : Nat)     -- about to lock level `n - 1`, the levels above are done

/-- The scheduler. `fired`: timers handed out, in order. ztimer/timerscheduler.go:28-37, ztimer/timewheel.go:30-48, and the goroutines. -/
structure State where
  wheel : Nat → Wheel
  rot : Nat → Rot
  user : User
  idGen : Nat
  fired : List Timer

/-- `NewTimerScheduler` (ztimer/timerscheduler.go:40-62). -/
def init : State := ⟨fun _ => .empty, fun _ => ⟨.idle, [], none⟩, .idle, 0, []⟩

/-- A goroutine at the given point of an `AddTimer` chain does not hold the lock of `k`. The locks taken in ztimer/timewheel.go:133-138. -/
def passes (k : Nat) : Option (Timer × Nat) → Prop
  | none => True
  | some (_, j) => k ≤ j

/-- Timers in the hands of a rotation. ztimer/timewheel.go:161-188. -/
def Rot.timers (r : Rot) : List Timer := r.todo ++ (r.carry.map (·.1)).toList

/-- Timer in the hands of a creating call. ztimer/timerscheduler.go:65-80. -/
def User.timers : User → List Timer
  | .adding t _ => [t]
  | _ => []

/-- The lock of level `k` is free. The mutex of ztimer/timewheel.go:30-48. -/
def State.free (s : State) (k : Nat) : Prop :=
  (s.rot k).phase = .idle ∧ (∀ i, k < i → passes k (s.rot i).carry) ∧ (∀ t j, s.user = .adding t j → k ≤ j)

/-- A cancelling call with `n` levels left to visit. ztimer/timerscheduler.go:83-92. -/
def User.visited (id : Nat) : Nat → User
  | 0 => .idle
  | n + 1 => .cancelling id (n + 1)

/-- ztimer/timerscheduler.go:65-92, ztimer/timewheel.go:161-223; each is explained at `Step`. -/
inductive Label where
  | create (t : Timer)
  | add (now : Int)
  | cancel (id : Nat)
  | visit (id : Nat) (n : Nat)
  | rotate (i : Nat)
  | collect (now : Int) (ts : List Timer)

/-- Steps. A step of a goroutine that waits for a lock needs the lock to be free. `now` is the clock reading, which may be anything. -/
inductive Step : State → Label → State → Prop
  /-- ztimer/timerscheduler.go:66-70, 75-79; the ID is a uint32 -/
  | create {s : State} {due : Int} : s.user = .idle →
      Step s (.create ⟨(s.idGen + 1) % 4294967296, due⟩)
        { s with user := .adding ⟨(s.idGen + 1) % 4294967296, due⟩ 2, idGen := (s.idGen + 1) % 4294967296 }
  /-- `AddTimer` stores the timer (ztimer/timewheel.go:133-138) and all locks are released -/
  | addStore {s : State} {t : Timer} {k j : Nat} {now : Int} : s.user = .adding t k → s.free k →
      place k (s.wheel k).cur (t.due - now) false = some j →
      Step s (.add now) { s with user := .idle, wheel := wset s.wheel k ((s.wheel k).store j t) }
  /-- `AddTimer` calls `AddTimer` of the next wheel (ztimer/timewheel.go:124-126) -/
  | addDown {s : State} {t : Timer} {k : Nat} {now : Int} : s.user = .adding t (k + 1) → s.free (k + 1) →
      place (k + 1) (s.wheel (k + 1)).cur (t.due - now) false = none →
      Step s (.add now) { s with user := .adding t k }
  /-- ztimer/timerscheduler.go:83-87 -/
  | cancel {s : State} {id : Nat} : s.user = .idle → Step s (.cancel id) { s with user := .cancelling id 3 }
  /-- ztimer/timerscheduler.go:88-91; the last visit returns -/
  | visit {s : State} {id n : Nat} : s.user = .cancelling id (n + 1) → s.free n →
      Step s (.visit id n)
        { s with user := .visited id n, wheel := wset s.wheel n ((s.wheel n).remove n id) }
  /-- ztimer/timewheel.go:166-170 -/
  | rotStart {s : State} {i : Nat} : i < 3 → s.free i →
      Step s (.rotate i)
        { s with rot := wset s.rot i ⟨.cur, (s.wheel i).slots (s.wheel i).cur, none⟩,
                 wheel := wset s.wheel i ((s.wheel i).set (s.wheel i).cur []) }
  /-- one turn of either loop: the timer stays in the wheel (ztimer/timewheel.go:173, 180) -/
  | rotStore {s : State} {i j : Nat} {a b : List Timer} {t : Timer} {now : Int} : i < 3 → (s.rot i).phase ≠ .idle → (s.rot i).todo = a ++ t :: b →
      (s.rot i).carry = none → place i (s.wheel i).cur (t.due - now) true = some j →
      Step s (.rotate i)
        { s with rot := wset s.rot i ⟨(s.rot i).phase, a ++ b, none⟩, wheel := wset s.wheel i ((s.wheel i).store j t) }
  /-- one turn of either loop: the timer goes to the next wheel -/
  | rotDown {s : State} {i : Nat} {a b : List Timer} {t : Timer} {now : Int} : i + 1 < 3 → (s.rot (i + 1)).phase ≠ .idle →
      (s.rot (i + 1)).todo = a ++ t :: b → (s.rot (i + 1)).carry = none →
      place (i + 1) (s.wheel (i + 1)).cur (t.due - now) true = none →
      Step s (.rotate (i + 1)) { s with rot := wset s.rot (i + 1) ⟨(s.rot (i + 1)).phase, a ++ b, some (t, i)⟩ }
  /-- the carried timer is stored at level `k`; all locks below `i` are released -/
  | carryStore {s : State} {i j k : Nat} {t : Timer} {now : Int} : i < 3 → (s.rot i).carry = some (t, k) → s.free k →
      place k (s.wheel k).cur (t.due - now) false = some j →
      Step s (.rotate i) { s with rot := wset s.rot i ⟨(s.rot i).phase, (s.rot i).todo, none⟩, wheel := wset s.wheel k ((s.wheel k).store j t) }
  /-- the carried timer is passed further down -/
  | carryDown {s : State} {i k : Nat} {t : Timer} {now : Int} : i < 3 → (s.rot i).carry = some (t, k + 1) → s.free (k + 1) →
      place (k + 1) (s.wheel (k + 1)).cur (t.due - now) false = none →
      Step s (.rotate i) { s with rot := wset s.rot i ⟨(s.rot i).phase, (s.rot i).todo, some (t, k)⟩ }
  /-- ztimer/timewheel.go:177-178 -/
  | rotNext {s : State} {i : Nat} : i < 3 → s.rot i = ⟨.cur, [], none⟩ →
      Step s (.rotate i)
        { s with rot := wset s.rot i ⟨.next, (s.wheel i).slots ((s.wheel i).after i), none⟩,
                 wheel := wset s.wheel i ((s.wheel i).set ((s.wheel i).after i) []) }
  /-- ztimer/timewheel.go:184-186 -/
  | rotEnd {s : State} {i : Nat} : i < 3 → s.rot i = ⟨.next, [], none⟩ →
      Step s (.rotate i)
        { s with rot := wset s.rot i ⟨.idle, [], none⟩, wheel := wset s.wheel i ⟨(s.wheel i).after i, (s.wheel i).slots⟩ }
  /-- `GetTimerWithIn` for 100 ms (ztimer/timewheel.go:197-223; ztimer/timerscheduler.go:106) under the lock of the lowest wheel -/
  | collect {s : State} {now : Int} {ts : List Timer} : s.free 0 →
      ts.Perm (((s.wheel 0).slots (s.wheel 0).cur).filter (fun t => t.due - now < 100)) →
      Step s (.collect now ts)
        { s with fired := s.fired ++ ts,
                 wheel := wset s.wheel 0 ((s.wheel 0).set (s.wheel 0).cur
                   (((s.wheel 0).slots (s.wheel 0).cur).filter (fun t => ¬ t.due - now < 100))) }

/-- The slots of a wheel. `timerQueue`, ztimer/timewheel.go:30-48. -/
def Wheel.timers (w : Wheel) (k : Nat) : List Timer := (List.range (scales k)).flatMap w.slots

/-- Everything of a level: its slots and what its rotation holds. ztimer/timewheel.go:30-48, :161-188. -/
def State.level (s : State) (k : Nat) : List Timer := (s.wheel k).timers k ++ (s.rot k).timers

/-- Timers that are pending: in a slot, in the hands of a rotation or of a creating call. ztimer/timerscheduler.go:28-37. -/
def State.pending (s : State) : List Timer := s.level 2 ++ s.level 1 ++ s.level 0 ++ s.user.timers

/-! ## Punctual ticks

All wheels tick exactly every interval, operations take no time. -/

/-- `addTimer` from a level downwards at time `now` (ztimer/timewheel.go:85-130). -/
def addAt (ws : Nat → Wheel) (now : Int) (t : Timer) (force : Bool) (k : Nat) : Nat → Wheel :=
  match place k (ws k).cur (t.due - now) force with
  | some j => wset ws k ((ws k).store j t)
  | none =>
    match k with
    | 0 => ws
    | k + 1 => addAt ws now t false k

/-- `addTimer` for each of a list. ztimer/timewheel.go:171-174, :179-181. -/
def addAll (ws : Nat → Wheel) (now : Int) (k : Nat) (ts : List Timer) : Nat → Wheel :=
  ts.foldl (fun ws t => addAt ws now t true k) ws

/-- One turn of the wheel of a level (ztimer/timewheel.go:161-188), the timers taken in the order `o` says. -/
def tick (o : List Timer → List Timer) (ws : Nat → Wheel) (now : Int) (k : Nat) : Nat → Wheel :=
  let ws1 := addAll (wset ws k ((ws k).set (ws k).cur [])) now k (o ((ws k).slots (ws k).cur))
  let n := (ws1 k).after k
  let ws2 := addAll (wset ws1 k ((ws1 k).set n [])) now k (o ((ws1 k).slots n))
  wset ws2 k { ws2 k with cur := n }

/-- A scheduler whose calls take no time, ztimer/timerscheduler.go:28-37, ztimer/timewheel.go:30-48. -/
structure Timed where
  wheel : Nat → Wheel
  now : Int
  next : Nat → Int       -- when the wheel of a level ticks next
  idGen : Nat
  fired : List Timer

/-- ztimer/timerscheduler.go:65-92, ztimer/timewheel.go:161-223. -/
inductive TLabel where
  | pass (d : Int)
  | tick (k : Nat)
  | create (t : Timer)
  | cancel (id : Nat)
  | collect (ts : List Timer)

/-- The ticks of ztimer/timewheel.go:161-188, the calls of ztimer/timerscheduler.go:65-92, and `GetTimerWithIn`, ztimer/timewheel.go:197-223. -/
inductive TStep : Timed → TLabel → Timed → Prop
  /-- time passes, not beyond a tick -/
  | pass {s : Timed} {d : Int} : 0 ≤ d → (∀ k, k < 3 → s.now + d ≤ s.next k) → TStep s (.pass d) { s with now := s.now + d }
  | tick {s : Timed} {k : Nat} {o : List Timer → List Timer} : k < 3 → s.now = s.next k → (∀ l, (o l).Perm l) →
      TStep s (.tick k) { s with wheel := tick o s.wheel s.now k, next := wset s.next k (s.next k + interval k) }
  | create {s : Timed} {due : Int} : TStep s (.create ⟨(s.idGen + 1) % 4294967296, due⟩)
      { s with wheel := addAt s.wheel s.now ⟨(s.idGen + 1) % 4294967296, due⟩ false 2, idGen := (s.idGen + 1) % 4294967296 }
  | cancel {s : Timed} {id : Nat} : TStep s (.cancel id) { s with wheel := fun k => if k < 3 then (s.wheel k).remove k id else s.wheel k }
  | collect {s : Timed} : TStep s (.collect (((s.wheel 0).slots (s.wheel 0).cur).filter (fun t => t.due - s.now < 100)))
      { s with fired := s.fired ++ ((s.wheel 0).slots (s.wheel 0).cur).filter (fun t => t.due - s.now < 100),
               wheel := wset s.wheel 0 ((s.wheel 0).set (s.wheel 0).cur
        (((s.wheel 0).slots (s.wheel 0).cur).filter (fun t => ¬ t.due - s.now < 100))) }

/-- Empty wheels, whose ticks are due at any time within their interval. ztimer/timerscheduler.go:40-62, ztimer/timewheel.go:51-71. -/
def Timed.start (s : Timed) : Prop :=
  (∀ k, s.wheel k = .empty) ∧ s.idGen = 0 ∧ s.fired = [] ∧ ∀ k, k < 3 → s.now ≤ s.next k ∧ s.next k ≤ s.now + interval k

end Zinx.Timer
