import Verif.Model.Log
import Verif.Model.Fair

/-!
# Log calls from many goroutines (zlog/logger_core.go:197-240)

`OutPut` formats the line in a buffer shared by all calls, under a mutex that it gives up for a moment to look for the caller. Other goroutines change the settings (`ResetFlags`, `AddFlag`, `SetPrefix`,
lines 356-376) under the same mutex.

* The output file and the hook are set before (`SetLogFile` and `SetLogHook` take no lock). The isolation level is checked before `OutPut` (C60).
* A panic inside `formatHeader` unlocks the mutex on its way (line 202) and leaves the goroutine.
* The hook runs with the mutex held (line 236). With `nested` it may make a log call of its own.
-/

namespace Zinx.LogConc

open Log (Ctx formatHeader hasAny bitShortFile bitLongFile)

/-- A call of `OutPut`. zlog/logger_core.go:197. -/
structure Call where
  x : Ctx
  level : Int
  s : Bytes

/-- The settings under the mutex. `prefix`, `flag`, zlog/logger_core.go:67-93. -/
structure Settings where
  pre : Bytes
  flag : BitVec 64

/-- zlog/logger_core.go:356-376. -/
inductive Change where
  | flags (f : BitVec 64)
  | add (f : BitVec 64)
  | pre (p : Bytes)

/-- zlog/logger_core.go:356-376. -/
def Change.apply (st : Settings) : Change → Settings
  | .flags f => { st with flag := f }
  | .add f => { st with flag := st.flag ||| f }
  | .pre p => { st with pre := p }

/-- A goroutine: not in a call; at line 201; at line 204; at line 213; at lines 217, 219, 221-225, 228-234, 236; at the deferred unlock; before the lock of a setter. `known`: the caller was looked up. Lines of zlog/logger_core.go. -/
inductive Pc where
  | idle
  | want (c : Call)
  | first (c : Call)
  | again (c : Call)
  | reset (c : Call) (known : Bool)
  | header (c : Call) (known : Bool)
  | body (c : Call)
  | write (c : Call)
  | hook (c : Call)
  | unlock (c : Call)
  | set (d : Change)

/-- zlog/logger_core.go:119-121, :236. -/
structure Cfg where
  hasHook : Bool
  nested : Bool

/-- zlog/logger_core.go:67-93 and the goroutines. -/
structure State where
  st : Settings
  lock : Option Nat := none
  buf : Bytes := []
  pc : Nat → Pc := fun _ => .idle

/-- zlog/logger_core.go:197-240, :356-376; each is explained at `Step`. -/
inductive Label where
  | call (i : Nat) (c : Call)
  /-- an inner step -/
  | own (i : Nat)
  /-- goroutine `i` writes `b` to the file or the console -/
  | wrote (i : Nat) (b : Bytes)
  /-- goroutine `i` passes `b` to the hook -/
  | hooked (i : Nat) (b : Bytes)
  /-- the hook calls the logger -/
  | nested (i : Nat) (c : Call)
  | ret (i : Nat)
  | panicked (i : Nat)
  | callSet (i : Nat) (d : Change)
  /-- goroutine `i` changes the settings -/
  | changed (i : Nat) (d : Change)

/-- Auxiliary. -/
def set (f : Nat → Pc) (i : Nat) (v : Pc) : Nat → Pc := fun j => if j = i then v else f j

/-- The test in line 204. zlog/logger_core.go:204. -/
def wantsFile (st : Settings) : Bool := hasAny st.flag (bitShortFile ||| bitLongFile)

/-- Lines 223-225. zlog/logger_core.go:223-225. -/
def lineEnd (s : Bytes) : Bytes := if s.length > 0 ∧ s.getLast? ≠ some 10 then [10] else []

/-- The header, line 219. zlog/logger_core.go:219. -/
def head (st : Settings) (c : Call) (known : Bool) : Option Bytes :=
  formatHeader st.pre st.flag c.x.time (if known then c.x.file else []) (if known then c.x.line else 0) c.level

/-- Lines of zlog/logger_core.go. -/
inductive Step (g : Cfg) : State → Label → State → Prop where
  | call (s : State) (i : Nat) (c : Call) : s.pc i = .idle → Step g s (.call i c) { s with pc := set s.pc i (.want c) }
  /-- line 201 -/
  | lock (s : State) (i : Nat) (c : Call) : s.pc i = .want c → s.lock = none → Step g s (.own i) { s with lock := some i, pc := set s.pc i (.first c) }
  /-- lines 204-212 -/
  | look (s : State) (i : Nat) (c : Call) : s.pc i = .first c → wantsFile s.st = true → Step g s (.own i) { s with lock := none, pc := set s.pc i (.again c) }
  | noLook (s : State) (i : Nat) (c : Call) : s.pc i = .first c → wantsFile s.st = false → Step g s (.own i) { s with pc := set s.pc i (.reset c false) }
  /-- line 213 -/
  | relock (s : State) (i : Nat) (c : Call) : s.pc i = .again c → s.lock = none → Step g s (.own i) { s with lock := some i, pc := set s.pc i (.reset c true) }
  /-- line 217 -/
  | reset (s : State) (i : Nat) (c : Call) (k : Bool) : s.pc i = .reset c k → Step g s (.own i) { s with buf := [], pc := set s.pc i (.header c k) }
  /-- line 219 -/
  | header (s : State) (i : Nat) (c : Call) (k : Bool) (h : Bytes) : s.pc i = .header c k → head s.st c k = some h → Step g s (.own i) { s with buf := s.buf ++ h, pc := set s.pc i (.body c) }
  | headerPanic (s : State) (i : Nat) (c : Call) (k : Bool) : s.pc i = .header c k → head s.st c k = none → Step g s (.panicked i) { s with lock := none, pc := set s.pc i .idle }
  /-- lines 221-225 -/
  | body (s : State) (i : Nat) (c : Call) : s.pc i = .body c → Step g s (.own i) { s with buf := s.buf ++ c.s ++ lineEnd c.s, pc := set s.pc i (.write c) }
  /-- lines 228-234 -/
  | write (s : State) (i : Nat) (c : Call) : s.pc i = .write c → Step g s (.wrote i s.buf) { s with pc := set s.pc i (if g.hasHook then .hook c else .unlock c) }
  /-- lines 236-238 -/
  | hook (s : State) (i : Nat) (c : Call) : s.pc i = .hook c → Step g s (.hooked i s.buf) { s with pc := set s.pc i (.unlock c) }
  | nested (s : State) (i : Nat) (c c' : Call) : s.pc i = .hook c → g.nested = true → Step g s (.nested i c') { s with pc := set s.pc i (.want c') }
  /-- lines 202, 239 -/
  | unlock (s : State) (i : Nat) (c : Call) : s.pc i = .unlock c → Step g s (.ret i) { s with lock := none, pc := set s.pc i .idle }
  | callSet (s : State) (i : Nat) (d : Change) : s.pc i = .idle → Step g s (.callSet i d) { s with pc := set s.pc i (.set d) }
  | change (s : State) (i : Nat) (d : Change) : s.pc i = .set d → s.lock = none → Step g s (.changed i d) { s with st := d.apply s.st, pc := set s.pc i .idle }

end Zinx.LogConc
