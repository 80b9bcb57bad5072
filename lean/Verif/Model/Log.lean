import Verif.Model.Basic

/-!
# Log lines (zlog/logger_core.go)

A log call formats a header from the flags, the time, the caller's position and the level, appends the text and writes the result. Formatting of the
text by `fmt`, reading the clock and finding the caller are inputs. The mutex makes one call's use of the buffer atomic, so calls are modelled one at a
time. `none` is a run-time panic (index out of range).
-/

namespace Zinx.Log

/-- zlog/logger_core.go:36-45, the flag bits. -/
def bitDate : BitVec 64 := 1
/-- zlog/logger_core.go:36-42. -/
def bitTime : BitVec 64 := 2
/-- zlog/logger_core.go:36-42. -/
def bitMicroSeconds : BitVec 64 := 4
/-- zlog/logger_core.go:36-42. -/
def bitLongFile : BitVec 64 := 8
/-- zlog/logger_core.go:36-42. -/
def bitShortFile : BitVec 64 := 16
/-- zlog/logger_core.go:36-42. -/
def bitLevel : BitVec 64 := 32

/-- `log.flag&mask != 0`. As in zlog/logger_core.go:204. -/
def hasAny (flag mask : BitVec 64) : Bool := flag &&& mask != 0

/-- The bytes of an ASCII literal. Auxiliary. -/
def lit (s : String) : Bytes := s.toList.map fun c => UInt8.ofNat c.toNat

/-- zlog/logger_core.go:58-65. -/
def levels : List Bytes := [lit "[DEBUG]", lit "[INFO]", lit "[WARN]", lit "[ERROR]", lit "[PANIC]", lit "[FATAL]"]

/-- The loop of `itoa`, zlog/logger_core.go:443-447: `room` is `bp`, `acc` is `b[bp:]`. -/
def itoaLoop : (room : Nat) → (u : Nat) → (wid : Int) → (acc : Bytes) → Option Bytes
  | 0, u, wid, acc => if u > 0 ∨ wid > 0 then none else some acc
  | room + 1, u, wid, acc =>
    if u > 0 ∨ wid > 0 then itoaLoop room (u / 10) (wid - 1) (UInt8.ofNat (u % 10 + 48) :: acc) else some acc

/-- zlog/logger_core.go:433-454, the bytes written. -/
def itoa (i : Int) (wid : Int) : Option Bytes :=
  let u := toU64 i
  if u = 0 ∧ wid ≤ 1 then some [48] else itoaLoop 32 u wid []

/-- What `formatHeader` reads from a `time.Time`. zlog/logger_core.go:131-194. -/
structure Time where
  year : Int
  month : Int
  day : Int
  hour : Int
  min : Int
  sec : Int
  nano : Int

/-- The search for the last '/', zlog/logger_core.go:179-185, from index `i` down to 1. -/
def shortFrom (file : Bytes) : Nat → Bytes
  | 0 => file
  | i + 1 => if file[i + 1]? = some 47 then file.drop (i + 2) else shortFrom file i

/-- zlog/logger_core.go:143-151, the date part. -/
def datePart (flag : BitVec 64) (t : Time) : Option Bytes :=
  if hasAny flag bitDate then do
    let y ← itoa t.year 4
    let m ← itoa t.month 2
    let d ← itoa t.day 2
    some (y ++ [47] ++ m ++ [47] ++ d ++ [32])
  else some []

/-- zlog/logger_core.go:154-167, the time part. -/
def timePart (flag : BitVec 64) (t : Time) : Option Bytes :=
  if hasAny flag (bitTime ||| bitMicroSeconds) then do
    let h ← itoa t.hour 2
    let m ← itoa t.min 2
    let s ← itoa t.sec 2
    let u ← if hasAny flag bitMicroSeconds then do
        let n ← itoa (t.nano.tdiv 1000) 6
        some ([46] ++ n)
      else some []
    some (h ++ [58] ++ m ++ [58] ++ s ++ u ++ [32])
  else some []

/-- zlog/logger_core.go:170-172, the level part. -/
def levelPart (flag : BitVec 64) (level : Int) : Option Bytes :=
  if hasAny flag bitLevel then (if level < 0 then none else levels[level.toNat]?) else some []

/-- zlog/logger_core.go:175-192, the file part. -/
def filePart (flag : BitVec 64) (file : Bytes) (line : Int) : Option Bytes :=
  if hasAny flag (bitShortFile ||| bitLongFile) then do
    let f := if hasAny flag bitShortFile then shortFrom file (file.length - 1) else file
    let l ← itoa line (-1)
    some (f ++ [58] ++ l ++ [58, 32])
  else some []

/-- zlog/logger_core.go:131-194. -/
def formatHeader (pre : Bytes) (flag : BitVec 64) (t : Time) (file : Bytes) (line level : Int) : Option Bytes :=
  let p : Bytes := if pre ≠ [] then [60] ++ pre ++ [62] else []
  if hasAny flag (bitDate ||| bitTime ||| bitMicroSeconds) then do
    let d ← datePart flag t
    let c ← timePart flag t
    let l ← levelPart flag level
    let f ← filePart flag file line
    some (p ++ d ++ c ++ l ++ f)
  else some p

/-- Where a line goes, zlog/logger_core.go:226-233. -/
inductive Sink where
  | stderr
  | file
deriving DecidableEq, Repr

/-- zlog/logger_core.go:67-93: the settings of a logger; of `fw` and `onLogHook` only whether they are set. -/
structure Logger where
  pre : Bytes
  flag : BitVec 64
  isolation : Int
  hasFile : Bool
  hasHook : Bool

/-- What a call sees of its surroundings: clock and caller. zlog/logger_core.go:198-212. -/
structure Ctx where
  time : Time
  file : Bytes
  line : Int

/-- Bytes passed on by one `OutPut` call. zlog/logger_core.go:226-238. -/
structure Out where
  sink : Sink
  bytes : Bytes
  hooked : Option Bytes
deriving DecidableEq, Repr

/-- zlog/logger_core.go:197-240. Without a file flag the caller is not looked up: file "" and line 0. -/
def outPut (c : Logger) (x : Ctx) (level : Int) (s : Bytes) : Option Out := do
  let look := hasAny c.flag (bitShortFile ||| bitLongFile)
  let h ← formatHeader c.pre c.flag x.time (if look then x.file else []) (if look then x.line else 0) level
  let b := h ++ s ++ (if s.length > 0 ∧ s.getLast? ≠ some 10 then [10] else [])
  some ⟨if c.hasFile then .file else .stderr, b, if c.hasHook then some b else none⟩

/-- The logging methods. zlog/logger_core.go:246-344. -/
inductive Method where
  | debug | info | warn | error | panic | fatal | stack
deriving DecidableEq, Repr

/-- How a call ends. zlog/logger_core.go:302-344. -/
inductive After where
  | returns
  | exits      -- os.Exit(1)
  | panics     -- panic(s)
deriving DecidableEq, Repr

/-- zlog/logger_core.go:47-55, the level constant used by each method. -/
def Method.level : Method → Int
  | .debug => 0 | .info => 1 | .warn => 2 | .error => 3 | .panic => 4 | .fatal => 5 | .stack => 3

/-- zlog/logger_core.go:242-244. -/
def verifyLogIsolation (c : Logger) (level : Int) : Bool := decide (c.isolation > level)

/-- zlog/logger_core.go:246-343: a method called with the formatted text `s` (`fmt.Sprintf(format, v...)`, or `fmt.Sprintln(v...)`, or for `Stack` the
text and the stacks): lines output, and how the call ends. -/
def call (c : Logger) (x : Ctx) (m : Method) (s : Bytes) : Option (List Out × After) :=
  match m with
  | .stack => do
    let o ← outPut c x m.level s
    some ([o], .returns)
  | .fatal =>
    if verifyLogIsolation c m.level then some ([], .returns) else do
    let o ← outPut c x m.level s
    some ([o], .exits)
  | .panic =>
    if verifyLogIsolation c m.level then some ([], .returns) else do
    let o ← outPut c x m.level s
    some ([o], .panics)
  | _ =>
    if verifyLogIsolation c m.level then some ([], .returns) else do
    let o ← outPut c x m.level s
    some ([o], .returns)

end Zinx.Log
