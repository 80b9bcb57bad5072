import Verif.Model.Basic

/-!
# Places in the code that log lines and panic reports name

Call stacks are lists of frames, innermost first. Frames of generated wrappers and inlined calls are as `runtime.Caller` counts them: the former are left out, the latter counted.
-/

namespace Zinx.Caller

/-- A frame: name of the function as `runtime.FuncForPC(pc).Name()` gives it (package path, dot, function), file, line. What is asked for in znet/defaultrouterfunc.go:65-71 and zlog/logger_core.go:208. -/
structure Frame where
  func : List Char
  file : List Char
  line : Nat
deriving DecidableEq

/-- `runtime.Caller(skip)` in the function of the innermost frame. As called in znet/defaultrouterfunc.go:65 and zlog/logger_core.go:208. -/
def caller (stack : List Frame) (skip : Nat) : Option Frame := stack[skip]?

/-! ## The logger -/

/-- How a line gets to `OutPut`. -/
inductive Entry where
  /-- `zlog.Debugf` … `zlog.Stack` (zlog/stdzlog.go:72-122) -/
  | package
  /-- `zlog.Ins().InfoF` … (zlog/default.go:14-39) with the default logger -/
  | ins
  /-- `Debugf` … `Stack` of a logger made with `NewZinxLog` (zlog/logger_core.go:246-344) -/
  | method
  /-- `Debugf` … `Stack` of `zlog.StdZinxLog` -/
  | stdMethod
  /-- `OutPut` of a logger made with `NewZinxLog` (zlog/logger_core.go:197) -/
  | output
  /-- `OutPut` of `zlog.StdZinxLog` -/
  | stdOutput
deriving DecidableEq

/-- `calldDepth`: 2 (zlog/logger_core.go:106), of `StdZinxLog` 3 (zlog/stdzlog.go:129). -/
def depth : Entry → Nat
  | .package | .ins | .stdMethod | .stdOutput => 3
  | .method | .output => 2

/-- The frames of the package `zlog` at the call of `runtime.Caller` (zlog/logger_core.go:208): `OutPut`, the method of the logger, the wrapper. -/
def zlogFrames (out meth wrap : Frame) : Entry → List Frame
  | .package | .ins => [out, meth, wrap]
  | .method | .stdMethod => [out, meth]
  | .output | .stdOutput => [out]

/-- File and line in the header (zlog/logger_core.go:208-212). -/
def place (out meth wrap : Frame) (e : Entry) (user : List Frame) : List Char × Nat :=
  match caller (zlogFrames out meth wrap e ++ user) (depth e) with
  | some f => (f.file, f.line)
  | none => ("unknown-file".toList, 0)

/-! ## `RouterRecovery` -/

/-- `strings.Split(s, ".")`. As called in znet/defaultrouterfunc.go:71. -/
def splitDot : List Char → List (List Char)
  | [] => [[]]
  | c :: cs => if c = '.' then [] :: splitDot cs else
    match splitDot cs with
    | [] => [[c]]
    | x :: xs => (c :: x) :: xs

/-- The name shown for a function (znet/defaultrouterfunc.go:69-71): the second part; `none` is the panic of the index. -/
def shownName (func : List Char) : Option (List Char) := (splitDot func)[1]?

/-- The part of `getInfo` for frames `i`, `i+1`, …, 5 (znet/defaultrouterfunc.go:64-73): name, file without directory, line; `none` if it panics. -/
def report (base : List Char → List Char) (stack : List Frame) : Nat → Nat → Option (List (List Char × List Char × Nat))
  | _, 0 => some []
  | i, n + 1 =>
    match caller stack i with
    | none => some []
    | some f => (shownName f.func).bind fun x => (report base stack (i + 1) n).map fun r => (x, base f.file, f.line) :: r

/-- `getInfo(StackBegin)` (znet/defaultrouterfunc.go:15-22, 58-76), called by the deferred function, called by the runtime, which `raised` frames of its own: `gopanic` for `panic(v)`; for failing index
expressions also `goPanicIndex`; for nil pointers also `panicmem` and `sigpanic`. -/
def recovered (base : List Char → List Char) (getInfo deferred : Frame) (raised user : List Frame) : Option (List (List Char × List Char × Nat)) :=
  report base (getInfo :: deferred :: raised ++ user) 3 3

end Zinx.Caller
