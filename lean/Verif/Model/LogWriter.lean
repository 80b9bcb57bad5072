import Verif.Model.Sys

/-!
# Model of `zutils/witer.go`: the rotating log writer

The file system is the current log file and the archives; creating, renaming, zipping and writing files is taken to succeed. A zip archive is
its contents. Removing archives that are too old (`delete`, zutils/witer.go:169-190) is in `LogClean.lean`. Sizes are unbounded (the code's are int64).
-/

namespace Zinx.LogWriter

open Zinx

/-- What the writer uses of a `time.Time`: the day (first ten characters of RFC3339) and the archive name suffix
(`time2name`, zutils/witer.go:198-200). No relation between the two is assumed. -/
structure Time where
  day : Nat
  name : Nat
  deriving DecidableEq

/-- The writer and its files (zutils/witer.go:25-40). `names` is not in the code: all archive names used so far, in order. -/
structure State where
  maxSize : Int
  size : Int
  created : Time
  isOpen : Bool               -- `w.file != nil`
  buf : Bytes                 -- contents of the `bufio.Writer`
  file : Option Bytes         -- the file at `fpath`
  archives : List (Nat × Bytes)
  names : List Nat

/-- `New` (zutils/witer.go:42-61) when the file at `fpath` is `file`; 64 MiB limit. -/
def new (file : Option Bytes) : State :=
  { maxSize := 67108864, size := 0, created := ⟨0, 0⟩, isOpen := false, buf := [], file := file, archives := [], names := [] }

/-- Size of the buffer of `bufio.NewWriter`. As called in zutils/witer.go:92-128. -/
def bufSize : Nat := 4096

/-- `bufio.Writer.Write`: data that does not fit fills the buffer, the buffer is flushed, and what is left is buffered or, if longer than the
buffer, written directly. Gives file and buffer. As called in zutils/witer.go:92-128. -/
def bufWrite (file buf p : Bytes) : Bytes × Bytes :=
  if p.length ≤ bufSize - buf.length then (file, buf ++ p)
  else if buf = [] then (file ++ p, [])
  else
    let n := bufSize - buf.length
    let file' := file ++ (buf ++ p.take n)
    let rest := p.drop n
    if rest.length ≤ bufSize then (file', rest) else (file' ++ rest, [])

/-- Creating an archive: an existing one of the same name is overwritten. zutils/witer.go:131-166. -/
def archive (as : List (Nat × Bytes)) (name : Nat) (content : Bytes) : List (Nat × Bytes) :=
  as.filter (fun a => a.1 ≠ name) ++ [(name, content)]

/-- `rotate` (zutils/witer.go:131-166) at time `now`; `mod` is the modification time of an existing file. -/
def State.rotate (s : State) (now mod : Time) : State :=
  let s1 := if s.isOpen then
      { s with archives := archive s.archives s.created.name (s.file.getD [] ++ s.buf), names := s.names ++ [s.created.name],
               file := none, buf := [], size := 0 }
    else s
  match s1.file with
  | none => { s1 with created := now, file := some [], isOpen := true, buf := [] }
  | some f => { s1 with size := f.length, created := mod, isOpen := true, buf := [] }

/-- Clock readings during one `Write`: at opening, the modification time found then, for the day check, and in the two rotations. zutils/witer.go:92-166. -/
structure Clock where
  opening : Time
  mod : Time
  now : Time
  dayRot : Time
  sizeRot : Time

/-- `Write` (zutils/witer.go:92-128). -/
def State.write (s : State) (p : Bytes) (c : Clock) : State :=
  let s := if s.isOpen then s else s.rotate c.opening c.mod
  let s := if s.created.day ≠ c.now.day then s.rotate c.dayRot c.mod else s
  let s := if s.size + p.length + s.buf.length ≥ s.maxSize then s.rotate c.sizeRot c.mod else s
  let r := bufWrite (s.file.getD []) s.buf p
  { s with file := some r.1, buf := r.2, size := s.size + p.length }

/-- `flush` (zutils/witer.go:220-227), by the daemon (:62-66) or as first half of `Close`. With a closed file nothing can be written. -/
def State.flush (s : State) : State :=
  if s.isOpen then { s with file := some (s.file.getD [] ++ s.buf), buf := [] } else s

/-- `close` (zutils/witer.go:208-218), second half of `Close` (:202-205); it takes the lock again. -/
def State.close (s : State) : State := { s with isOpen := false }

/-- `SetMaxSize` (zutils/witer.go:76-83). -/
def State.setMaxSize (s : State) (ms : Int) : State := if ms < 1 then s else { s with maxSize := ms }

/-- Events, each under the writer's mutex. zutils/witer.go:76-83, :92-128, :202-227. -/
inductive Event where
  | write (p : Bytes) (c : Clock)
  | flush
  | close
  | setMaxSize (ms : Int)

/-- Effect of an event. zutils/witer.go:76-83, :92-128, :202-227. -/
def State.apply (s : State) : Event → State
  | .write p c => s.write p c
  | .flush => s.flush
  | .close => s.close
  | .setMaxSize ms => s.setMaxSize ms

/-- Effect of a history. zutils/witer.go:76-227. -/
def State.run (s : State) (es : List Event) : State := es.foldl State.apply s

/-- Calls, one after the other. zutils/witer.go:62-66, :76-83, :92-128, :202-205. -/
inductive Op where
  | write (p : Bytes) (c : Clock)
  | daemon                       -- the flushing goroutine
  | close
  | setMaxSize (ms : Int)

/-- A call as events; `Close` takes the mutex twice. zutils/witer.go:62-66, :76-83, :92-128, :202-205. -/
def Op.events : Op → List Event
  | .write p c => [.write p c]
  | .daemon => [.flush]
  | .close => [.flush, .close]
  | .setMaxSize ms => [.setMaxSize ms]

/-- Effect of calls that do not overlap. zutils/witer.go:62-227. -/
def State.runOps (s : State) (ops : List Op) : State := s.run (ops.flatMap Op.events)

end Zinx.LogWriter
