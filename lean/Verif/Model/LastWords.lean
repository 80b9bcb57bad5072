import Verif.Model.Log
import Verif.Model.LogWriter

/-!
# What is left of the log when the process ends (zlog/logger_core.go, zutils/witer.go)

A logger, the writer of its file and the console. The writer buffers (`bufio.NewWriter`, zutils/witer.go:164); its goroutine flushes every five seconds
(:62-66). A process ends by `Fatal` (`os.Exit`, zlog/logger_core.go:307, :315), by a panic nobody recovers, or when `main` returns, for example after
`Serve` (znet/server.go:463-471). None of these runs other code of the process, so what is buffered then is gone: the files are what they are, and the
end needs no step of its own.

* Each step is one call under the logger's mutex, or one flush of the goroutine. Creating and writing files succeeds, as in `LogWriter.lean`.
* The goroutine of a writer that has been closed finds an empty buffer, and is left out.
* Data the operating system has taken counts as being in the file.
-/

namespace Zinx.LastWords

open Zinx

/-- A logger (zlog/logger_core.go:67-93): its settings (the field `hasFile` is not used, `w` tells), the writer in use with its `cons` flag
(zutils/witer.go:36), the writers used before, and what went to the console. -/
structure Proc where
  logger : Log.Logger
  w : Option (LogWriter.State × Bool)
  old : List LogWriter.State
  err : Bytes

/-- What happens to a logger. zlog/logger_core.go:246-343, :348-427, zutils/witer.go:62-66. -/
inductive Act where
  | says (x : Log.Ctx) (m : Log.Method) (text : Bytes) (c : LogWriter.Clock)   -- a log call
  | tick                                  -- the flushing goroutine
  | opens (found : Option Bytes)          -- `SetLogFile`; the file found at the path
  | setCons (b : Bool)
  | setMaxSize (ms : Int)
  | setLogger (l : Log.Logger)            -- prefix, flags, level, hook

/-- One line: to the console if there is no file (zlog/logger_core.go:228-230), otherwise to the writer (:231-234), which copies it to the console if so
set (zutils/witer.go:95-97). -/
def Proc.write (p : Proc) (c : LogWriter.Clock) (o : Log.Out) : Proc :=
  match p.w with
  | none => { p with err := p.err ++ o.bytes }
  | some (s, cons) => { p with w := some (s.write o.bytes c, cons), err := if cons then p.err ++ o.bytes else p.err }

/-- A change of the writer in use, if there is one. Auxiliary; no code of zinx. -/
def Proc.onWriter (p : Proc) (f : LogWriter.State × Bool → LogWriter.State × Bool) : Proc := { p with w := p.w.map f }

/-- Effect of a step and the lines output; `none` is a panic while formatting.
Log calls zlog/logger_core.go:246-343; `SetLogFile` :380-385, which closes the writer used so far (zutils/witer.go:202-205); `SetMaxSize` zlog/logger_core.go:398-405; `SetCons`
zlog/logger_core.go:408-415; the other settings zlog/logger_core.go:348-376, :425-427. -/
def Proc.step (p : Proc) : Act → Option (Proc × List Log.Out)
  | .says x m text c =>
    (Log.call { p.logger with hasFile := p.w.isSome } x m text).map fun r => (r.1.foldl (fun p o => p.write c o) p, r.1)
  | .tick => some (p.onWriter fun w => (w.1.flush, w.2), [])
  | .opens found =>
    some ({ p with w := some (LogWriter.new found, false), old := p.old ++ p.w.toList.map fun w => w.1.flush.close }, [])
  | .setCons b => some (p.onWriter fun w => (w.1, b), [])
  | .setMaxSize ms => some (p.onWriter fun w => (w.1.setMaxSize ms, w.2), [])
  | .setLogger l => some ({ p with logger := l }, [])

/-- A history: the process afterwards and the lines output by each step. A sequence of calls of zlog/logger_core.go:246-427. -/
def Proc.run (p : Proc) : List Act → Option (Proc × List (List Log.Out))
  | [] => some (p, [])
  | a :: as => do
    let (p1, o) ← p.step a
    let (p2, os) ← p1.run as
    some (p2, o :: os)

/-- `NewZinxLog` (zlog/logger_core.go:102-112): no file yet. -/
def start (l : Log.Logger) : Proc := ⟨l, none, [], []⟩

/-- Contents of the archives and of the file of a writer. Files of zutils/witer.go:131-199. -/
def onDisk (s : LogWriter.State) : Bytes := (s.archives.map (·.2)).flatten ++ s.file.getD []

/-- Contents of all files when the process ends. Auxiliary; no code of zinx. -/
def Proc.disk (p : Proc) : Bytes := (p.old.map onDisk).flatten ++ (p.w.map fun w => onDisk w.1).getD []

end Zinx.LastWords
