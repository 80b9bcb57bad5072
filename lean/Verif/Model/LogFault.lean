import Verif.Model.LogWriter

/-!
# The rotating log writer when file operations fail (zutils/witer.go)

`Model/LogWriter` takes every file operation to succeed. Here each may fail; which ones do is an input of every call (`RotFaults`, `WriteFaults`). Calls do not overlap, as there.

* `os.Sync` and `os.Remove` have no influence on the contents: a file that stays besides its zip archive is the same data twice.
* A zip archive is its contents, or nothing if its last part could not be written (`ZipRes.silent`).
* Nobody else changes the files.
-/

namespace Zinx.LogFault

open Zinx.LogWriter (Time Clock bufSize archive)

/-- What a write to the file does: everything is written, or an error after `k` bytes. `os.File.Write`, called in zutils/witer.go:92-128, :220-227. -/
inductive WriteRes where
  | good
  | fails (k : Nat)

/-- What `ZipToFile` (zutils/witer.go:233-243) does: it succeeds; it reports an error, and the file that was to be archived is kept; or an error occurs in `zw.Close()` or `fw.Close()`, which are deferred
and whose errors are dropped (:239, :262): no error is reported, and the file is removed. -/
inductive ZipRes where
  | good
  | reported
  | silent
deriving DecidableEq

/-- Which operations of a `rotate` fail: the flush (zutils/witer.go:134), `os.Rename` (:140), `ZipToFile` (:142), `os.Stat` (:152), `os.OpenFile` (:159). -/
structure RotFaults where
  flush : WriteRes := .good
  rename : Bool := true
  zip : ZipRes := .good
  stat : Bool := true
  opens : Bool := true

/-- Which operations of a `Write` fail: those of the rotation for opening the file, of that for the day, of that for the size, and the at most two writes of `bufio.Writer.Write`. Of zutils/witer.go:92-128. -/
structure WriteFaults where
  opening : RotFaults := {}
  day : RotFaults := {}
  size : RotFaults := {}
  w1 : WriteRes := .good
  w2 : WriteRes := .good

/-- `w.file`: nil, an open file, a file that was closed. zutils/witer.go:25-40. -/
inductive Handle where
  | absent
  | live
  | dead
deriving DecidableEq

/-- zutils/witer.go:25-40 and the files. -/
structure State where
  maxSize : Int
  size : Int := 0
  created : Time := ⟨0, 0⟩
  handle : Handle := .absent
  /-- `bufio.Writer.err`: once set, it stays, and nothing is taken any more. -/
  broken : Bool := false
  buf : Bytes := []
  /-- the file at `fpath` -/
  file : Option Bytes
  archives : List (Nat × Bytes) := []
  /-- not in the code: the archive names used so far -/
  names : List Nat := []

/-- A write of `data` to `w.file`: the state, how much was written, and whether without an error. zutils/witer.go:122 and :220-227, through `bufio`. -/
def State.put (s : State) (data : Bytes) (w : WriteRes) : State × Nat × Bool :=
  match s.handle, w with
  | .live, .good => ({ s with file := some (s.file.getD [] ++ data) }, data.length, true)
  | .live, .fails k => ({ s with file := some (s.file.getD [] ++ data.take k) }, (data.take k).length, false)
  | _, _ => (s, 0, false)

/-- `bufio.Writer.Flush`. As called in zutils/witer.go:208-227. -/
def State.flush (s : State) (w : WriteRes) : State :=
  if s.broken ∨ s.buf = [] then s else
  let r := s.put s.buf w
  { r.1 with buf := s.buf.drop r.2.1, broken := !r.2.2 }

/-- `bufio.Writer.Write`: the state and the number of bytes taken; it returns an error if and only if the writer is broken afterwards. As called in zutils/witer.go:92-128. -/
def State.bufWrite (s : State) (p : Bytes) (w1 w2 : WriteRes) : State × Nat :=
  if s.broken then (s, 0)
  else if p.length ≤ bufSize - s.buf.length then ({ s with buf := s.buf ++ p }, p.length)
  else if s.buf = [] then
    let r := s.put p w1
    ({ r.1 with broken := !r.2.2 }, r.2.1)
  else
    let n := bufSize - s.buf.length
    let s1 := { s with buf := s.buf ++ p.take n }.flush w1
    if s1.broken then (s1, n)
    else if (p.drop n).length ≤ bufSize then ({ s1 with buf := p.drop n }, p.length)
    else
      let r := s1.put (p.drop n) w2
      ({ r.1 with broken := !r.2.2 }, n + r.2.1)

/-- The part of `rotate` for an open file (zutils/witer.go:133-151). -/
def State.retire (s : State) (f : RotFaults) : State :=
  let s := s.flush f.flush
  match (if f.rename then s.file else none) with
  | some c =>
    { s with handle := .dead, size := 0, archives := archive s.archives s.created.name (if f.zip = .silent then [] else c), names := s.names ++ [s.created.name], file := none }
  | none => { s with handle := .dead, size := 0 }

/-- `rotate` (zutils/witer.go:131-166), and whether without an error. When `os.OpenFile` fails, `w.file` and `w.bw` stay as they were: nil or closed. -/
def State.rotate (s : State) (now mod : Time) (f : RotFaults) : State × Bool :=
  let s1 := if s.handle = .absent then s else s.retire f
  let s2 := match (if f.stat then s1.file else none) with
    | none => { s1 with created := now }
    | some c => { s1 with size := c.length, created := mod }
  if f.opens then ({ s2 with handle := .live, file := some (s2.file.getD []), buf := [], broken := false }, true) else (s2, false)

/-- What a `Write` does with its line: it returns no error; it returns an error after showing the line on the console; it returns an error. zutils/witer.go:92-128. -/
inductive Res where
  | ok
  | shown
  | failed
deriving DecidableEq

/-- The last part of `Write` (zutils/witer.go:121-127). -/
def State.finish (s : State) (p : Bytes) (f : WriteFaults) : State × Res :=
  let r := s.bufWrite p f.w1 f.w2
  ({ r.1 with size := r.1.size + r.2 }, if r.1.broken then .failed else .ok)

/-- zutils/witer.go:116-120, and on. -/
def State.forSize (s : State) (p : Bytes) (c : Clock) (f : WriteFaults) : State × Res :=
  if s.size + p.length + s.buf.length ≥ s.maxSize then
    let r := s.rotate c.sizeRot c.mod f.size
    if r.2 then r.1.finish p f else (r.1, .failed)
  else s.finish p f

/-- zutils/witer.go:109-114, and on. -/
def State.forDay (s : State) (p : Bytes) (c : Clock) (f : WriteFaults) : State × Res :=
  if s.created.day ≠ c.now.day then
    let r := s.rotate c.dayRot c.mod f.day
    if r.2 then r.1.forSize p c f else (r.1, .failed)
  else s.forSize p c f

/-- `Write` (zutils/witer.go:92-128). -/
def State.write (s : State) (p : Bytes) (c : Clock) (f : WriteFaults) : State × Res :=
  if s.handle = .absent then
    let r := s.rotate c.opening c.mod f.opening
    if r.2 then r.1.forDay p c f else (r.1, .shown)
  else s.forDay p c f

/-- Calls: `Write`; `flush` by the daemon (zutils/witer.go:62-66); `Close` (:202-205). -/
inductive Op where
  | write (p : Bytes) (c : Clock) (f : WriteFaults)
  | daemon (w : WriteRes)
  | close (w : WriteRes)

/-- The effect of a call, and of a `Write` its line and what became of it. zutils/witer.go:62-66, :92-128, :202-227. -/
def State.apply (s : State) : Op → State × List (Bytes × Res)
  | .write p c f => ((s.write p c f).1, [(p, (s.write p c f).2)])
  | .daemon w => (s.flush w, [])
  | .close w => ({ s.flush w with handle := .absent }, [])

/-- The effect of a history. zutils/witer.go:62-227. -/
def State.run (s : State) : List Op → State × List (Bytes × Res)
  | [] => (s, [])
  | o :: ops => (((s.apply o).1.run ops).1, (s.apply o).2 ++ ((s.apply o).1.run ops).2)

/-- `New` (zutils/witer.go:42-61) and `SetMaxSize` when the file at `fpath` is `file`. -/
def new (maxSize : Int) (file : Option Bytes) : State := { maxSize := maxSize, file := file }

end Zinx.LogFault
