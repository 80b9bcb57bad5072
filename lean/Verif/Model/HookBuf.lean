import Verif.Model.Basic

/-!
# The buffer of a logger, and slices of it that hooks keep (zlog/logger_core.go:216-238)

`log.buf` is a `bytes.Buffer` that nobody reads from, used again for each line (`Reset` keeps the array). `Bytes()` is a slice of its array. Arrays are numbered in the order in which they are allocated.
-/

namespace Zinx.HookBuf

/-- A `bytes.Buffer` with read offset 0: the arrays allocated so far (by number, content), the number of the current one and the length in use. The capacity of an array is the length of its content. `bytes.Buffer` as used in zlog/logger_core.go:216-238; no code of zinx. -/
structure Buf where
  arrays : List Bytes
  cur : Nat
  len : Nat

/-- A slice from the start of an array. `bytes.Buffer` as used in zlog/logger_core.go:216-238; no code of zinx. -/
structure Slice where
  array : Nat
  len : Nat

/-- What one reads through a slice. `bytes.Buffer` as used in zlog/logger_core.go:216-238; no code of zinx. -/
def Buf.read (b : Buf) (x : Slice) : Bytes := ((b.arrays[x.array]?).getD []).take x.len

/-- `Reset`. `bytes.Buffer` as used in zlog/logger_core.go:216-238; no code of zinx. -/
def Buf.reset (b : Buf) : Buf := { b with len := 0 }

/-- `Bytes()`. `bytes.Buffer` as used in zlog/logger_core.go:216-238; no code of zinx. -/
def Buf.bytes (b : Buf) : Slice := ⟨b.cur, b.len⟩

/-- `data` put into `a` from index `i` on. `bytes.Buffer` as used in zlog/logger_core.go:216-238; no code of zinx. -/
def put (a : Bytes) (i : Nat) (data : Bytes) : Bytes := a.take i ++ data ++ a.drop (i + data.length)

/-- `Write`, `WriteString`, `WriteByte`: into the current array if it has room, else into a new one, with `spare` bytes of room left, after a copy of what was there. `bytes.Buffer` as used in zlog/logger_core.go:216-238; no code of zinx. -/
def Buf.write (b : Buf) (data : Bytes) (spare : Nat) : Buf :=
  let a := (b.arrays[b.cur]?).getD []
  if b.len + data.length ≤ a.length then { b with arrays := b.arrays.set b.cur (put a b.len data), len := b.len + data.length }
  else ⟨b.arrays ++ [a.take b.len ++ data ++ List.replicate spare 0], b.arrays.length, b.len + data.length⟩

/-- Several writes. `bytes.Buffer` as used in zlog/logger_core.go:216-238; no code of zinx. -/
def Buf.writes (b : Buf) : List (Bytes × Nat) → Buf
  | [] => b
  | (d, n) :: ds => (b.write d n).writes ds

/-- One call of `OutPut` (zlog/logger_core.go:217-225): reset, then the parts of the line, one after the other. What the file and the hook get is `bytes` of the result. -/
def Buf.output (b : Buf) (parts : List (Bytes × Nat)) : Buf := b.reset.writes parts

end Zinx.HookBuf
