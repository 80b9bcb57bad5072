import Verif.Model.Sys

/-!
# Reading without a frame decoder

The reader of a connection and whoever handles its messages, when no frame decoder is set (`zpack.NewMessage(uint32(n), buffer[0:n])`). A message holds a slice of the buffer that was read into, not a
copy; `Execute` hands it to a worker or to a new goroutine, which may run later and in any order.
-/

namespace Zinx.RawRead

/-- Go's `[]byte`. -/
abbrev Bytes := List UInt8

/-- Where the buffer of a read comes from: TCP makes one before the loop (znet/connection.go:239, read at :249); KCP makes one for each read (znet/kcp_connection.go:230, :234); a WebSocket read returns
a new one (znet/ws_connection.go:224, `ReadMessage` of gorilla/websocket, which uses `io.ReadAll`). -/
inductive Kind where
  | tcp
  | kcp
  | ws
deriving DecidableEq

/-- A message waiting to be handled: the number of its read, its buffer, its length. znet/connection.go:280, znet/ws_connection.go:264, znet/kcp_connection.go:265. -/
structure Msg where
  read : Nat
  buf : Nat
  len : Nat
deriving DecidableEq

/-- The buffers of znet/connection.go:239, and the requests not handled yet. -/
structure State where
  /-- contents of the buffers -/
  mem : Nat → Bytes := fun _ => []
  /-- number of reads -/
  reads : Nat := 0
  pending : List Msg := []

/-- znet/connection.go:249 and the handlers. -/
inductive Label where
  /-- these bytes arrived -/
  | read (x : Bytes)
  /-- the handler of the message of read `k` saw this payload -/
  | handle (k : Nat) (p : Bytes)
deriving DecidableEq

/-- The buffer of read number `k`. TCP has one buffer for all reads (znet/connection.go:239), KCP one for each (znet/kcp_connection.go:230); for WebSocket `ReadMessage` makes one (znet/ws_connection.go:224). -/
def bufOf : Kind → Nat → Nat
  | .tcp, _ => 0
  | _, k => k

/-- Reading `x` into a buffer overwrites its first bytes. `Read` at znet/connection.go:249. -/
def fill (old x : Bytes) : Bytes := x ++ old.drop x.length

inductive Step (kind : Kind) : State → Label → State → Prop where
  /-- znet/connection.go:249, 280-284; znet/kcp_connection.go:234, 265-269; znet/ws_connection.go:224, 264-268 -/
  | read (s : State) (x : Bytes) : Step kind s (.read x)
      { mem := fun b => if b = bufOf kind s.reads then fill (s.mem b) x else s.mem b, reads := s.reads + 1, pending := s.pending ++ [⟨s.reads, bufOf kind s.reads, x.length⟩] }
  /-- the handler reads the payload -/
  | handle (s : State) (m : Msg) : m ∈ s.pending → Step kind s (.handle m.read ((s.mem m.buf).take m.len)) { s with pending := s.pending.erase m }

end Zinx.RawRead
