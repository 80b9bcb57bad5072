import Verif.Model.Sys

/-!
# The size of the read buffer

The reader goroutine of a TCP or KCP connection and the buffer it reads into, whose length is the setting `IOReadBuffSize` (zconf/zconf.go:79, default 1024 at :236). A JSON file may set it to any
`uint32`, 0 included (zconf/zconf.go:160); only `UserConfToGlobal` leaves 0 out (zconf/userconf.go:45-47). A WebSocket reader has no such buffer: there the setting is a hint for the library
(znet/server.go:150).

What `Read` of the two libraries does with a buffer is assumed. With room for a byte it waits for data and then returns between 1 and `len(buffer)` bytes of it. With an empty buffer `Read` of a TCP connection returns
`0, nil` at once (the general contract of `io.Reader`, and what `net` does after seeing that the connection is not closed on this side); `Read` of kcp-go does so as soon as there is something to read, and takes nothing.
What is done with the bytes is not modelled here: `got` is what the readers pass on, a piece per read.
-/

namespace Zinx.ReadBuf

/-- Go's `[]byte`. -/
abbrev Bytes := List UInt8

/-- znet/connection.go and znet/kcp_connection.go. -/
inductive Kind where
  | tcp
  | kcp
deriving DecidableEq

/-- Where the reader is. znet/connection.go:241-287, znet/kcp_connection.go:224-272. -/
inductive Pc where
  /-- at the `select` at the head of the loop -/
  | top
  /-- in `Read` -/
  | reading
  | ended
deriving DecidableEq

/-- A connection as its reader sees it (znet/connection.go:227-288, znet/kcp_connection.go:214-273). -/
structure State where
  pc : Pc := .top
  /-- what has come from the peer, read or not -/
  arrived : Bytes := []
  /-- what of it has not been read -/
  flight : Bytes := []
  /-- the pieces passed on to the decoder, or to the handlers if there is none -/
  got : List Bytes := []
  /-- how often the heartbeat was told that the peer is alive -/
  active : Nat := 0
  /-- the peer has closed its side -/
  eof : Bool := false
  /-- the connection is stopped on this side -/
  closed : Bool := false
deriving DecidableEq

/-- The actions of znet/connection.go:227-288, znet/kcp_connection.go:214-273, of the peer and of others. -/
inductive Label where
  | arrive (x : Bytes)
  | hangUp
  /-- somebody other than the reader stops the connection -/
  | stop
  | go
  | quit
  | read (x : Bytes)
  | fail
deriving DecidableEq

/-- What the reader itself does. -/
def Label.reader : Label → Prop
  | .go | .quit | .read _ | .fail => True
  | _ => False

/-- `conn.Read(buffer)` can return the bytes `x` when `flight` is there and the buffer is of length `b`. Called at znet/connection.go:249. -/
inductive CanRead (b : Nat) : Kind → Bytes → Bytes → Prop where
  | some {k : Kind} {x rest : Bytes} : x ≠ [] → x.length ≤ b → CanRead b k (x ++ rest) x
  | tcpEmpty {flight : Bytes} : b = 0 → CanRead b .tcp flight []
  | kcpEmpty {flight : Bytes} : b = 0 → flight ≠ [] → CanRead b .kcp flight []

/-- One step. `b` is `IOReadBuffSize`. -/
inductive Step (k : Kind) (b : Nat) : State → Label → State → Prop where
  | arrive (s : State) (x : Bytes) : s.eof = false → Step k b s (.arrive x) { s with arrived := s.arrived ++ x, flight := s.flight ++ x }
  | hangUp (s : State) : s.eof = false → Step k b s .hangUp { s with eof := true }
  /-- `Stop` from elsewhere: it cancels the context and closes the socket -/
  | stop (s : State) : Step k b s .stop { s with closed := true }
  /-- znet/connection.go:242-245; znet/kcp_connection.go:225-228 -/
  | go (s : State) : s.pc = .top → s.closed = false → Step k b s .go { s with pc := .reading }
  /-- znet/connection.go:243-244; znet/kcp_connection.go:226-227 -/
  | quit (s : State) : s.pc = .top → s.closed = true → Step k b s .quit { s with pc := .ended }
  /-- the read and what follows up to the end of the loop body: znet/connection.go:249, 258-260, 264-284; znet/kcp_connection.go:230-234, 243-245, 249-269 -/
  | read (s : State) (x : Bytes) : s.pc = .reading → CanRead b k s.flight x →
      Step k b s (.read x) { s with pc := .top, flight := s.flight.drop x.length, got := s.got ++ [x], active := s.active + if 0 < x.length then 1 else 0 }
  /-- `Read` returns an error, the reader returns and stops the connection (znet/connection.go:250-253, the deferred call at :230; znet/kcp_connection.go:235-238, :217). The socket is closed on this
  side, or the peer's end of the stream has been reached, which a read into an empty buffer does not look for; KCP has no end of stream. -/
  | fail (s : State) : s.pc = .reading → (s.closed = true ∨ k = .tcp ∧ 0 < b ∧ s.eof = true ∧ s.flight = []) → Step k b s .fail { s with pc := .ended, closed := true }

/-- A connection whose reader begins. znet/connection.go:315. -/
def init : State := {}

end Zinx.ReadBuf
