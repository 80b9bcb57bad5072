import Verif.Model.Sys

/-!
# Send calls and the buffers of their callers

A send call is given a slice. `Send` and `SendMsg` write before they return. `SendBuffMsg` and `SendToQueue` put a slice on a channel, from which a writer goroutine takes it later: what is written is what the
array has then. The same for the three kinds of connections.

* Buffers are numbered arrays; a slice is a whole array. Arrays of the user are those the user has made; the array of a packed message is known to nobody else.
* A write of the user to an array, and the reading of an array for a write to the socket, are one step each.
* Calls that fail (closed, timed out, pack error) put nothing anywhere and are left out. The writer's own buffering (`bufio.Writer`) copies and keeps the order (C40).
* The network calls copy before they return: `net.Conn.Write`, `WriteMessage` of gorilla/websocket and `Write` of kcp-go, by their documentation.
-/

namespace Zinx.SendAlias

/-- Go's `[]byte`. -/
abbrev Bytes := List UInt8

/-- What `Pack` of the connection's `IDataPack` gives: the shipped ones make a new array (zpack/datapack_tlv_bigendian.go:31-52, zpack/datapack_ltv_littleendian.go:32-53); one of the user's may return the slice it was
given. -/
inductive Packed where
  | new (bs : Bytes)
  | given

/-- The `IDataPack`s of connections. `Pack` (ziface/idatapack.go) as called at znet/connection.go:441, :457. -/
abbrev Packs := Nat → Nat → Bytes → Packed

/-- znet/connection.go:26-119 as far as sending is concerned. -/
structure State where
  heap : Nat → Bytes := fun _ => []
  made : Nat := 0                        -- arrays made so far
  users : Nat → Bool := fun _ => false   -- arrays the user has
  queue : Nat → List Nat := fun _ => []  -- `msgBuffChan` of a connection
  wire : Nat → List Bytes := fun _ => [] -- what has been written on a connection

/-- Auxiliary; no code of zinx. -/
def upd {α : Type} (f : Nat → α) (i : Nat) (a : α) : Nat → α := fun j => if j = i then a else f j

/-- znet/connection.go:193-223, :373-464, and the user. -/
inductive Label where
  | alloc (bs : Bytes)              -- the user makes a slice
  | change (a : Nat) (bs : Bytes)   -- the user writes to its slice
  | send (c a : Nat)                -- `Send`
  | sendMsg (c id a : Nat)
  | sendBuffMsg (c id a : Nat)
  | sendToQueue (c a : Nat)
  | take (c : Nat)                  -- the writer goroutine takes and writes
deriving DecidableEq

inductive Step (packs : Packs) : State → Label → State → Prop where
  | alloc {s : State} (bs : Bytes) : Step packs s (.alloc bs) { s with heap := upd s.heap s.made bs, users := upd s.users s.made true, made := s.made + 1 }
  | change {s : State} (a : Nat) (bs : Bytes) : s.users a = true → Step packs s (.change a bs) { s with heap := upd s.heap a bs }
  /-- znet/connection.go:373-383, znet/ws_connection.go:349-363, znet/kcp_connection.go:351-365 -/
  | send {s : State} (c a : Nat) : s.users a = true → Step packs s (.send c a) { s with wire := upd s.wire c (s.wire c ++ [s.heap a]) }
  /-- znet/connection.go:435-454, znet/ws_connection.go:400-423, znet/kcp_connection.go:403-421 -/
  | sendMsgNew {s : State} (c id a : Nat) (bs : Bytes) : s.users a = true → packs c id (s.heap a) = .new bs →
      Step packs s (.sendMsg c id a) { s with heap := upd s.heap s.made bs, made := s.made + 1, wire := upd s.wire c (s.wire c ++ [bs]) }
  | sendMsgGiven {s : State} (c id a : Nat) : s.users a = true → packs c id (s.heap a) = .given →
      Step packs s (.sendMsg c id a) { s with wire := upd s.wire c (s.wire c ++ [s.heap a]) }
  /-- znet/connection.go:456-464, znet/ws_connection.go:426-461, znet/kcp_connection.go:423-452 -/
  | sendBuffNew {s : State} (c id a : Nat) (bs : Bytes) : s.users a = true → packs c id (s.heap a) = .new bs →
      Step packs s (.sendBuffMsg c id a) { s with heap := upd s.heap s.made bs, made := s.made + 1, queue := upd s.queue c (s.queue c ++ [s.made]) }
  | sendBuffGiven {s : State} (c id a : Nat) : s.users a = true → packs c id (s.heap a) = .given →
      Step packs s (.sendBuffMsg c id a) { s with queue := upd s.queue c (s.queue c ++ [a]) }
  /-- znet/connection.go:397-431, znet/ws_connection.go:365-396, znet/kcp_connection.go:367-399 -/
  | sendToQueue {s : State} (c a : Nat) : s.users a = true → Step packs s (.sendToQueue c a) { s with queue := upd s.queue c (s.queue c ++ [a]) }
  /-- znet/connection.go:210-217, 385-395, znet/ws_connection.go:190-196, znet/kcp_connection.go:194-200 -/
  | take {s : State} (c a : Nat) (rest : List Nat) : s.queue c = a :: rest →
      Step packs s (.take c) { s with queue := upd s.queue c rest, wire := upd s.wire c (s.wire c ++ [s.heap a]) }

end Zinx.SendAlias
