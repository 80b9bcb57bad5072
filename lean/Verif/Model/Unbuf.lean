import Verif.Model.Pipe

/-!
# Message queues of length 0

`MaxMsgChanLen` may be 0 (a configuration file can say so; `UserConfToGlobal` takes 0 for "not set", zconf/userconf.go:42-44). Then `make(chan []byte, 0)` (znet/connection.go:400, znet/ws_connection.go:370, :431,
znet/kcp_connection.go:372, :428) is an unbuffered channel: nothing is ever stored in it, and a buffered send goes through only at a moment at which the writer is waiting in its `select`. Both go on together.
Everything else is as in `Model/Send.lean`, `Model/WsSend.lean` and `Model/KcpSend.lean` with capacity 0, where no send can put anything into the channel.
-/

namespace Zinx.Unbuf

/-- An action of `L`, or the two actions of a sender and of the writer that are one: the message changes hands (znet/connection.go:428-429 and :209). -/
inductive Label (L : Type) where
  | one (l : L)
  | both (a b : L)

/-- `st`: the actions with a channel of capacity 0 (znet/connection.go:400). `over`: the message changes hands (znet/connection.go:428-429 and :209). -/
inductive Step {S L : Type} (st : S → L → S → Prop) (over : S → L → L → S → Prop) : S → Label L → S → Prop where
  | one (s : S) (l : L) (t : S) : st s l t → Step st over s (.one l) t
  | both (s : S) (a b : L) (t : S) : over s a b t → Step st over s (.both a b) t

/-- The bytes an action puts on the network (znet/connection.go:370, :377, :389, znet/ws_connection.go:356, znet/kcp_connection.go:358). -/
def written {L : Type} (wr : L → List UInt8) : Label L → List UInt8
  | .one l => wr l
  | .both a b => wr a ++ wr b

/-- znet/connection.go:428-429 of the sender and :209 of the writer. -/
inductive Tcp : Send.State → Send.Label → Send.Label → Send.State → Prop where
  | over (s : Send.State) (i : Nat) (m : Send.Bytes) : s.b i = .sel m true → s.chan = some ⟨[], false⟩ → s.writer = .select →
      Tcp s (.enq i m) .recv { s with writer := .got m, b := Send.set s.b i .idle }

/-- znet/ws_connection.go:393-394, :458-459 of the sender, unlocking, and :191 of the writer. -/
inductive Ws : WsSend.State → WsSend.Label → WsSend.Label → WsSend.State → Prop where
  | over (s : WsSend.State) (i : Nat) (m : WsSend.Bytes) : s.s i = .sel m → s.chan = some ⟨[], false⟩ → s.writer = .select →
      Ws s (.enq i m) .recv { s with writer := .want m, lock := none, s := WsSend.set s.s i .idle }

/-- znet/kcp_connection.go:396-397, :449-450 of the sender and :195 of one of the writers. -/
inductive Kcp : KcpSend.State → KcpSend.Label → KcpSend.Label → KcpSend.State → Prop where
  | over (s : KcpSend.State) (i : Nat) (m : KcpSend.Bytes) (r : Bool) (c k : Nat) : s.s i = .sel m r c → (s.chan c).items = [] → (s.chan c).closed = false → s.w k = .sel c →
      Kcp s (.enq i m c) (.recv k) { s with w := KcpSend.set s.w k (.want m), s := KcpSend.set s.s i .idle }

/-- A TCP connection whose queue has length 0. `bufCap`: as in `Model/Send.lean`. znet/connection.go:193-223, :366-463. -/
abbrev TcpStep (bufCap : Nat) := Step (Send.Step 0 bufCap) Tcp

/-- A WebSocket connection whose queue has length 0. znet/ws_connection.go:185-206, :349-461. -/
abbrev WsStep := Step (WsSend.Step 0) Ws

/-- A KCP connection whose queue has length 0. znet/kcp_connection.go:189-210, :351-452. -/
abbrev KcpStep := Step (KcpSend.Step 0) Kcp

end Zinx.Unbuf
