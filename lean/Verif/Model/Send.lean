import Verif.Model.Fair

/-!
# Sending on a TCP connection (znet/connection.go; line numbers are those of this file)

Any number of goroutines calling `SendMsg`/`Send` (direct) and `SendBuffMsg`/`SendToQueue` (buffered), the writer goroutine, anyone who stops the connection, and the network. The connection has
been started (its context is set). A message is the byte string made by `Pack` (never nil). What is written to the socket is recorded in the labels.

* A call of `conn.Write` is one action (the runtime serialises writes to a socket). While the network works it writes everything; when it breaks, some prefix has been written, and later writes
  fail. Closing the socket in the finalizer breaks it too.
* `chanCap` is `MaxMsgChanLen` (at least 1; for 0 see `Model/Unbuf.lean`), `bufCap` the size of the buffer of `bufio.Writer` (16384, znet/connection.go:128).
* Timers: the 5 ms timeout of a buffered send may fire at any time after the call got to its `select`.
-/

namespace Zinx.Send

/-- A packed message, znet/connection.go:435-464. -/
abbrev Bytes := List UInt8

/-- `SendToQueue`: not in it; at the test of line 399; after `msgBuffChan == nil`, before the compare-and-swap; after winning it; at line 411; in the `select` (line 421), `hasChan`: the channel
expression, evaluated on entry, was not nil; chose `ctx.Done`, before `close` (line 424). -/
inductive BPc where
  | idle
  | test (m : Bytes)
  | cas (m : Bytes)
  | make (m : Bytes)
  | check (m : Bytes)
  | sel (m : Bytes) (hasChan : Bool)
  | closing
deriving DecidableEq

/-- `Send`: not in it; at line 374; at line 377. -/
inductive DPc where
  | idle
  | check (m : Bytes)
  | write (m : Bytes)
deriving DecidableEq

/-- The writer (lines 193-223): not started; in the `select`; at line 367 after a tick; at line 370; received `m`, at line 386; in `bufWriter.Write` with `p` left to write; in the deferred
function; returned. -/
inductive WPc where
  | none
  | select
  | flushCheck
  | flush
  | got (m : Bytes)
  | put (p : Bytes)
  | exiting
  | gone
deriving DecidableEq

/-- `msgBuffChan` when it is not nil. znet/connection.go:26-119. -/
structure Chan where
  items : List Bytes
  closed : Bool
deriving DecidableEq

/-- znet/connection.go:26-119 and the goroutines. -/
structure State where
  /-- the context is cancelled -/
  closed : Bool := false
  /-- writes to the socket fail -/
  broken : Bool := false
  chan : Option Chan := none
  /-- `startWriterFlag` -/
  flag : Bool := false
  writer : WPc := .none
  /-- contents of the `bufio.Writer` -/
  buf : Bytes := []
  /-- its sticky error -/
  err : Bool := false
  b : Nat → BPc := fun _ => .idle
  d : Nat → DPc := fun _ => .idle

/-- The steps of znet/connection.go:193-223, :329-331, :366-431; each is explained at `Step`. -/
inductive Label where
  /-- goroutine `i` calls a buffered send -/
  | call (i : Nat) (m : Bytes)
  /-- a step inside it -/
  | inside (i : Nat)
  /-- it returns an error -/
  | retErr (i : Nat)
  /-- the message is queued and the call returns nil -/
  | enq (i : Nat) (m : Bytes)
  /-- it panics -/
  | panic (i : Nat)
  /-- goroutine `i` calls a direct send -/
  | dcall (i : Nat) (m : Bytes)
  | dinside (i : Nat)
  /-- bytes written by it; it returns nil iff all of them are (`whole`) -/
  | dwrite (i : Nat) (x : Bytes) (whole : Bool)
  | dretErr (i : Nat)
  /-- a step of the writer that writes nothing -/
  | winside
  /-- the branches of the writer's `select` -/
  | tick
  | recv
  | wdone
  /-- bytes written to the socket by the writer -/
  | wwrite (x : Bytes)
  | stop
  | netFail
deriving DecidableEq

/-- Auxiliary. -/
def set {α : Type} (f : Nat → α) (i : Nat) (v : α) : Nat → α := fun j => if j = i then v else f j

/-- znet/connection.go:193-223, :366-464, :498-527. -/
inductive Step (chanCap bufCap : Nat) : State → Label → State → Prop where
  | stop (s : State) : Step chanCap bufCap s .stop { s with closed := true }
  | netFail (s : State) : Step chanCap bufCap s .netFail { s with broken := true }
  /-- `SendBuffMsg` after `Pack` (line 462) -/
  | call (s : State) (i : Nat) (m : Bytes) : s.b i = .idle → Step chanCap bufCap s (.call i m) { s with b := set s.b i (.test m) }
  /-- line 399, first operand -/
  | testNil (s : State) (i : Nat) (m : Bytes) : s.b i = .test m → s.chan = none → Step chanCap bufCap s (.inside i) { s with b := set s.b i (.cas m) }
  | testSome (s : State) (i : Nat) (m : Bytes) : s.b i = .test m → s.chan ≠ none → Step chanCap bufCap s (.inside i) { s with b := set s.b i (.check m) }
  /-- line 399, second operand (lines 581-583) -/
  | casWin (s : State) (i : Nat) (m : Bytes) : s.b i = .cas m → s.flag = false → Step chanCap bufCap s (.inside i) { s with flag := true, b := set s.b i (.make m) }
  | casLose (s : State) (i : Nat) (m : Bytes) : s.b i = .cas m → s.flag = true → Step chanCap bufCap s (.inside i) { s with b := set s.b i (.check m) }
  /-- lines 400-405 -/
  | make (s : State) (i : Nat) (m : Bytes) : s.b i = .make m →
      Step chanCap bufCap s (.inside i) { s with chan := some ⟨[], false⟩, writer := .select, b := set s.b i (.check m) }
  /-- lines 411-413 -/
  | checkClosed (s : State) (i : Nat) (m : Bytes) : s.b i = .check m → s.closed = true → Step chanCap bufCap s (.retErr i) { s with b := set s.b i .idle }
  /-- into the `select` -/
  | checkOpen (s : State) (i : Nat) (m : Bytes) : s.b i = .check m → s.closed = false → Step chanCap bufCap s (.inside i) { s with b := set s.b i (.sel m s.chan.isSome) }
  /-- line 422 -/
  | selDone (s : State) (i : Nat) (m : Bytes) (h : Bool) : s.b i = .sel m h → s.closed = true → Step chanCap bufCap s (.inside i) { s with b := set s.b i .closing }
  /-- lines 426-427 -/
  | timeout (s : State) (i : Nat) (m : Bytes) (h : Bool) : s.b i = .sel m h → Step chanCap bufCap s (.retErr i) { s with b := set s.b i .idle }
  /-- lines 428-429 -/
  | enq (s : State) (i : Nat) (m : Bytes) (c : Chan) : s.b i = .sel m true → s.chan = some c → c.closed = false → c.items.length < chanCap →
      Step chanCap bufCap s (.enq i m) { s with chan := some ⟨c.items ++ [m], false⟩, b := set s.b i .idle }
  /-- line 428 on a closed channel -/
  | enqPanic (s : State) (i : Nat) (m : Bytes) (c : Chan) : s.b i = .sel m true → s.chan = some c → c.closed = true →
      Step chanCap bufCap s (.panic i) { s with b := set s.b i .idle }
  /-- lines 424-425 -/
  | closeChan (s : State) (i : Nat) (c : Chan) : s.b i = .closing → s.chan = some c → c.closed = false →
      Step chanCap bufCap s (.retErr i) { s with chan := some ⟨c.items, true⟩, b := set s.b i .idle }
  /-- line 424: close of a nil or closed channel -/
  | closePanic (s : State) (i : Nat) : s.b i = .closing → (s.chan = none ∨ ∃ c, s.chan = some c ∧ c.closed = true) →
      Step chanCap bufCap s (.panic i) { s with b := set s.b i .idle }
  /-- `SendMsg` (lines 437-447), whose own check of `isClosed` and `Pack` come before the one of `Send` -/
  | dcall (s : State) (i : Nat) (m : Bytes) : s.d i = .idle → Step chanCap bufCap s (.dcall i m) { s with d := set s.d i (.check m) }
  /-- lines 374-376 -/
  | dcheckClosed (s : State) (i : Nat) (m : Bytes) : s.d i = .check m → s.closed = true → Step chanCap bufCap s (.dretErr i) { s with d := set s.d i .idle }
  | dcheckOpen (s : State) (i : Nat) (m : Bytes) : s.d i = .check m → s.closed = false → Step chanCap bufCap s (.dinside i) { s with d := set s.d i (.write m) }
  /-- line 377 -/
  | dwrite (s : State) (i : Nat) (m : Bytes) : s.d i = .write m → s.broken = false → Step chanCap bufCap s (.dwrite i m true) { s with d := set s.d i .idle }
  | dwritePart (s : State) (i : Nat) (m x : Bytes) : s.d i = .write m → s.broken = false → x <+: m →
      Step chanCap bufCap s (.dwrite i x false) { s with broken := true, d := set s.d i .idle }
  | dwriteFail (s : State) (i : Nat) (m : Bytes) : s.d i = .write m → s.broken = true → Step chanCap bufCap s (.dretErr i) { s with d := set s.d i .idle }
  /-- line 203 -/
  | tick (s : State) : s.writer = .select → Step chanCap bufCap s .tick { s with writer := .flushCheck }
  /-- lines 367-369, 205-207 -/
  | flushClosed (s : State) : s.writer = .flushCheck → s.closed = true → Step chanCap bufCap s .winside { s with writer := .exiting }
  | flushOpen (s : State) : s.writer = .flushCheck → s.closed = false → Step chanCap bufCap s .winside { s with writer := .flush }
  /-- `bufio.Writer.Flush` (line 370): the sticky error; nothing to do; write the buffer -/
  | flushErr (s : State) : s.writer = .flush → s.err = true → Step chanCap bufCap s .winside { s with writer := .exiting }
  | flushEmpty (s : State) : s.writer = .flush → s.err = false → s.buf = [] → Step chanCap bufCap s .winside { s with writer := .select }
  | flushWrite (s : State) : s.writer = .flush → s.err = false → s.buf ≠ [] → s.broken = false →
      Step chanCap bufCap s (.wwrite s.buf) { s with buf := [], writer := .select }
  | flushPart (s : State) (x : Bytes) : s.writer = .flush → s.err = false → s.broken = false → x <+: s.buf →
      Step chanCap bufCap s (.wwrite x) { s with broken := true, err := true, writer := .exiting }
  | flushFail (s : State) : s.writer = .flush → s.err = false → s.buf ≠ [] → s.broken = true → Step chanCap bufCap s .winside { s with err := true, writer := .exiting }
  /-- line 209 -/
  | recv (s : State) (m : Bytes) (ms : List Bytes) (c : Bool) : s.writer = .select → s.chan = some ⟨m :: ms, c⟩ →
      Step chanCap bufCap s .recv { s with chan := some ⟨ms, c⟩, writer := .got m }
  /-- lines 215-217 -/
  | recvClosed (s : State) : s.writer = .select → s.chan = some ⟨[], true⟩ → Step chanCap bufCap s .wdone { s with writer := .exiting }
  /-- lines 219-220 -/
  | ctxDone (s : State) : s.writer = .select → s.closed = true → Step chanCap bufCap s .wdone { s with writer := .exiting }
  /-- lines 386-388, 211-213 -/
  | gotClosed (s : State) (m : Bytes) : s.writer = .got m → s.closed = true → Step chanCap bufCap s .winside { s with writer := .exiting }
  | gotOpen (s : State) (m : Bytes) : s.writer = .got m → s.closed = false → Step chanCap bufCap s .winside { s with writer := .put m }
  /-- `bufio.Writer.Write` (line 389): the sticky error; what does not fit and the buffer is empty is written directly; otherwise the buffer is filled up and flushed; the rest goes into the
  buffer -/
  | putErr (s : State) (p : Bytes) : s.writer = .put p → s.err = true → Step chanCap bufCap s .winside { s with writer := .exiting }
  | putDirect (s : State) (p : Bytes) : s.writer = .put p → s.err = false → bufCap - s.buf.length < p.length → s.buf = [] → s.broken = false →
      Step chanCap bufCap s (.wwrite p) { s with writer := .put [] }
  | putFill (s : State) (p : Bytes) : s.writer = .put p → s.err = false → bufCap - s.buf.length < p.length → s.buf ≠ [] → s.broken = false →
      Step chanCap bufCap s (.wwrite (s.buf ++ p.take (bufCap - s.buf.length))) { s with buf := [], writer := .put (p.drop (bufCap - s.buf.length)) }
  | putRest (s : State) (p : Bytes) : s.writer = .put p → s.err = false → p.length ≤ bufCap - s.buf.length →
      Step chanCap bufCap s .winside { s with buf := s.buf ++ p, writer := .select }
  | putPart (s : State) (p x : Bytes) : s.writer = .put p → s.err = false → bufCap - s.buf.length < p.length → s.broken = false → x <+: s.buf ++ p →
      Step chanCap bufCap s (.wwrite x) { s with broken := true, err := true, writer := .exiting }
  | putFail (s : State) (p : Bytes) : s.writer = .put p → s.err = false → bufCap - s.buf.length < p.length → s.broken = true →
      Step chanCap bufCap s .winside { s with err := true, writer := .exiting }
  /-- the deferred `Flush` (line 199), as far as it writes nothing -/
  | exit (s : State) : s.writer = .exiting → s.closed = true ∨ s.err = true ∨ s.broken = true ∨ s.buf = [] → Step chanCap bufCap s .winside { s with writer := .gone }
  | exitWrite (s : State) : s.writer = .exiting → s.closed = false → s.err = false → s.broken = false → Step chanCap bufCap s (.wwrite s.buf) { s with buf := [], writer := .gone }

end Zinx.Send
