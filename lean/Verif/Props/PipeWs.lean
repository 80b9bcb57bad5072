import Verif.Props.PipeBase
import Verif.Props.WsSend
import Verif.Props.KcpSend
import Verif.Lemmas.ExecOf

namespace Zinx.Props
open Zinx Zinx.Pipe

/-! ## C91: WebSocket connections from end to end -/

theorem ws_wire (ls : List WsSend.Label) : ls.flatMap wsWritten = WsSend.wire ls := by
  induction ls with
  | nil => rfl
  | cons l ls ih => cases l <;> simp [WsSend.wire, wsWritten, ih]

/-- All sends, direct or buffered, are with less than 2^32-8 bytes of data, and packed as the receiver expects. -/
def GoodWs (k : Decoder.Kind) (ls : List (Label WsSend.Label)) : Prop := ∀ i m b, .send (.call i m b) ∈ ls → ∃ x : UInt32 × Bytes, x.2.length < 2 ^ 32 - 8 ∧ m = packOf k x

theorem oneByOne_append (a b : List (UInt32 × Bytes)) : oneByOne (a ++ b) = oneByOne a ++ oneByOne b := by
  unfold oneByOne; rw [List.flatMap_append]

theorem _root_.Zinx.Exec.trace_of_act {S L : Type} {step : S → L → S → Prop} (e : Exec step) {ls : List L} (h : ∀ n, e.act n = ls[n]?) (n : Nat) : e.trace n = ls.take n := by
  induction n with
  | zero => rfl
  | succ n ih =>
    show e.trace n ++ (e.act n).toList = _
    rw [ih, h, List.take_add_one]

section
variable {cc : Nat} {k : Decoder.Kind} {b : Bool} {wid : Nat → Nat} {cap c : Nat}

theorem ws_sent {ls : List (Label WsSend.Label)} {s : State WsSend.State} (hi : Inv (WsSend.Step cc) wsWritten {} k b wid cap c ls s) (hg : GoodWs k ls) :
    ∃ msgs last : List (UInt32 × Bytes), WsSend.sent (sendTr ls) = msgs.map (packOf k) ∧ last.length ≤ 1 ∧ (∀ m ∈ msgs ++ last, m.2.length < 2 ^ 32 - 8 ∧ ∃ i b, .send (.call i (packOf k m) b) ∈ ls) ∧
      (sendTr ls).flatMap wsWritten <+: ((msgs ++ last).map (packOf k)).flatten := by
  obtain ⟨⟨p, h1, h2, _⟩, h3, _⟩ := C38_ws cc _ _ hi.snd
  obtain ⟨msgs, e1, e2⟩ := unpack_list (k := k) (WsSend.sent (sendTr ls)) fun m hm => let ⟨i, b, hi⟩ := h3 m hm; hg i m b (mem_sendTr.1 hi)
  have hmsgs : ∀ m ∈ msgs, m.2.length < 2 ^ 32 - 8 ∧ ∃ i b, .send (.call i (packOf k m) b) ∈ ls := fun m hm => ⟨e2 m hm, by
    obtain ⟨i, b, hi⟩ := h3 (packOf k m) (by rw [e1]; exact List.mem_map_of_mem hm)
    exact ⟨i, b, mem_sendTr.1 hi⟩⟩
  by_cases hp : p = []
  · refine ⟨msgs, [], e1, by simp, by simpa using hmsgs, ?_⟩
    rw [ws_wire, h1, hp, e1]
    simp
  · obtain ⟨i, m, b, hc, hpre⟩ := h2 hp
    obtain ⟨x, hx, rfl⟩ := hg i m b (mem_sendTr.1 hc)
    refine ⟨msgs, [x], e1, by simp, ?_, ?_⟩
    · intro m hm
      rcases List.mem_append.1 hm with hm | hm
      · exact hmsgs m hm
      · rw [List.mem_singleton] at hm; subst hm; exact ⟨hx, i, b, mem_sendTr.1 hc⟩
    · rw [ws_wire, h1, e1]
      simpa using hpre

/-- **C91**. Any number of goroutines send on a WebSocket connection, with direct and buffered sends in any mixture; whatever the schedule, the pieces in which the bytes arrive, the other work of the receiver's
workers, and also if the sender is stopped or the network fails: the receiver handles, unchanged, each once, one after the other and in the order of writing, messages that were sent whole, and after them at most
one that was given to a send. Those that went through the queue were written in the order of queuing. -/
theorem C91_ws {ls : List (Label WsSend.Label)} {s : State WsSend.State} (h : Steps (Pipe.Step (WsSend.Step cc) wsWritten k b wid cap c) (Pipe.init {} k) ls s) (hk : k ≠ .htlv) (hg : GoodWs k ls) :
    ∃ msgs last : List (UInt32 × Bytes), WsSend.sent (sendTr ls) = msgs.map (packOf k) ∧ last.length ≤ 1 ∧ (∀ m ∈ msgs ++ last, ∃ i b, .send (.call i (packOf k m) b) ∈ ls) ∧
      (Worker.handlingOf c (workTr c ls)).map (seen s.msgs) <+: oneByOne (msgs ++ last) ∧ WsSend.wends (sendTr ls) <+: WsSend.enqOf (sendTr ls) := by
  have hi := Pipe.inv h
  obtain ⟨msgs, last, h1, h2, h3, h4⟩ := ws_sent hi hg
  exact ⟨msgs, last, h1, h2, fun m hm => (h3 m hm).2, pipe_handled hi hk _ (fun m hm => (h3 m hm).1) h4, (C38_ws cc _ _ hi.snd).2.2⟩

theorem ws_later (e : Exec (Pipe.Step (WsSend.Step cc) wsWritten k b wid cap c)) (h0 : e.run 0 = Pipe.init {} k) (hg : ∀ n, GoodWs k (e.trace n)) {n : Nat} {msgs : List (UInt32 × Bytes)}
    (h1 : WsSend.sent (sendTr (e.trace n)) = msgs.map (packOf k)) (h2 : ∀ m ∈ msgs, m.2.length < 2 ^ 32 - 8) (m : Nat) (hm : n ≤ m) :
    ∃ rest : List (UInt32 × Bytes), (sendTr (e.trace m)).flatMap wsWritten <+: ((msgs ++ rest).map (packOf k)).flatten ∧ ∀ x ∈ msgs ++ rest, x.2.length < 2 ^ 32 - 8 := by
  obtain ⟨ms, last, g1, _, g3, g4⟩ := ws_sent (Pipe.inv (h0 ▸ e.steps m)) (hg m)
  obtain ⟨x, hx⟩ := e.trace_prefix hm
  have hxe : WsSend.sent (sendTr (e.trace m)) = msgs.map (packOf k) ++ WsSend.sent (sendTr x) := by
    rw [← h1, ← hx]; unfold sendTr; rw [List.filterMap_append, WsSend.sent_append]
  have hmem : ∀ y ∈ WsSend.sent (sendTr x), ∃ z : UInt32 × Bytes, z.2.length < 2 ^ 32 - 8 ∧ y = packOf k z := by
    intro y hy
    have : y ∈ ms.map (packOf k) := by rw [← g1, hxe]; exact List.mem_append_right _ hy
    obtain ⟨z, hz, rfl⟩ := List.mem_map.1 this
    exact ⟨z, (g3 z (List.mem_append_left _ hz)).1, rfl⟩
  obtain ⟨rest, r1, r2⟩ := unpack_list _ hmem
  refine ⟨rest ++ last, ?_, ?_⟩
  · rw [← List.append_assoc, List.map_append, List.map_append, ← r1, ← hxe, g1, ← List.map_append]
    exact g4
  · intro y hy
    rcases List.mem_append.1 hy with hy | hy
    · exact h2 y hy
    · rcases List.mem_append.1 hy with hy | hy
      · exact r2 y hy
      · exact (g3 y (List.mem_append_right _ hy)).1

/-- **C91**, every message arrives. On a WebSocket connection that is not stopped and whose network works: everything queued at some point is written at some later point, and everything written at any
point is handled by the receiver, one message after the other in the order of writing. Fairness: goroutines holding the lock of the connection go on, the writer receives and is not refused for ever a lock that is
free again and again; the receiver's reader runs, and is not refused for ever a queue in which there is room again and again; the worker of the receiving connection runs and user code ends. -/
theorem C91_ws_arrives (e : Exec (Pipe.Step (WsSend.Step cc) wsWritten k b wid cap c)) (h0 : e.run 0 = Pipe.init {} k) (hk : k ≠ .htlv) (hq : ∀ n, (e.run n).snd.cancelled = false ∧ (e.run n).snd.broken = false)
    (hg : ∀ n, GoodWs k (e.trace n)) (hs : ∀ i, e.WeakFair (bySender (WsSend.Label.inside i))) (hw : e.WeakFair (bySender WsSend.Label.winside)) (ha : e.StrongFair (bySender (· = .wlock)))
    (hr : e.WeakFair (bySender (· = .recv))) (hrd : e.WeakFair isRead) (hwk : e.WeakFair (byWorker (workerActs (wid c)))) (hdel : e.StrongFair (byWorker (readerActs c))) (n : Nat) :
    (∃ m, n ≤ m ∧ WsSend.enqOf (sendTr (e.trace n)) <+: WsSend.wends (sendTr (e.trace m))) ∧
    ∃ msgs : List (UInt32 × Bytes), WsSend.sent (sendTr (e.trace n)) = msgs.map (packOf k) ∧
      ∃ m, n ≤ m ∧ oneByOne msgs <+: (Worker.handlingOf c (workTr c (e.trace m))).map (seen (e.run m).msgs) := by
  have hs0 : (sendExec e).run 0 = {} := by show (e.run 0).snd = _; rw [h0]; rfl
  constructor
  · obtain ⟨m, hm, h⟩ := C40_ws_partial cc (sendExec e) hs0 hq (fun i => sendExec_weak (hs i)) (sendExec_weak hw) (sendExec_strong ha) (sendExec_weak hr) n
    rw [sendExec_trace, sendExec_trace] at h
    exact ⟨m, hm, h⟩
  · have hi := Pipe.inv (h0 ▸ e.steps n)
    obtain ⟨msgs, last, h1, _, h3, _⟩ := ws_sent hi (hg n)
    refine ⟨msgs, h1, pipe_arrives e h0 hk msgs (ws_later e h0 hg h1 fun m hm => (h3 m (List.mem_append_left _ hm)).1) ⟨n, Nat.le_refl _, ?_⟩ hrd hwk hdel⟩
    obtain ⟨⟨p, g1, _⟩, _⟩ := C38_ws cc _ _ hi.snd
    rw [ws_wire, g1, h1, List.length_append]
    omega

/-! ## C92: KCP connections from end to end -/

theorem kcp_wire (ls : List KcpSend.Label) : ls.flatMap kcpWritten = (KcpSend.wire ls).flatten := by
  induction ls with
  | nil => rfl
  | cons l ls ih => cases l <;> simp [KcpSend.wire, kcpWritten, ih]

/-- All sends of whatever kind are with less than 2^32-8 bytes of data, and packed as the receiver expects. -/
def GoodKcp (k : Decoder.Kind) (ls : List (Label KcpSend.Label)) : Prop := ∀ i m q, .send (.call i m q) ∈ ls → ∃ x : UInt32 × Bytes, x.2.length < 2 ^ 32 - 8 ∧ m = packOf k x

theorem kcp_sent {ls : List (Label KcpSend.Label)} {s : State KcpSend.State} (hi : Inv (KcpSend.Step cc) kcpWritten {} k b wid cap c ls s) (hg : GoodKcp k ls) :
    ∃ msgs : List (UInt32 × Bytes), KcpSend.wire (sendTr ls) = msgs.map (packOf k) ∧ ∀ m ∈ msgs, m.2.length < 2 ^ 32 - 8 :=
  unpack_list _ fun m hm => let ⟨i, q, hc⟩ := (C38_kcp_partial cc _ _ hi.snd).1 m hm; hg i m q (mem_sendTr.1 hc)

/-- **C92**, in part. Any number of goroutines send on a KCP connection, with sends of all kinds; whatever the schedule, the pieces in which the bytes arrive, the other work of the receiver's workers, and also if the
sender is stopped or the network fails: the receiver handles, unchanged, each once, one after the other and in the order of writing, messages given to sends. If only one goroutine used buffered sends until its
first was queued, then those that went through the queue are written in the order of queuing. Missing: without that condition buffered messages can get lost or change places (`C92_kcp_refuted`,
`C38_kcp_refuted`). -/
theorem C92_kcp_partial {ls : List (Label KcpSend.Label)} {s : State KcpSend.State} (h : Steps (Pipe.Step (KcpSend.Step cc) kcpWritten k b wid cap c) (Pipe.init {} k) ls s) (hk : k ≠ .htlv) (hg : GoodKcp k ls) :
    (∃ msgs : List (UInt32 × Bytes), KcpSend.wire (sendTr ls) = msgs.map (packOf k) ∧ (∀ m ∈ msgs, ∃ i q, .send (.call i (packOf k m) q) ∈ ls) ∧
      (Worker.handlingOf c (workTr c ls)).map (seen s.msgs) <+: oneByOne msgs) ∧
    ∀ i ls₁ ls₂, ls = ls₁ ++ ls₂ → (∀ j m q, .send (.call j m q) ∈ ls₁ → q = .buff ∨ q = .queue → j = i) → (ls₂ = [] ∨ ∃ m c, .send (.enq i m c) ∈ ls₁) →
      KcpSend.written (sendTr ls) <+: KcpSend.queued (sendTr ls) := by
  have hi := Pipe.inv h
  obtain ⟨msgs, h1, h2⟩ := kcp_sent hi hg
  obtain ⟨g1, g2⟩ := C38_kcp_partial cc _ _ hi.snd
  refine ⟨⟨msgs, h1, fun m hm => ?_, pipe_handled hi hk msgs h2 (by rw [kcp_wire, h1]; exact List.prefix_rfl)⟩, fun i ls₁ ls₂ e a1 a2 => ?_⟩
  · obtain ⟨i, q, hc⟩ := g1 (packOf k m) (by rw [h1]; exact List.mem_map_of_mem hm)
    exact ⟨i, q, mem_sendTr.1 hc⟩
  · refine g2 i (sendTr ls₁) (sendTr ls₂) (by rw [e]; exact List.filterMap_append) (fun j m q hc => a1 j m q (mem_sendTr.1 hc)) ?_
    rcases a2 with rfl | ⟨m, c, hc⟩
    · exact .inl rfl
    · exact .inr ⟨m, c, mem_sendTr.2 hc⟩

/-- **C92**, every message arrives, in part. On a KCP connection that is not stopped and whose network works: everything written at any point is handled by the receiver, one message after the other in the order
of writing; and if only one goroutine used buffered sends until its first was queued, then everything queued at some point is written at some later point. -/
theorem C92_kcp_arrives_partial (e : Exec (Pipe.Step (KcpSend.Step cc) kcpWritten k b wid cap c)) (h0 : e.run 0 = Pipe.init {} k) (hk : k ≠ .htlv) (hg : ∀ n, GoodKcp k (e.trace n))
    (hrd : e.WeakFair isRead) (hwk : e.WeakFair (byWorker (workerActs (wid c)))) (hdel : e.StrongFair (byWorker (readerActs c))) :
    (∀ n, ∃ msgs : List (UInt32 × Bytes), KcpSend.wire (sendTr (e.trace n)) = msgs.map (packOf k) ∧
      ∃ m, n ≤ m ∧ oneByOne msgs <+: (Worker.handlingOf c (workTr c (e.trace m))).map (seen (e.run m).msgs)) ∧
    ((∀ n, (e.run n).snd.cancelled = false ∧ (e.run n).snd.broken = false) → ∀ i n₀, (∀ j m q, .send (.call j m q) ∈ e.trace n₀ → q = .buff ∨ q = .queue → j = i) →
      KcpSend.queued (sendTr (e.trace n₀)) ≠ [] → e.WeakFair (bySender (KcpSend.Label.writer 0)) → ∀ n, ∃ m, n ≤ m ∧ KcpSend.queued (sendTr (e.trace n)) <+: KcpSend.written (sendTr (e.trace m))) := by
  have hs0 : (sendExec e).run 0 = {} := by show (e.run 0).snd = _; rw [h0]; rfl
  constructor
  · intro n
    obtain ⟨msgs, h1, h2⟩ := kcp_sent (Pipe.inv (h0 ▸ e.steps n)) (hg n)
    refine ⟨msgs, h1, pipe_arrives e h0 hk msgs (fun m hm => ?_) ⟨n, Nat.le_refl _, by rw [kcp_wire, h1]; exact Nat.le_refl _⟩ hrd hwk hdel⟩
    obtain ⟨ms, g1, g2⟩ := kcp_sent (Pipe.inv (h0 ▸ e.steps m)) (hg m)
    obtain ⟨x, hx⟩ := e.trace_prefix hm
    have hxe : KcpSend.wire (sendTr (e.trace m)) = msgs.map (packOf k) ++ KcpSend.wire (sendTr x) := by
      rw [← h1, ← hx]; unfold sendTr; rw [List.filterMap_append, KcpSend.wire_append]
    obtain ⟨rest, r1, r2⟩ := unpack_list (k := k) (KcpSend.wire (sendTr x)) fun y hy => by
      have : y ∈ ms.map (packOf k) := by rw [← g1, hxe]; exact List.mem_append_right _ hy
      obtain ⟨z, hz, rfl⟩ := List.mem_map.1 this
      exact ⟨z, g2 z hz, rfl⟩
    refine ⟨rest, by rw [kcp_wire, hxe, r1, List.map_append]; exact List.prefix_rfl, fun y hy => ?_⟩
    rcases List.mem_append.1 hy with hy | hy
    · exact h2 y hy
    · exact r2 y hy
  · intro hq i n₀ a1 a2 hw n
    obtain ⟨m, hm, h⟩ := C40_kcp_partial cc (sendExec e) hs0 hq i n₀ (fun j m q hc => a1 j m q (mem_sendTr.1 (by rw [← sendExec_trace]; exact hc))) (by rw [sendExec_trace]; exact a2) (sendExec_weak hw) n
    rw [sendExec_trace, sendExec_trace] at h
    exact ⟨m, hm, h⟩

theorem steps_send {S L : Type} {st : S → L → S → Prop} {wr : L → Bytes} {ls : List L} : ∀ (s : State S) {t : S}, Steps st s.snd ls t →
    ∃ u, Steps (Pipe.Step st wr k b wid cap c) s (ls.map .send) u ∧ u.snd = t ∧ u.wk = s.wk ∧ u.msgs = s.msgs ∧ u.rcv = s.rcv ∧ u.flight = s.flight ++ ls.flatMap wr := by
  induction ls with
  | nil => intro s t h; cases h; exact ⟨s, .nil _, rfl, rfl, rfl, rfl, by simp⟩
  | cons l ls ih =>
    intro s t h
    cases h with
    | cons hs h =>
      obtain ⟨u, h1, h2, h3, h4, h5, h6⟩ := ih { s with snd := _, flight := s.flight ++ wr l } h
      exact ⟨u, .cons (.send _ _ _ hs) h1, h2, h3, h4, h5, by rw [h6]; simp⟩

/-- The first message of the buffered sends that meet for the first time gets lost: the send returned nil, the connection stays open, the network works, and whatever happens afterwards the receiver does not handle
the message, unless it is sent again. -/
theorem C92_kcp_refuted (x y : UInt32 × Bytes) (hx : x.2.length < 2 ^ 32 - 8) (hy : y.2.length < 2 ^ 32 - 8) (hk : k ≠ .htlv) (hxy : packOf k x ≠ packOf k y) :
    ∃ ls s, Steps (Pipe.Step (KcpSend.Step 1024) kcpWritten k b wid cap c) (Pipe.init {} k) ls s ∧ GoodKcp k ls ∧ .send (.enq 0 (packOf k x) 0) ∈ ls ∧ s.snd.cancelled = false ∧ s.snd.broken = false ∧
      ∀ ls' u, Steps (Pipe.Step (KcpSend.Step 1024) kcpWritten k b wid cap c) s ls' u → GoodKcp k ls' → (∀ i q, .send (.call i (packOf k x) q) ∉ ls') →
        (true, some x) ∉ (Worker.handlingOf c (workTr c (ls ++ ls'))).map (seen u.msgs) := by
  obtain ⟨t, h1, h2, h3, h4⟩ := kcp_lost _ _ hxy
  obtain ⟨s, g1, rfl, _⟩ := steps_send (wr := kcpWritten) (k := k) (b := b) (wid := wid) (cap := cap) (c := c) (st := KcpSend.Step 1024) (Pipe.init ({} : KcpSend.State) k) h1
  have hgood : GoodKcp k ((kcpLosing (packOf k x) (packOf k y)).map .send) := by
    intro i m q hm
    simp [kcpLosing] at hm
    rcases hm with ⟨_, rfl, _⟩ | ⟨_, rfl, _⟩
    · exact ⟨x, hx, rfl⟩
    · exact ⟨y, hy, rfl⟩
  refine ⟨_, s, g1, hgood, by simp [kcpLosing], h2, h3, fun ls' u h hg hl hmem => ?_⟩
  have hall := g1.append h
  obtain ⟨⟨msgs, e1, _, e3⟩, _⟩ := C92_kcp_partial hall hk fun i m q hm => (List.mem_append.1 hm).elim (hgood i m q) (hg i m q)
  have hin : (true, some x) ∈ oneByOne msgs := e3.subset hmem
  unfold oneByOne at hin
  rw [List.mem_flatMap] at hin
  obtain ⟨z, hz, hin⟩ := hin
  simp at hin
  subst hin
  have hw : packOf k x ∈ KcpSend.wire (sendTr ((kcpLosing (packOf k x) (packOf k y)).map .send ++ ls')) := by rw [e1]; exact List.mem_map_of_mem hz
  have hsplit : sendTr ((kcpLosing (packOf k x) (packOf k y)).map .send ++ ls') = kcpLosing (packOf k x) (packOf k y) ++ sendTr ls' := by
    unfold sendTr
    rw [List.filterMap_append, List.filterMap_map]
    congr 1
  rw [hsplit, KcpSend.wire_append] at hw
  have hnil : KcpSend.wire (kcpLosing (packOf k x) (packOf k y)) = [] := rfl
  rw [hnil, List.nil_append] at hw
  have hst : ∀ {ls' : List (Label KcpSend.Label)} {s u : State KcpSend.State}, Steps (Pipe.Step (KcpSend.Step 1024) kcpWritten k b wid cap c) s ls' u → Steps (KcpSend.Step 1024) s.snd (sendTr ls') u.snd := by
    intro ls' s u h
    induction h with
    | nil => exact .nil _
    | cons hs _ ih =>
      cases hs with
      | send l t h => exact .cons h ih
      | read => exact ih
      | work => exact ih
  exact kcpLost_steps h4 (hst h) (fun i q hc => hl i q (mem_sendTr.1 hc)) hw

end

/-! ### Examples -/

def endMsg : UInt32 × Bytes := (5, [7])

def endBytes : Bytes := [0, 0, 0, 5, 0, 0, 0, 1, 7]

def endReq : Worker.Req := ⟨some 3, 0, .message⟩

def endDec : Frame.FrameDecoder := Frame.newFrameDecoder (Decoder.lengthField .tlv)

theorem end_recv : Decoder.receive .tlv endDec [endBytes] = ([({ Pack.newMsgPackage 5 [7] with rawData := endBytes }, some (.tlv 5 1 [7]))], .running { endDec with inBuf := [] }) := by decide +kernel

/-- A buffered message goes from the sender to the handler of the receiver. -/
def wsEnd : List (Label WsSend.Label) := [.send (.call 0 endBytes true), .send (.lock 0), .send (.enq 0 endBytes), .send .recv, .send .wlock, .send (.wwrite endBytes), .send (.wend endBytes),
  .read endBytes [endReq], .work (.submit 1 endReq), .work (.start 1 endReq), .work (.finish 1 endReq .returned)]

/-- Nothing is on its way. -/
structure EndRest {S : Type} (s : State S) : Prop where
  flight : s.flight = []
  queue : s.wk.queue 1 = []
  idle : s.wk.worker 1 = .idle
  todo : ∀ c, s.wk.todo c = []

theorem wsEnd_steps : ∃ s, StepsAll (Pipe.Step (WsSend.Step 1) wsWritten .tlv false (fun c => c % 2) 1 3) (fun s => s.snd.cancelled = false ∧ s.snd.broken = false) (Pipe.init {} .tlv) wsEnd s ∧
    EndRest s ∧ s.snd.writer = .select ∧ s.snd.chan = some ⟨[], false⟩ ∧ (∀ i, s.snd.s i = .idle) ∧ s.snd.fin = .waiting := by
  refine ⟨_, .cons ⟨rfl, rfl⟩ (.send _ _ _ (.call _ 0 endBytes true rfl)) (.cons ⟨rfl, rfl⟩ (.send _ _ _ (.buffOpen _ 0 endBytes rfl rfl rfl)) (.cons ⟨rfl, rfl⟩ (.send _ _ _ (.enq _ 0 endBytes ⟨[], false⟩ rfl rfl rfl (by decide)))
    (.cons ⟨rfl, rfl⟩ (.send _ _ _ (.recv _ endBytes [] false rfl rfl)) (.cons ⟨rfl, rfl⟩ (.send _ _ _ (.wOpen _ endBytes rfl rfl rfl)) (.cons ⟨rfl, rfl⟩ (.send _ _ _ (.wwrite _ [] endBytes [] rfl (by decide) rfl))
    (.cons ⟨rfl, rfl⟩ (.send _ _ _ (.wend _ endBytes rfl rfl)) (.cons ⟨rfl, rfl⟩ (.read _ endBytes [] endDec _ _ (by decide) rfl rfl end_recv _ (.arrive _ 3 _ rfl (by decide)))
    (.cons ⟨rfl, rfl⟩ (.work _ _ (by intro _ h; cases h) _ (.deliver _ 3 _ [] rfl (by decide))) (.cons ⟨rfl, rfl⟩ (.work _ _ (by intro _ h; cases h) _ (.take _ 1 _ [] rfl rfl))
    (.cons ⟨rfl, rfl⟩ (.work _ _ (by intro _ h; cases h) _ (.finish _ 1 _ _ rfl)) (.nil ⟨rfl, rfl⟩))))))))))), ⟨rfl, rfl, rfl, fun c => ?_⟩, rfl, rfl, fun i => ?_, rfl⟩
  · by_cases h : c = 3 <;> simp [Worker.upd, h, Pipe.init, Worker.initial]
  · by_cases h : i = 0 <;> simp [WsSend.set, h, Pipe.init]

theorem wsEnd_good : GoodWs .tlv wsEnd := by
  intro i m b h
  simp [wsEnd] at h
  exact ⟨endMsg, by decide, by rw [h.2.1]; decide +kernel⟩

/-- The hypotheses of `C91_ws` hold of it, and it shows a message being handled. -/
example : ∃ s, Steps (Pipe.Step (WsSend.Step 1) wsWritten .tlv false (fun c => c % 2) 1 3) (Pipe.init {} .tlv) wsEnd s ∧ GoodWs .tlv wsEnd ∧ WsSend.sent (sendTr wsEnd) = [packOf .tlv endMsg] ∧
    Worker.handlingOf 3 (workTr 3 wsEnd) = [.begins endReq, .ends endReq] := by
  obtain ⟨s, h, _⟩ := wsEnd_steps
  exact ⟨s, h.steps, wsEnd_good, by decide +kernel, by decide +kernel⟩

theorem end_quiet {S L : Type} {st : S → L → S → Prop} {wr : L → Bytes} {s : State S} (h : EndRest s) : ¬ Enabled (Pipe.Step st wr .tlv false (fun c => c % 2) 1 3) isRead s ∧
    ¬ Enabled (Pipe.Step st wr .tlv false (fun c => c % 2) 1 3) (byWorker (workerActs 1)) s ∧ ¬ Enabled (Pipe.Step st wr .tlv false (fun c => c % 2) 1 3) (byWorker (readerActs 3)) s := by
  obtain ⟨h1, h2, h3, h4⟩ := h
  refine ⟨?_, ?_, ?_⟩ <;> intro ⟨l, t, hA, hs⟩ <;> cases hs <;> simp only [byWorker, isRead] at hA
  · rename_i hx hf _ _ _ _
    rw [h1] at hf
    exact hx (List.append_eq_nil_iff.1 hf.symm).1
  · rename_i h
    cases h <;> grind [workerActs]
  · rename_i h
    cases h <;> grind [readerActs]

/-- The hypotheses of `C91_ws_arrives` hold of it. -/
example : ∃ e : Exec (Pipe.Step (WsSend.Step 1) wsWritten .tlv false (fun c => c % 2) 1 3), e.run 0 = Pipe.init {} .tlv ∧ (∀ n, (e.run n).snd.cancelled = false ∧ (e.run n).snd.broken = false) ∧
    (∀ n, GoodWs .tlv (e.trace n)) ∧ (∀ i, e.WeakFair (bySender (WsSend.Label.inside i))) ∧ e.WeakFair (bySender WsSend.Label.winside) ∧ e.StrongFair (bySender (· = .wlock)) ∧
    e.WeakFair (bySender (· = .recv)) ∧ e.WeakFair isRead ∧ e.WeakFair (byWorker (workerActs 1)) ∧ e.StrongFair (byWorker (readerActs 3)) ∧
    WsSend.enqOf (sendTr (e.trace 3)) = [packOf .tlv endMsg] := by
  obtain ⟨s, h1, h2, h3, h4, h5, h6⟩ := wsEnd_steps
  obtain ⟨e, e1, e2, e3, e4⟩ := Exec.ofStepsAll h1
  have htr : ∀ n, e.trace n = wsEnd.take n := e.trace_of_act e2
  have hq := e3 wsEnd.length
  rw [e4 _ (Nat.le_refl _)] at hq
  obtain ⟨q1, q2, q3⟩ := end_quiet (st := WsSend.Step 1) (wr := wsWritten) h2
  refine ⟨e, e1, e3, fun n i m b h => wsEnd_good i m b (List.mem_of_mem_take (htr n ▸ h)), fun i => Exec.weakFair_of_end e4 ?_, Exec.weakFair_of_end e4 ?_, Exec.strongFair_of_end e4 ?_, Exec.weakFair_of_end e4 ?_,
    Exec.weakFair_of_end e4 q1, Exec.weakFair_of_end e4 q2, Exec.strongFair_of_end e4 q3, by rw [htr]; decide +kernel⟩
  all_goals
    intro ⟨l, t, hA, hs⟩
    cases hs <;> simp only [bySender] at hA
    rename_i h
    cases h <;> simp [WsSend.Label.inside, WsSend.Label.winside] at hA <;> simp_all

/-- The same on a KCP connection. -/
def kcpEnd : List (Label KcpSend.Label) := [.send (.call 0 endBytes .buff), .send (.own 0), .send (.own 0), .send (.make 0), .send (.own 0), .send (.enq 0 endBytes 0), .send (.weval 0), .send (.recv 0),
  .send (.wlock 0), .send (.wwrite 0 endBytes), .send (.weval 0), .read endBytes [endReq], .work (.submit 1 endReq), .work (.start 1 endReq), .work (.finish 1 endReq .returned)]

theorem kcpEnd_steps : ∃ s, StepsAll (Pipe.Step (KcpSend.Step 1) kcpWritten .tlv false (fun c => c % 2) 1 3) (fun s => s.snd.cancelled = false ∧ s.snd.broken = false) (Pipe.init {} .tlv) kcpEnd s ∧
    EndRest s ∧ s.snd.w 0 = .sel 0 ∧ s.snd.chan 0 = ⟨[], false⟩ := by
  refine ⟨_, .cons ⟨rfl, rfl⟩ (.send _ _ _ (.call _ 0 endBytes .buff rfl)) (.cons ⟨rfl, rfl⟩ (.send _ _ _ (.buffOpen _ 0 endBytes rfl rfl)) (.cons ⟨rfl, rfl⟩ (.send _ _ _ (.isNil _ 0 endBytes false rfl rfl))
    (.cons ⟨rfl, rfl⟩ (.send _ _ _ (.make _ 0 endBytes false rfl)) (.cons ⟨rfl, rfl⟩ (.send _ _ _ (.eval _ 0 endBytes false 0 rfl rfl)) (.cons ⟨rfl, rfl⟩ (.send _ _ _ (.enq _ 0 endBytes false 0 rfl rfl (by decide)))
    (.cons ⟨rfl, rfl⟩ (.send _ _ _ (.weval _ 0 0 rfl rfl)) (.cons ⟨rfl, rfl⟩ (.send _ _ _ (.recv _ 0 0 endBytes [] rfl rfl)) (.cons ⟨rfl, rfl⟩ (.send _ _ _ (.wOpen _ 0 endBytes rfl rfl rfl))
    (.cons ⟨rfl, rfl⟩ (.send _ _ _ (.wwrite _ 0 endBytes rfl rfl)) (.cons ⟨rfl, rfl⟩ (.send _ _ _ (.weval _ 0 0 rfl rfl)) (.cons ⟨rfl, rfl⟩ (.read _ endBytes [] endDec _ _ (by decide) rfl rfl end_recv _ (.arrive _ 3 _ rfl (by decide)))
    (.cons ⟨rfl, rfl⟩ (.work _ _ (by intro _ h; cases h) _ (.deliver _ 3 _ [] rfl (by decide))) (.cons ⟨rfl, rfl⟩ (.work _ _ (by intro _ h; cases h) _ (.take _ 1 _ [] rfl rfl))
    (.cons ⟨rfl, rfl⟩ (.work _ _ (by intro _ h; cases h) _ (.finish _ 1 _ _ rfl)) (.nil ⟨rfl, rfl⟩))))))))))))))), ⟨rfl, rfl, rfl, fun c => ?_⟩, rfl, rfl⟩
  by_cases h : c = 3 <;> simp [Worker.upd, h, Pipe.init, Worker.initial]

theorem kcpEnd_good : GoodKcp .tlv kcpEnd ∧ ∀ j m q, .send (.call j m q) ∈ kcpEnd → j = 0 := by
  constructor
  · intro i m b h
    simp [kcpEnd] at h
    exact ⟨endMsg, by decide, by rw [h.2.1]; decide +kernel⟩
  · intro i m b h
    simp [kcpEnd] at h
    exact h.1

/-- The hypotheses of `C92_kcp_partial` hold of it, and it shows a message being handled. -/
example : ∃ s, Steps (Pipe.Step (KcpSend.Step 1) kcpWritten .tlv false (fun c => c % 2) 1 3) (Pipe.init {} .tlv) kcpEnd s ∧ GoodKcp .tlv kcpEnd ∧ KcpSend.wire (sendTr kcpEnd) = [packOf .tlv endMsg] ∧
    Worker.handlingOf 3 (workTr 3 kcpEnd) = [.begins endReq, .ends endReq] := by
  obtain ⟨s, h, _⟩ := kcpEnd_steps
  exact ⟨s, h.steps, kcpEnd_good.1, by decide +kernel, by decide +kernel⟩

/-- The hypotheses of `C92_kcp_arrives_partial` hold of it. -/
example : ∃ e : Exec (Pipe.Step (KcpSend.Step 1) kcpWritten .tlv false (fun c => c % 2) 1 3), e.run 0 = Pipe.init {} .tlv ∧ (∀ n, (e.run n).snd.cancelled = false ∧ (e.run n).snd.broken = false) ∧
    (∀ n, GoodKcp .tlv (e.trace n)) ∧ e.WeakFair isRead ∧ e.WeakFair (byWorker (workerActs 1)) ∧ e.StrongFair (byWorker (readerActs 3)) ∧ e.WeakFair (bySender (KcpSend.Label.writer 0)) ∧
    (∀ j m q, .send (.call j m q) ∈ e.trace 6 → q = .buff ∨ q = .queue → j = 0) ∧ KcpSend.queued (sendTr (e.trace 6)) = [packOf .tlv endMsg] := by
  obtain ⟨s, h1, h2, h3, h4⟩ := kcpEnd_steps
  obtain ⟨e, e1, e2, e3, e4⟩ := Exec.ofStepsAll h1
  have htr : ∀ n, e.trace n = kcpEnd.take n := e.trace_of_act e2
  have hq := e3 kcpEnd.length
  rw [e4 _ (Nat.le_refl _)] at hq
  obtain ⟨q1, q2, q3⟩ := end_quiet (st := KcpSend.Step 1) (wr := kcpWritten) h2
  refine ⟨e, e1, e3, fun n i m b h => kcpEnd_good.1 i m b (List.mem_of_mem_take (htr n ▸ h)), Exec.weakFair_of_end e4 q1, Exec.weakFair_of_end e4 q2, Exec.strongFair_of_end e4 q3, Exec.weakFair_of_end e4 ?_,
    fun j m q h _ => kcpEnd_good.2 j m q (List.mem_of_mem_take (htr 6 ▸ h)), by rw [htr]; decide +kernel⟩
  intro ⟨l, t, hA, hs⟩
  cases hs <;> simp only [bySender] at hA
  rename_i h
  cases h <;> simp [KcpSend.Label.writer] at hA <;> simp_all

end Zinx.Props
