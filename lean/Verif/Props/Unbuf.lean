import Verif.Model.Unbuf
import Verif.Props.SendCalls
import Verif.Props.Pipe
import Verif.Props.PipeWs

/-! # C141: message queues of length 0

Every execution with a queue of length 0 is one with a queue of length 1, the message being taken from it right after it was put there (`unbuf_tcp`, `unbuf_ws`, `unbuf_kcp`). So what was proved of all executions for every length
holds for length 0 as well. -/

namespace Zinx.Props
open Zinx Zinx.Pipe

/-- Both halves of what happens at once, one after the other. -/
def inTurn {L : Type} (ls : List (Unbuf.Label L)) : List L := ls.flatMap fun
  | .one l => [l]
  | .both a b => [a, b]

theorem unbuf_sim {S L : Type} {st0 st1 : S → L → S → Prop} {over : S → L → L → S → Prop} (h1 : ∀ s l t, st0 s l t → st1 s l t) (h2 : ∀ s a b t, over s a b t → ∃ u, st1 s a u ∧ st1 u b t)
    {s t : S} {ls : List (Unbuf.Label L)} (h : Steps (Unbuf.Step st0 over) s ls t) : Steps st1 s (inTurn ls) t := by
  induction h with
  | nil s => exact .nil s
  | cons hs _ ih =>
    cases hs with
    | one l t h => exact .cons (h1 _ _ _ h) ih
    | both a b t h => obtain ⟨u, g1, g2⟩ := h2 _ _ _ _ h; exact .cons g1 (.cons g2 ih)

theorem tcp_any {c0 c1 : Nat} {bc : Nat} (s : Send.State) (l : Send.Label) (t : Send.State) (hl : ∀ i m, l ≠ .enq i m) (h : Send.Step c0 bc s l t) : Send.Step c1 bc s l t := by
  cases h
  case enq => exact (hl _ _ rfl).elim
  case stop => apply Send.Step.stop <;> assumption
  case netFail => apply Send.Step.netFail <;> assumption
  case call => apply Send.Step.call <;> assumption
  case testNil => apply Send.Step.testNil <;> assumption
  case testSome => apply Send.Step.testSome <;> assumption
  case casWin => apply Send.Step.casWin <;> assumption
  case casLose => apply Send.Step.casLose <;> assumption
  case make => apply Send.Step.make <;> assumption
  case checkClosed => apply Send.Step.checkClosed <;> assumption
  case checkOpen => apply Send.Step.checkOpen <;> assumption
  case selDone => apply Send.Step.selDone <;> assumption
  case timeout => apply Send.Step.timeout <;> assumption
  case enqPanic => apply Send.Step.enqPanic <;> assumption
  case closeChan => apply Send.Step.closeChan <;> assumption
  case closePanic => apply Send.Step.closePanic <;> assumption
  case dcall => apply Send.Step.dcall <;> assumption
  case dcheckClosed => apply Send.Step.dcheckClosed <;> assumption
  case dcheckOpen => apply Send.Step.dcheckOpen <;> assumption
  case dwrite => apply Send.Step.dwrite <;> assumption
  case dwritePart => apply Send.Step.dwritePart <;> assumption
  case dwriteFail => apply Send.Step.dwriteFail <;> assumption
  case tick => apply Send.Step.tick <;> assumption
  case flushClosed => apply Send.Step.flushClosed <;> assumption
  case flushOpen => apply Send.Step.flushOpen <;> assumption
  case flushErr => apply Send.Step.flushErr <;> assumption
  case flushEmpty => apply Send.Step.flushEmpty <;> assumption
  case flushWrite => apply Send.Step.flushWrite <;> assumption
  case flushPart => apply Send.Step.flushPart <;> assumption
  case flushFail => apply Send.Step.flushFail <;> assumption
  case recv => apply Send.Step.recv <;> assumption
  case recvClosed => apply Send.Step.recvClosed <;> assumption
  case ctxDone => apply Send.Step.ctxDone <;> assumption
  case gotClosed => apply Send.Step.gotClosed <;> assumption
  case gotOpen => apply Send.Step.gotOpen <;> assumption
  case putErr => apply Send.Step.putErr <;> assumption
  case putDirect => apply Send.Step.putDirect <;> assumption
  case putFill => apply Send.Step.putFill <;> assumption
  case putRest => apply Send.Step.putRest <;> assumption
  case putPart => apply Send.Step.putPart <;> assumption
  case putFail => apply Send.Step.putFail <;> assumption
  case exit => apply Send.Step.exit <;> assumption
  case exitWrite => apply Send.Step.exitWrite <;> assumption

theorem tcp_more {bc : Nat} (s : Send.State) (l : Send.Label) (t : Send.State) (h : Send.Step 0 bc s l t) : Send.Step 1 bc s l t := by
  refine tcp_any s l t ?_ h
  rintro i m rfl
  cases h
  exact absurd ‹_ < 0› (Nat.not_lt_zero _)

theorem ws_any {c0 c1 : Nat} (s : WsSend.State) (l : WsSend.Label) (t : WsSend.State) (hl : ∀ i m, l ≠ .enq i m) (h : WsSend.Step c0 s l t) : WsSend.Step c1 s l t := by
  cases h
  case enq => exact (hl _ _ rfl).elim
  case stop => apply WsSend.Step.stop <;> assumption
  case netFail => apply WsSend.Step.netFail <;> assumption
  case call => apply WsSend.Step.call <;> assumption
  case directClosed => apply WsSend.Step.directClosed <;> assumption
  case directOpen => apply WsSend.Step.directOpen <;> assumption
  case write => apply WsSend.Step.write <;> assumption
  case writeEnd => apply WsSend.Step.writeEnd <;> assumption
  case writeFail => apply WsSend.Step.writeFail <;> assumption
  case buffClosed => apply WsSend.Step.buffClosed <;> assumption
  case buffOpen => apply WsSend.Step.buffOpen <;> assumption
  case enqPanic => apply WsSend.Step.enqPanic <;> assumption
  case timeout => apply WsSend.Step.timeout <;> assumption
  case recv => apply WsSend.Step.recv <;> assumption
  case recvClosed => apply WsSend.Step.recvClosed <;> assumption
  case ctxDone => apply WsSend.Step.ctxDone <;> assumption
  case wClosed => apply WsSend.Step.wClosed <;> assumption
  case wOpen => apply WsSend.Step.wOpen <;> assumption
  case wwrite => apply WsSend.Step.wwrite <;> assumption
  case wend => apply WsSend.Step.wend <;> assumption
  case wfail => apply WsSend.Step.wfail <;> assumption
  case finStart => apply WsSend.Step.finStart <;> assumption
  case hookDone => apply WsSend.Step.hookDone <;> assumption
  case finLock => apply WsSend.Step.finLock <;> assumption
  case finLockClosed => apply WsSend.Step.finLockClosed <;> assumption
  case finSock => apply WsSend.Step.finSock <;> assumption
  case finNoChan => apply WsSend.Step.finNoChan <;> assumption
  case finChan => apply WsSend.Step.finChan <;> assumption
  case finPanic => apply WsSend.Step.finPanic <;> assumption

theorem ws_more (s : WsSend.State) (l : WsSend.Label) (t : WsSend.State) (h : WsSend.Step 0 s l t) : WsSend.Step 1 s l t := by
  refine ws_any s l t ?_ h
  rintro i m rfl
  cases h
  exact absurd ‹_ < 0› (Nat.not_lt_zero _)

theorem kcp_any {c0 c1 : Nat} (s : KcpSend.State) (l : KcpSend.Label) (t : KcpSend.State) (hl : ∀ i m c, l ≠ .enq i m c) (h : KcpSend.Step c0 s l t) : KcpSend.Step c1 s l t := by
  cases h
  case enq => exact (hl _ _ _ rfl).elim
  case stop => apply KcpSend.Step.stop <;> assumption
  case netFail => apply KcpSend.Step.netFail <;> assumption
  case call => apply KcpSend.Step.call <;> assumption
  case msgClosed => apply KcpSend.Step.msgClosed <;> assumption
  case msgOpen => apply KcpSend.Step.msgOpen <;> assumption
  case sendClosed => apply KcpSend.Step.sendClosed <;> assumption
  case sendOpen => apply KcpSend.Step.sendOpen <;> assumption
  case write => apply KcpSend.Step.write <;> assumption
  case writeFail => apply KcpSend.Step.writeFail <;> assumption
  case buffClosed => apply KcpSend.Step.buffClosed <;> assumption
  case buffOpen => apply KcpSend.Step.buffOpen <;> assumption
  case queueLock => apply KcpSend.Step.queueLock <;> assumption
  case isNil => apply KcpSend.Step.isNil <;> assumption
  case notNil => apply KcpSend.Step.notNil <;> assumption
  case make => apply KcpSend.Step.make <;> assumption
  case queueClosed => apply KcpSend.Step.queueClosed <;> assumption
  case queueOpen => apply KcpSend.Step.queueOpen <;> assumption
  case eval => apply KcpSend.Step.eval <;> assumption
  case enqPanic => apply KcpSend.Step.enqPanic <;> assumption
  case timeout => apply KcpSend.Step.timeout <;> assumption
  case weval => apply KcpSend.Step.weval <;> assumption
  case recv => apply KcpSend.Step.recv <;> assumption
  case recvClosed => apply KcpSend.Step.recvClosed <;> assumption
  case ctxDone => apply KcpSend.Step.ctxDone <;> assumption
  case wClosed => apply KcpSend.Step.wClosed <;> assumption
  case wOpen => apply KcpSend.Step.wOpen <;> assumption
  case wwrite => apply KcpSend.Step.wwrite <;> assumption
  case wfail => apply KcpSend.Step.wfail <;> assumption
  case finStart => apply KcpSend.Step.finStart <;> assumption
  case hookDone => apply KcpSend.Step.hookDone <;> assumption
  case finLock => apply KcpSend.Step.finLock <;> assumption
  case finSock => apply KcpSend.Step.finSock <;> assumption
  case finNoChan => apply KcpSend.Step.finNoChan <;> assumption
  case finChan => apply KcpSend.Step.finChan <;> assumption
  case finPanic => apply KcpSend.Step.finPanic <;> assumption

theorem kcp_more (s : KcpSend.State) (l : KcpSend.Label) (t : KcpSend.State) (h : KcpSend.Step 0 s l t) : KcpSend.Step 1 s l t := by
  refine kcp_any s l t ?_ h
  rintro i m c rfl
  cases h
  exact absurd ‹_ < 0› (Nat.not_lt_zero _)

theorem tcp_over {bc : Nat} (s : Send.State) (a b : Send.Label) (t : Send.State) (h : Unbuf.Tcp s a b t) : ∃ u, Send.Step 1 bc s a u ∧ Send.Step 1 bc u b t := by
  cases h with
  | over i m h1 h2 h3 =>
    have := Send.Step.recv (chanCap := 1) (bufCap := bc) { s with chan := some ⟨[] ++ [m], false⟩, b := Send.set s.b i .idle } m [] false h3 rfl
    refine ⟨_, .enq s i m _ h1 h2 rfl Nat.zero_lt_one, ?_⟩
    dsimp only at this ⊢
    rw [← h2] at this
    exact this

theorem ws_over (s : WsSend.State) (a b : WsSend.Label) (t : WsSend.State) (h : Unbuf.Ws s a b t) : ∃ u, WsSend.Step 1 s a u ∧ WsSend.Step 1 u b t := by
  cases h with
  | over i m h1 h2 h3 =>
    have := WsSend.Step.recv (chanCap := 1) { s with chan := some ⟨[] ++ [m], false⟩, lock := none, s := WsSend.set s.s i .idle } m [] false h3 rfl
    refine ⟨_, .enq s i m _ h1 h2 rfl Nat.zero_lt_one, ?_⟩
    dsimp only at this ⊢
    rw [← h2] at this
    exact this

theorem kcp_over (s : KcpSend.State) (a b : KcpSend.Label) (t : KcpSend.State) (h : Unbuf.Kcp s a b t) : ∃ u, KcpSend.Step 1 s a u ∧ KcpSend.Step 1 u b t := by
  cases h with
  | over i m r c k h1 h2 h3 h4 =>
    have := KcpSend.Step.recv (chanCap := 1) { s with chan := KcpSend.set s.chan c ⟨(s.chan c).items ++ [m], false⟩, s := KcpSend.set s.s i .idle } k c m [] h4 (by simp [KcpSend.set, h2])
    refine ⟨_, .enq s i m r c h1 h3 (by rw [h2]; exact Nat.zero_lt_one), ?_⟩
    have hc : KcpSend.set (KcpSend.set s.chan c ⟨(s.chan c).items ++ [m], false⟩) c ⟨[], (KcpSend.set s.chan c ⟨(s.chan c).items ++ [m], false⟩ c).closed⟩ = s.chan := by
      funext j
      by_cases hj : j = c
      · subst hj
        have : s.chan j = ⟨[], false⟩ := by rw [← h2, ← h3]
        simp [KcpSend.set, this]
      · simp [KcpSend.set, hj]
    dsimp only at this ⊢
    rw [hc] at this
    exact this

/-- Executions with a queue of length 0 are executions with a queue of length 1, TCP. -/
theorem unbuf_tcp {bc : Nat} {s t : Send.State} {ls : List (Unbuf.Label Send.Label)} (h : Steps (Unbuf.TcpStep bc) s ls t) : Steps (Send.Step 1 bc) s (inTurn ls) t :=
  unbuf_sim tcp_more tcp_over h

/-- The same for WebSocket. -/
theorem unbuf_ws {s t : WsSend.State} {ls : List (Unbuf.Label WsSend.Label)} (h : Steps Unbuf.WsStep s ls t) : Steps (WsSend.Step 1) s (inTurn ls) t :=
  unbuf_sim ws_more ws_over h

/-- The same for KCP. -/
theorem unbuf_kcp {s t : KcpSend.State} {ls : List (Unbuf.Label KcpSend.Label)} (h : Steps Unbuf.KcpStep s ls t) : Steps (KcpSend.Step 1) s (inTurn ls) t :=
  unbuf_sim kcp_more kcp_over h

/-- **C141**, calls. With queues of length 0, too, a send has one outcome, and it is about its own message. -/
theorem C141_calls (bc i : Nat) :
    (∀ ls t, Steps (Unbuf.TcpStep bc) {} ls t → SendsWell ((inTurn ls).flatMap (tcpBuffered i)) ∧ SendsWell ((inTurn ls).flatMap (tcpDirect i))) ∧
    (∀ ls t, Steps Unbuf.WsStep {} ls t → SendsWell ((inTurn ls).flatMap (wsCalls i))) ∧ ∀ ls t, Steps Unbuf.KcpStep {} ls t → SendsWell ((inTurn ls).flatMap (kcpCalls i)) :=
  ⟨fun _ t h => C86_tcp 1 bc i t _ (unbuf_tcp h), fun _ t h => C86_ws 1 i t _ (unbuf_ws h), fun _ t h => C86_kcp 1 i t _ (unbuf_kcp h)⟩

/-! ## From end to end -/

/-- The same for the parts of a connection from end to end. -/
def inTurnPipe {L : Type} (ls : List (Pipe.Label (Unbuf.Label L))) : List (Pipe.Label L) := ls.flatMap fun
  | .send (.one l) => [.send l]
  | .send (.both a b) => [.send a, .send b]
  | .read x rs => [.read x rs]
  | .work a => [.work a]

theorem unbuf_pipe {S L : Type} {st0 st1 : S → L → S → Prop} {over : S → L → L → S → Prop} {wr : L → Bytes} {k : Decoder.Kind} {b : Bool} {wid : Nat → Nat} {cap c : Nat}
    (h1 : ∀ s l t, st0 s l t → st1 s l t) (h2 : ∀ s a b t, over s a b t → ∃ u, st1 s a u ∧ st1 u b t) {s t : State S} {ls : List (Pipe.Label (Unbuf.Label L))}
    (h : Steps (Pipe.Step (Unbuf.Step st0 over) (Unbuf.written wr) k b wid cap c) s ls t) : Steps (Pipe.Step st1 wr k b wid cap c) s (inTurnPipe ls) t := by
  induction h with
  | nil s => exact .nil s
  | cons hs _ ih =>
    cases hs with
    | send l t h =>
      cases h with
      | one l t h => exact .cons (.send _ l t (h1 _ _ _ h)) ih
      | both a b t h =>
        obtain ⟨u, g1, g2⟩ := h2 _ _ _ _ h
        refine .cons (.send _ a u g1) (.cons (.send _ b t g2) ?_)
        dsimp only [Unbuf.written] at ih ⊢
        rw [List.append_assoc]
        exact ih
    | read x y d ms sta hx hf hd hr t hw => exact .cons (.read _ x y d ms sta hx hf hd hr t hw) ih
    | work a ha t h => exact .cons (.work _ a ha t h) ih

/-- **C141**, from end to end, TCP and buffered sends: as in `C84_buffered`. -/
theorem C141_tcp {bc : Nat} {k : Decoder.Kind} {b : Bool} {wid : Nat → Nat} {cap c : Nat} {ls : List (Pipe.Label (Unbuf.Label Send.Label))} {s : State Send.State}
    (h : Steps (Pipe.Step (Unbuf.TcpStep bc) (Unbuf.written tcpWritten) k b wid cap c) (Pipe.init {} k) ls s) (hk : k ≠ .htlv) (hg : GoodCalls k (inTurnPipe ls)) (ho : OnlyBuffered (inTurnPipe ls)) :
    ∃ msgs : List (UInt32 × Bytes), Send.enqOf (sendTr (inTurnPipe ls)) = msgs.map (packOf k) ∧ (Worker.handlingOf c (workTr c (inTurnPipe ls))).map (seen s.msgs) <+: oneByOne msgs :=
  C84_buffered (unbuf_pipe tcp_more tcp_over h) hk hg ho

/-- **C141**, from end to end, WebSocket and all sends: as in `C91_ws`. -/
theorem C141_ws {k : Decoder.Kind} {b : Bool} {wid : Nat → Nat} {cap c : Nat} {ls : List (Pipe.Label (Unbuf.Label WsSend.Label))} {s : State WsSend.State}
    (h : Steps (Pipe.Step Unbuf.WsStep (Unbuf.written wsWritten) k b wid cap c) (Pipe.init {} k) ls s) (hk : k ≠ .htlv) (hg : GoodWs k (inTurnPipe ls)) :
    ∃ msgs last : List (UInt32 × Bytes), WsSend.sent (sendTr (inTurnPipe ls)) = msgs.map (packOf k) ∧ last.length ≤ 1 ∧ (∀ m ∈ msgs ++ last, ∃ i b, .send (.call i (packOf k m) b) ∈ inTurnPipe ls) ∧
      (Worker.handlingOf c (workTr c (inTurnPipe ls))).map (seen s.msgs) <+: oneByOne (msgs ++ last) ∧ WsSend.wends (sendTr (inTurnPipe ls)) <+: WsSend.enqOf (sendTr (inTurnPipe ls)) :=
  C91_ws (unbuf_pipe ws_more ws_over h) hk hg

/-- **C141**, from end to end, KCP and all sends: as in `C92_kcp_partial`. -/
theorem C141_kcp {k : Decoder.Kind} {b : Bool} {wid : Nat → Nat} {cap c : Nat} {ls : List (Pipe.Label (Unbuf.Label KcpSend.Label))} {s : State KcpSend.State}
    (h : Steps (Pipe.Step Unbuf.KcpStep (Unbuf.written kcpWritten) k b wid cap c) (Pipe.init {} k) ls s) (hk : k ≠ .htlv) (hg : GoodKcp k (inTurnPipe ls)) :
    ∃ msgs : List (UInt32 × Bytes), KcpSend.wire (sendTr (inTurnPipe ls)) = msgs.map (packOf k) ∧ (∀ m ∈ msgs, ∃ i q, .send (.call i (packOf k m) q) ∈ inTurnPipe ls) ∧
      (Worker.handlingOf c (workTr c (inTurnPipe ls))).map (seen s.msgs) <+: oneByOne msgs :=
  (C92_kcp_partial (unbuf_pipe kcp_more kcp_over h) hk hg).1

/-- **C141**, nothing is under way between the sender and the writer: while the writer runs, the bytes of all messages whose buffered sends have returned nil are written, in the buffer of the writer, or in its hands. -/
theorem C141_taken (bc : Nat) (ls : List (Unbuf.Label Send.Label)) (t : Send.State) (h : Steps (Unbuf.TcpStep bc) {} ls t) :
    (∀ c, t.chan = some c → c.items = []) ∧
    (t.writer = .select → (Send.enqOf (inTurn ls)).flatten = Send.wbytes (inTurn ls) ++ t.buf) ∧
    ∀ m, t.writer = .got m ∨ t.writer = .put m → (Send.enqOf (inTurn ls)).flatten = Send.wbytes (inTurn ls) ++ t.buf ++ m := by
  have hc : ∀ c, t.chan = some c → c.items = [] := by
    refine h.invariant (P := fun s => ∀ c, s.chan = some c → c.items = []) ?_ (fun _ h => nomatch h)
    intro s l t hp hs
    cases hs with
    | one l t hs => cases hs <;> intro c h <;> grind
    | both a b t hs => cases hs; exact hp
  have hi : t.items = [] := by
    rw [Send.State.items]
    split
    · rfl
    · exact hc _ ‹_›
  refine ⟨hc, fun hw => ?_, fun m hw => ?_⟩
  · have := ((Send.stream_steps (unbuf_tcp h)).alive (by rw [hw]; rfl)).2
    rw [hw, hi] at this
    simpa [Send.WPc.pend] using this
  · rcases hw with hw | hw <;>
    · have := ((Send.stream_steps (unbuf_tcp h)).alive (by rw [hw]; rfl)).2
      rw [hw, hi] at this
      simpa [Send.WPc.pend] using this

/-- A message goes from the hands of a sender to the network. -/
example : ∃ ls t, Steps (Unbuf.TcpStep 4) {} ls t ∧ .both (.enq 0 [1]) .recv ∈ ls ∧ Send.wbytes (inTurn ls) = [1] :=
  ⟨_, _, .cons (.one _ _ _ (.call _ 0 [1] rfl)) (.cons (.one _ _ _ (.testNil _ 0 [1] rfl rfl)) (.cons (.one _ _ _ (.casWin _ 0 [1] rfl rfl)) (.cons (.one _ _ _ (.make _ 0 [1] rfl))
    (.cons (.one _ _ _ (.checkOpen _ 0 [1] rfl rfl)) (.cons (.both _ _ _ _ (.over _ 0 [1] rfl rfl rfl)) (.cons (.one _ _ _ (.gotOpen _ [1] rfl rfl)) (.cons (.one _ _ _ (.putRest _ [1] rfl rfl (by decide)))
    (.cons (.one _ _ _ (.tick _ rfl)) (.cons (.one _ _ _ (.flushOpen _ rfl rfl)) (.cons (.one _ _ _ (.flushWrite _ rfl rfl (by simp) rfl)) (.nil _))))))))))), by simp, rfl⟩

/-- The difference to a queue of length 1: while the writer is busy no send is taken, so that a second send returns an error (after 5 ms) though nothing else is waiting. With length 1 it could have been queued. -/
theorem C141_refused : ∃ ls s, Steps (Unbuf.TcpStep 4) {} ls s ∧ s.b 1 = .sel [2] true ∧ s.closed = false ∧ s.broken = false ∧ (∀ a b t, ¬ Unbuf.Tcp s a b t) ∧
    ∃ t, Send.Step 1 4 s (.enq 1 [2]) t := by
  refine ⟨_, _, .cons (.one _ _ _ (.call _ 0 [1] rfl)) (.cons (.one _ _ _ (.testNil _ 0 [1] rfl rfl)) (.cons (.one _ _ _ (.casWin _ 0 [1] rfl rfl)) (.cons (.one _ _ _ (.make _ 0 [1] rfl))
    (.cons (.one _ _ _ (.checkOpen _ 0 [1] rfl rfl)) (.cons (.both _ _ _ _ (.over _ 0 [1] rfl rfl rfl)) (.cons (.one _ _ _ (.call _ 1 [2] rfl)) (.cons (.one _ _ _ (.testSome _ 1 [2] rfl (by simp)))
    (.cons (.one _ _ _ (.checkOpen _ 1 [2] rfl rfl)) (.nil _))))))))), rfl, rfl, rfl, ?_, ⟨_, .enq _ 1 [2] _ rfl rfl rfl Nat.zero_lt_one⟩⟩
  intro a b t h
  cases h with
  | over i m h1 h2 h3 => cases h3

end Zinx.Props
