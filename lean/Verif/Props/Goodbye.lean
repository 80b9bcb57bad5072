import Verif.Props.Send
import Verif.Props.WsSend
import Verif.Props.KcpSend

/-! # C145: what the stop hook sends -/

namespace Zinx.Props

/-! The goroutine that runs the stop hook is one of the senders, `i`. It is in the hook, so it is in no send when the hook begins, and the finalizer does not go on before it has returned. -/

/-- **C145** for TCP fails in every run: when the stop hook is called the context is done, and whatever the hook sends is refused. -/
theorem C145_refuted_tcp (cc bc i : Nat) (s t : Send.State) (ls : List Send.Label) (hc : s.closed = true) (hb : s.b i = .idle) (hd : s.d i = .idle) (h : Steps (Send.Step cc bc) s ls t) :
    (∀ m, .enq i m ∉ ls) ∧ (∀ x w, .dwrite i x w ∉ ls) ∧ .panic i ∉ ls :=
  ⟨fun m => (C37_tcp_buffered_partial cc bc i s t ls hc hb h m).1, C37_tcp_direct_partial cc bc i s t ls hc hd h, (C37_tcp_buffered_partial cc bc i s t ls hc hb h []).2⟩

/-- **C145** for KCP fails in every run: the flag is set before the hook is called. -/
theorem C145_refuted_kcp (cc i : Nat) (s t : KcpSend.State) (ls ls' : List KcpSend.Label) (h : Steps (KcpSend.Step cc) {} ls s) (hf : s.fin = .hook) (hi : s.s i = .idle) (h' : Steps (KcpSend.Step cc) s ls' t) :
    (∀ m, .write i m ∉ ls') ∧ (∀ m c, .enq i m c ∉ ls') ∧ .panic i ∉ ls' :=
  (C37_kcp_partial cc i s t ls ls' h ((KcpSend.invF_steps h).started (by rw [hf]; simp)) hi h').1

/-- The stop hook of a WebSocket connection, run by sender `i`, which sends directly. -/
structure InHook (i : Nat) (s : WsSend.State) : Prop where
  hook : s.fin = .hook
  opened : s.closed = false
  works : s.broken = false
  direct : ∀ m, s.s i ≠ .sel m ∧ s.s i ≠ .want m true

theorem inHook_step {cc i : Nat} {s t : WsSend.State} {l : WsSend.Label} (h : InHook i s) (hs : WsSend.Step cc s l t) (h1 : l ≠ .fin) (h2 : l ≠ .netFail) (h3 : ∀ m, l ≠ .call i m true) :
    InHook i t ∧ l ≠ .refuse i ∧ l ≠ .retErr i ∧ l ≠ .panic i := by
  obtain ⟨g1, g2, g3, g4⟩ := h
  cases hs
  all_goals first
    | (exact absurd rfl h1)
    | (exact absurd rfl h2)
    | (rw [g1] at *; contradiction)
    | (refine ⟨⟨?_, ?_, ?_, ?_⟩, ?_, ?_, ?_⟩ <;> simp [WsSend.withChan_eq, WsSend.set] at * <;> grind)

theorem ret_sent {i : Nat} (m : WsSend.Bytes) : ∀ {ls : List WsSend.Label}, .ret i m ∈ ls → m ∈ WsSend.sent ls
  | [], h => nomatch h
  | l :: ls, h => by
    rcases List.mem_cons.1 h with rfl | h
    · simp [WsSend.sent]
    · have := ret_sent m h
      cases l <;> simp [WsSend.sent, this]

/-- **C145** for WebSocket connections: if the network works, a direct send of the stop hook returns nil, and the message has gone out whole, in its place between the messages of others. Missing: sends by the buffered
calls, and TCP and KCP connections. -/
theorem C145_ws_partial (cc i : Nat) (s t : WsSend.State) (ls ls' : List WsSend.Label) (h : Steps (WsSend.Step cc) {} ls s) (hf : s.fin = .hook) (hb : s.broken = false) (hi : s.s i = .idle)
    (h' : Steps (WsSend.Step cc) s ls' t) (hfin : .fin ∉ ls') (hnet : .netFail ∉ ls') (hd : ∀ m, .call i m true ∉ ls') :
    .refuse i ∉ ls' ∧ .retErr i ∉ ls' ∧ .panic i ∉ ls' ∧
      ∃ p, WsSend.wire (ls ++ ls') = (WsSend.sent (ls ++ ls')).flatten ++ p ∧ (∀ m, .ret i m ∈ ls' → m ∈ WsSend.sent ls') ∧ ((∀ j o r, t.s j ≠ .write o r) → (∀ o r, t.writer ≠ .write o r) → p = []) := by
  have ho : s.closed = false := by
    cases hc : s.closed with
    | false => rfl
    | true => have := ((WsSend.inv_steps h).done hc).1; rw [hf] at this; cases this
  have hin : InHook i s := ⟨hf, ho, hb, fun m => by rw [hi]; exact ⟨nofun, nofun⟩⟩
  have key : InHook i t ∧ ∀ l ∈ ls', l ≠ .refuse i ∧ l ≠ .retErr i ∧ l ≠ .panic i := by
    clear h hf hb hi ho
    induction h' with
    | nil => exact ⟨hin, nofun⟩
    | cons hs _ ih =>
      obtain ⟨k1, k2⟩ := inHook_step hin hs (fun e => hfin (by simp [e])) (fun e => hnet (by simp [e])) (fun m e => hd m (by simp [e]))
      obtain ⟨k3, k4⟩ := ih (fun e => hfin (by simp [e])) (fun e => hnet (by simp [e])) (fun m e => hd m (by simp [e])) k1
      refine ⟨k3, fun l hl => ?_⟩
      rcases List.mem_cons.1 hl with rfl | hl
      · exact k2
      · exact k4 l hl
  obtain ⟨⟨p, hp, _, hq⟩, _, _⟩ := C38_ws cc t (ls ++ ls') (h.append h')
  refine ⟨fun hm => (key.2 _ hm).1 rfl, fun hm => (key.2 _ hm).2.1 rfl, fun hm => (key.2 _ hm).2.2 rfl, p, hp, fun m hm => ?_, hq key.1.works⟩
  exact ret_sent m hm

/-- A stop hook that says goodbye. -/
def goodbye : List WsSend.Label := [.call 0 [1, 2] false, .lock 0, .write 0 [1, 2], .ret 0 [1, 2]]

example : ∃ s t, Steps (WsSend.Step 1) {} [.stop, .fin] s ∧ s.fin = .hook ∧ s.broken = false ∧ s.s 0 = .idle ∧ Steps (WsSend.Step 1) s goodbye t ∧ WsSend.wire goodbye = [1, 2] :=
  ⟨_, _, .cons (.stop _) (.cons (.finStart _ rfl rfl) (.nil _)), rfl, rfl, rfl, .cons (.call _ 0 [1, 2] false rfl) (.cons (.directOpen _ 0 [1, 2] rfl rfl rfl)
    (.cons (.write _ 0 [] [1, 2] [] rfl nofun rfl) (.cons (.writeEnd _ 0 [1, 2] rfl rfl) (.nil _)))), rfl⟩

/-- **C145** fails for the buffered calls of WebSocket connections: what the hook has queued, and was told would be sent, is never sent, though the network works, when the writer has seen the context done. -/
theorem C145_refuted_ws : ∃ s ls t, Steps (WsSend.Step 1024) {} [.stop, .fin] s ∧ s.fin = .hook ∧ Steps (WsSend.Step 1024) s ls t ∧ .enq 0 [1] ∈ ls ∧ t.fin = .hook ∧ t.broken = false ∧
    ∀ (ls' : List WsSend.Label) (u : WsSend.State), Steps (WsSend.Step 1024) t ls' u → ∀ x, .wwrite x ∉ ls' := by
  have keep : ∀ (ls' : List WsSend.Label) (u s : WsSend.State), (s.writer = .gone ∧ s.chan ≠ none) → Steps (WsSend.Step 1024) s ls' u → ∀ x, .wwrite x ∉ ls' := by
    intro ls' u s hs h x
    induction h with
    | nil => nofun
    | @cons s t u l ls hst _ ih =>
      have : (t.writer = .gone ∧ t.chan ≠ none) ∧ l ≠ .wwrite x := by
        obtain ⟨h1, h2⟩ := hs
        cases hst <;> simp [WsSend.withChan_eq] at * <;> grind
      intro hm
      rcases List.mem_cons.1 hm with e | hm
      · exact this.2 e.symm
      · exact ih this.1 hm
  exact ⟨_, [.call 0 [1] true, .lock 0, .enq 0 [1], .wdone], _, .cons (.stop _) (.cons (.finStart _ rfl rfl) (.nil _)), rfl,
    .cons (.call _ 0 [1] true rfl) (.cons (.buffOpen _ 0 [1] rfl rfl rfl) (.cons (.enq _ 0 [1] ⟨[], false⟩ rfl rfl rfl (by decide)) (.cons (.ctxDone _ rfl rfl) (.nil _)))), by simp, rfl, rfl,
    fun ls' u h => keep ls' u _ ⟨rfl, by simp⟩ h⟩

/-- In the hook of a TCP connection a direct and a buffered send are refused, though the network works. -/
example : ∃ s t, Steps (Send.Step 1 4) {} [.stop] s ∧ s.closed = true ∧ Steps (Send.Step 1 4) s [.dcall 0 [1], .dretErr 0, .call 0 [1], .inside 0, .inside 0, .inside 0, .retErr 0] t ∧ t.broken = false :=
  ⟨_, _, .cons (.stop _) (.nil _), rfl, .cons (.dcall _ 0 [1] rfl) (.cons (.dcheckClosed _ 0 [1] rfl rfl) (.cons (.call _ 0 [1] rfl) (.cons (.testNil _ 0 [1] rfl rfl) (.cons (.casWin _ 0 [1] rfl rfl)
    (.cons (.make _ 0 [1] rfl) (.cons (.checkClosed _ 0 [1] rfl rfl) (.nil _))))))), rfl⟩

/-- And in that of a KCP connection. -/
example : ∃ s t, Steps (KcpSend.Step 1) {} [.stop, .fin] s ∧ s.fin = .hook ∧ s.s 0 = .idle ∧ Steps (KcpSend.Step 1) s [.call 0 [1] .msg, .retErr 0] t ∧ t.broken = false :=
  ⟨_, _, .cons (.stop _) (.cons (.finStart _ rfl rfl) (.nil _)), rfl, rfl, .cons (.call _ 0 [1] .msg rfl) (.cons (.msgClosed _ 0 [1] rfl rfl) (.nil _)), rfl⟩

end Zinx.Props
