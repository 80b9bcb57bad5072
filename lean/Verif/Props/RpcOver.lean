import Verif.Props.RpcWs
import Verif.Props.RpcKcp

/-!
# C148: on WebSocket and KCP connections every request gets at most one reply, and replies come in the order of the requests
-/

namespace Zinx.Props

open Zinx.RpcAny
open Rpc (Bytes Msg packed Hand key)

variable {cc : Nat} {k : Decoder.Kind} {b : Bool} {wid : Nat → Nat} {cap c : Nat} {f : Nat → Msg → Option Msg}

/-- WebSocket carries what one handler after the other sends. -/
def wsCarrier (cc : Nat) : (buffered : Bool) → Carrier (ws cc buffered)
  | true => wsBuffered cc
  | false => wsDirect cc

/-- So does KCP. -/
def kcpCarrier (cc : Nat) : (kind : KcpSend.Kind) → Carrier (kcp cc kind)
  | .send => kcpDirect cc .send (.inr rfl)
  | .msg => kcpDirect cc .msg (.inl rfl)
  | .buff => kcpBuffered cc .buff (.inl rfl)
  | .queue => kcpBuffered cc .queue (.inr rfl)

theorem kcp_pre {L : List KcpSend.Label} {ms : List Bytes} (h : KcpSend.wire L = ms) : L.flatMap Pipe.kcpWritten <+: ms.flatten := by rw [kcp_wire, h]; exact List.prefix_rfl

/-- **C148**, WebSocket. Whatever the schedule, the sizes of reads, the other work of the server, failures of the network and of sends, and however the client's goroutines mix direct and buffered sends: the client receives
replies `T` (or a beginning of them), each of which is what the handler made of the request with that number, counted in the order in which the client's connection wrote them; the numbers are increasing, so each request has
at most one reply and replies come in the order of the requests. Every reply whose send returned nil is among `T`, and at most one other, at the end. -/
theorem C148_ws {buffered : Bool} {ls : List (Label (ws cc buffered))} {s : State (ws cc buffered)} (h : Steps (Step (ws cc buffered) k b wid cap c f) (init _ k) ls s) (hk : k ≠ .htlv) (hg : GoodWs k (RpcAny.upTr ls))
    (hf : ∀ j m rep, m.2.length < 2 ^ 32 - 8 → f j m = some rep → rep.2.length < 2 ^ 32 - 8) :
    ∃ reqs last : List Msg, WsSend.sent (Pipe.sendTr (RpcAny.upTr ls)) = reqs.map (packOf k) ∧ last.length ≤ 1 ∧ ∃ T : List (Nat × Msg), (T.map (·.1)).Pairwise (· < ·) ∧
      (∀ p ∈ T, ∃ q, (reqs ++ last)[p.1]? = some q ∧ f p.1 q = some p.2) ∧ RpcAny.okReplies ls <+: T ∧ T.length ≤ (RpcAny.okReplies ls).length + 1 ∧ s.msgs.map key <+: T.map (·.2) := by
  obtain ⟨reqs, last, h1, h2, h3, h4⟩ := ws_sent (Pipe.inv (parts h).up) hg
  exact ⟨reqs, last, h1, h2, replies (wsCarrier cc buffered) h hk hf _ (fun m hm => (h3 m hm).1) h4⟩

/-- **C148**, WebSocket, in step: as long as every handler replies and no send of a reply has failed, the `i`-th message the client receives is the reply to the `i`-th message its connection wrote. -/
theorem C148_ws_in_step {buffered : Bool} {ls : List (Label (ws cc buffered))} {s : State (ws cc buffered)} (h : Steps (Step (ws cc buffered) k b wid cap c f) (init _ k) ls s) (hk : k ≠ .htlv)
    (hg : GoodWs k (RpcAny.upTr ls)) (hf : ∀ j m, m.2.length < 2 ^ 32 - 8 → ∃ rep, f j m = some rep ∧ rep.2.length < 2 ^ 32 - 8) (hok : ∀ w j rep l, .ret w j rep l ∈ ls → (ws cc buffered).ok l = true) :
    ∃ reqs last : List Msg, WsSend.sent (Pipe.sendTr (RpcAny.upTr ls)) = reqs.map (packOf k) ∧ last.length ≤ 1 ∧
      ∀ i, i < s.msgs.length → ∃ q, (reqs ++ last)[i]? = some q ∧ s.msgs[i]?.map key = f i q := by
  obtain ⟨reqs, last, h1, h2, h3, h4⟩ := ws_sent (Pipe.inv (parts h).up) hg
  exact ⟨reqs, last, h1, h2, in_step (wsCarrier cc buffered) h hk hf hok _ (fun m hm => (h3 m hm).1) h4⟩

/-- **C148**, KCP: the same, for each of the four ways of sending. That concurrent first uses of the queue lose messages or change their order (`C38_kcp_refuted`) does no harm to the replies of handlers, since those of one
connection run one after the other. -/
theorem C148_kcp {kind : KcpSend.Kind} {ls : List (Label (kcp cc kind))} {s : State (kcp cc kind)} (h : Steps (Step (kcp cc kind) k b wid cap c f) (init _ k) ls s) (hk : k ≠ .htlv) (hg : GoodKcp k (RpcAny.upTr ls))
    (hf : ∀ j m rep, m.2.length < 2 ^ 32 - 8 → f j m = some rep → rep.2.length < 2 ^ 32 - 8) :
    ∃ reqs : List Msg, KcpSend.wire (Pipe.sendTr (RpcAny.upTr ls)) = reqs.map (packOf k) ∧ ∃ T : List (Nat × Msg), (T.map (·.1)).Pairwise (· < ·) ∧
      (∀ p ∈ T, ∃ q, reqs[p.1]? = some q ∧ f p.1 q = some p.2) ∧ RpcAny.okReplies ls <+: T ∧ T.length ≤ (RpcAny.okReplies ls).length + 1 ∧ s.msgs.map key <+: T.map (·.2) := by
  obtain ⟨reqs, h1, h2⟩ := kcp_sent (Pipe.inv (parts h).up) hg
  exact ⟨reqs, h1, replies (kcpCarrier cc kind) h hk hf _ h2 (kcp_pre h1)⟩

/-- **C148**, KCP, in step. -/
theorem C148_kcp_in_step {kind : KcpSend.Kind} {ls : List (Label (kcp cc kind))} {s : State (kcp cc kind)} (h : Steps (Step (kcp cc kind) k b wid cap c f) (init _ k) ls s) (hk : k ≠ .htlv) (hg : GoodKcp k (RpcAny.upTr ls))
    (hf : ∀ j m, m.2.length < 2 ^ 32 - 8 → ∃ rep, f j m = some rep ∧ rep.2.length < 2 ^ 32 - 8) (hok : ∀ w j rep l, .ret w j rep l ∈ ls → (kcp cc kind).ok l = true) :
    ∃ reqs : List Msg, KcpSend.wire (Pipe.sendTr (RpcAny.upTr ls)) = reqs.map (packOf k) ∧ ∀ i, i < s.msgs.length → ∃ q, reqs[i]? = some q ∧ s.msgs[i]?.map key = f i q := by
  obtain ⟨reqs, h1, h2⟩ := kcp_sent (Pipe.inv (parts h).up) hg
  exact ⟨reqs, h1, in_step (kcpCarrier cc kind) h hk hf hok _ h2 (kcp_pre h1)⟩

/-! ### Examples -/

/-- The client sends two messages with `SendMsg`; the server reads both at once; its worker begins with the first. -/
def wsAsk (buffered : Bool) : List (Label (ws 1 buffered)) := [.up (.send (WsSend.Label.call 0 rpcOne false)), .up (.send (WsSend.Label.lock 0)), .up (.send (WsSend.Label.write 0 rpcOne)), .up (.send (WsSend.Label.ret 0 rpcOne)),
  .up (.send (WsSend.Label.call 0 rpcTwo false)), .up (.send (WsSend.Label.lock 0)), .up (.send (WsSend.Label.write 0 rpcTwo)), .up (.send (WsSend.Label.ret 0 rpcTwo)),
  .up (.read (rpcOne ++ rpcTwo) [rpcReq 0, rpcReq 1]), .up (.work (.submit 1 (rpcReq 0))), .up (.work (.submit 1 (rpcReq 1))), .up (.work (.start 1 (rpcReq 0)))]

/-- Both are answered with `SendMsg`; the client has the first reply before the second is sent. -/
def wsAnswer : List (Label (ws 1 false)) := [.call 1 0 (5, [7]), .down (WsSend.Label.lock 1), .down (WsSend.Label.write 1 rpcOne), .ret 1 0 (5, [7]) (WsSend.Label.ret 1 rpcOne), .up (.work (.finish 1 (rpcReq 0) .returned)),
  .up (.work (.start 1 (rpcReq 1))), .call 1 1 (5, [8]), .down (WsSend.Label.lock 1), .down (WsSend.Label.write 1 rpcTwo), .read (rpcOne ++ rpcTwo)]

theorem wsAnswer_run : ∃ s, Steps (Step (ws 1 false) .tlv false (fun c => c % 2) 2 3 echo) (init _ .tlv) (wsAsk false ++ wsAnswer) s ∧ s.msgs.map key = [(5, [7]), (5, [8])] :=
  ⟨_, .cons (.up _ _ _ (.send _ _ _ (WsSend.Step.call _ 0 rpcOne false rfl)) rfl)
    (.cons (.up _ _ _ (.send _ _ _ (WsSend.Step.directOpen _ 0 rpcOne rfl rfl rfl)) rfl)
    (.cons (.up _ _ _ (.send _ _ _ (WsSend.Step.write _ 0 [] rpcOne [] rfl nofun rfl)) rfl)
    (.cons (.up _ _ _ (.send _ _ _ (WsSend.Step.writeEnd _ 0 rpcOne rfl rfl)) rfl)
    (.cons (.up _ _ _ (.send _ _ _ (WsSend.Step.call _ 0 rpcTwo false rfl)) rfl)
    (.cons (.up _ _ _ (.send _ _ _ (WsSend.Step.directOpen _ 0 rpcTwo rfl rfl rfl)) rfl)
    (.cons (.up _ _ _ (.send _ _ _ (WsSend.Step.write _ 0 [] rpcTwo [] rfl nofun rfl)) rfl)
    (.cons (.up _ _ _ (.send _ _ _ (WsSend.Step.writeEnd _ 0 rpcTwo rfl rfl)) rfl)
    (.cons (.up _ _ _ (.read _ (rpcOne ++ rpcTwo) [] _ _ _ (by decide) rfl rfl rpc_read_both _ (.arrive _ 3 _ rfl (by decide))) rfl)
    (.cons (.up _ _ _ (.work _ _ (by intro _ h; cases h) _ (.deliver _ 3 (rpcReq 0) [rpcReq 1] rfl (by decide))) rfl)
    (.cons (.up _ _ _ (.work _ _ (by intro _ h; cases h) _ (.deliver _ 3 (rpcReq 1) [] rfl (by decide))) rfl)
    (.cons (.start _ 1 (rpcReq 0) _ rfl (.work _ _ (by intro _ h; cases h) _ (.take _ 1 (rpcReq 0) [rpcReq 1] rfl rfl)))
    (.cons (.call _ 1 0 (rpcGot 7) (5, [7]) _ rfl rfl rfl (WsSend.Step.call _ 1 rpcOne false rfl))
    (.cons (.down _ _ _ rfl (by intro w; rfl) (WsSend.Step.directOpen _ 1 rpcOne rfl rfl rfl))
    (.cons (.down _ _ _ rfl (by intro w; rfl) (WsSend.Step.write _ 1 [] rpcOne [] rfl nofun rfl))
    (.cons (.ret _ 1 0 (5, [7]) _ _ rfl rfl (WsSend.Step.writeEnd _ 1 rpcOne rfl rfl))
    (.cons (.finish _ 1 (rpcReq 0) .returned _ rfl rfl (.work _ _ (by intro _ h; cases h) _ (.finish _ 1 (rpcReq 0) .returned rfl)))
    (.cons (.start _ 1 (rpcReq 1) _ rfl (.work _ _ (by intro _ h; cases h) _ (.take _ 1 (rpcReq 1) [] rfl rfl)))
    (.cons (.call _ 1 1 (rpcGot 8) (5, [8]) _ rfl rfl rfl (WsSend.Step.call _ 1 rpcTwo false rfl))
    (.cons (.down _ _ _ rfl (by intro w; rfl) (WsSend.Step.directOpen _ 1 rpcTwo rfl rfl rfl))
    (.cons (.down _ _ _ rfl (by intro w; rfl) (WsSend.Step.write _ 1 [] rpcTwo [] rfl nofun rfl))
    (.cons (.read _ (rpcOne ++ rpcTwo) [] _ _ _ (by decide) rfl rfl rpc_read_both)
    (.nil _)))))))))))))))))))))), rfl⟩

/-- The first reply is given up after the timeout of `SendBuffMsg`, the second is sent. -/
def wsTimeout : List (Label (ws 1 true)) := [.call 1 0 (5, [7]), .down (WsSend.Label.lock 1), .ret 1 0 (5, [7]) (WsSend.Label.retErr 1), .up (.work (.finish 1 (rpcReq 0) .returned)), .up (.work (.start 1 (rpcReq 1))),
  .call 1 1 (5, [8]), .down (WsSend.Label.lock 1), .ret 1 1 (5, [8]) (WsSend.Label.enq 1 rpcTwo), .up (.work (.finish 1 (rpcReq 1) .returned)), .down WsSend.Label.recv, .down WsSend.Label.wlock,
  .down (WsSend.Label.wwrite rpcTwo), .down (WsSend.Label.wend rpcTwo), .read rpcTwo]

/-- **C148**: a reply can be lost on a connection that works and stays open (`SendBuffMsg` gives up after five milliseconds), so that the first message the client receives is the reply to the second request. -/
theorem C148_in_step_refuted : ∃ s, Steps (Step (ws 1 true) .tlv false (fun c => c % 2) 2 3 echo) (init _ .tlv) (wsAsk true ++ wsTimeout) s ∧ s.msgs.map key = [(5, [8])] ∧ s.up.msgs.map key = [(5, [7]), (5, [8])] ∧
    WsSend.State.cancelled s.snd = false ∧ WsSend.State.broken s.snd = false ∧ WsSend.State.cancelled s.up.snd = false ∧ WsSend.State.broken s.up.snd = false :=
  ⟨_, .cons (.up _ _ _ (.send _ _ _ (WsSend.Step.call _ 0 rpcOne false rfl)) rfl)
    (.cons (.up _ _ _ (.send _ _ _ (WsSend.Step.directOpen _ 0 rpcOne rfl rfl rfl)) rfl)
    (.cons (.up _ _ _ (.send _ _ _ (WsSend.Step.write _ 0 [] rpcOne [] rfl nofun rfl)) rfl)
    (.cons (.up _ _ _ (.send _ _ _ (WsSend.Step.writeEnd _ 0 rpcOne rfl rfl)) rfl)
    (.cons (.up _ _ _ (.send _ _ _ (WsSend.Step.call _ 0 rpcTwo false rfl)) rfl)
    (.cons (.up _ _ _ (.send _ _ _ (WsSend.Step.directOpen _ 0 rpcTwo rfl rfl rfl)) rfl)
    (.cons (.up _ _ _ (.send _ _ _ (WsSend.Step.write _ 0 [] rpcTwo [] rfl nofun rfl)) rfl)
    (.cons (.up _ _ _ (.send _ _ _ (WsSend.Step.writeEnd _ 0 rpcTwo rfl rfl)) rfl)
    (.cons (.up _ _ _ (.read _ (rpcOne ++ rpcTwo) [] _ _ _ (by decide) rfl rfl rpc_read_both _ (.arrive _ 3 _ rfl (by decide))) rfl)
    (.cons (.up _ _ _ (.work _ _ (by intro _ h; cases h) _ (.deliver _ 3 (rpcReq 0) [rpcReq 1] rfl (by decide))) rfl)
    (.cons (.up _ _ _ (.work _ _ (by intro _ h; cases h) _ (.deliver _ 3 (rpcReq 1) [] rfl (by decide))) rfl)
    (.cons (.start _ 1 (rpcReq 0) _ rfl (.work _ _ (by intro _ h; cases h) _ (.take _ 1 (rpcReq 0) [rpcReq 1] rfl rfl)))
    (.cons (.call _ 1 0 (rpcGot 7) (5, [7]) _ rfl rfl rfl (WsSend.Step.call _ 1 rpcOne true rfl))
    (.cons (.down _ _ _ rfl (by intro w; rfl) (WsSend.Step.buffOpen _ 1 rpcOne rfl rfl rfl))
    (.cons (.ret _ 1 0 (5, [7]) _ _ rfl rfl (WsSend.Step.timeout _ 1 rpcOne rfl))
    (.cons (.finish _ 1 (rpcReq 0) .returned _ rfl rfl (.work _ _ (by intro _ h; cases h) _ (.finish _ 1 (rpcReq 0) .returned rfl)))
    (.cons (.start _ 1 (rpcReq 1) _ rfl (.work _ _ (by intro _ h; cases h) _ (.take _ 1 (rpcReq 1) [] rfl rfl)))
    (.cons (.call _ 1 1 (rpcGot 8) (5, [8]) _ rfl rfl rfl (WsSend.Step.call _ 1 rpcTwo true rfl))
    (.cons (.down _ _ _ rfl (by intro w; rfl) (WsSend.Step.buffOpen _ 1 rpcTwo rfl rfl rfl))
    (.cons (.ret _ 1 1 (5, [8]) _ _ rfl rfl (WsSend.Step.enq _ 1 rpcTwo _ rfl rfl rfl (by decide)))
    (.cons (.finish _ 1 (rpcReq 1) .returned _ rfl rfl (.work _ _ (by intro _ h; cases h) _ (.finish _ 1 (rpcReq 1) .returned rfl)))
    (.cons (.down _ _ _ rfl (by intro w; rfl) (WsSend.Step.recv _ rpcTwo [] false rfl rfl))
    (.cons (.down _ _ _ rfl (by intro w; rfl) (WsSend.Step.wOpen _ rpcTwo rfl rfl rfl))
    (.cons (.down _ _ _ rfl (by intro w; rfl) (WsSend.Step.wwrite _ [] rpcTwo [] rfl nofun rfl))
    (.cons (.down _ _ _ rfl (by intro w; rfl) (WsSend.Step.wend _ rpcTwo rfl rfl))
    (.cons (.read _ rpcTwo [] _ _ _ (by decide) rfl rfl rpc_read_two)
    (.nil _)))))))))))))))))))))))))), rfl, rfl, rfl, rfl, rfl, rfl⟩

/-- The client sends two messages with `Send`, both are answered with `SendBuffMsg`. -/
theorem kcpAnswer_run : ∃ ls s, Steps (Step (kcp 2 .buff) .tlv false (fun c => c % 2) 2 3 echo) (init _ .tlv) ls s ∧ s.msgs.map key = [(5, [7]), (5, [8])] ∧ RpcAny.okReplies ls = [(0, (5, [7])), (1, (5, [8]))] ∧
    KcpSend.wire (Pipe.sendTr (RpcAny.upTr ls)) = [(5, [7]), (5, [8])].map (packOf .tlv) :=
  ⟨_, _, .cons (.up _ _ _ (.send _ _ _ (KcpSend.Step.call _ 0 rpcOne .send rfl)) rfl)
    (.cons (.up _ _ _ (.send _ _ _ (KcpSend.Step.sendOpen _ 0 rpcOne rfl rfl rfl)) rfl)
    (.cons (.up _ _ _ (.send _ _ _ (KcpSend.Step.write _ 0 rpcOne rfl rfl)) rfl)
    (.cons (.up _ _ _ (.send _ _ _ (KcpSend.Step.call _ 0 rpcTwo .send rfl)) rfl)
    (.cons (.up _ _ _ (.send _ _ _ (KcpSend.Step.sendOpen _ 0 rpcTwo rfl rfl rfl)) rfl)
    (.cons (.up _ _ _ (.send _ _ _ (KcpSend.Step.write _ 0 rpcTwo rfl rfl)) rfl)
    (.cons (.up _ _ _ (.read _ (rpcOne ++ rpcTwo) [] _ _ _ (by decide) rfl rfl rpc_read_both _ (.arrive _ 3 _ rfl (by decide))) rfl)
    (.cons (.up _ _ _ (.work _ _ (by intro _ h; cases h) _ (.deliver _ 3 (rpcReq 0) [rpcReq 1] rfl (by decide))) rfl)
    (.cons (.up _ _ _ (.work _ _ (by intro _ h; cases h) _ (.deliver _ 3 (rpcReq 1) [] rfl (by decide))) rfl)
    (.cons (.start _ 1 (rpcReq 0) _ rfl (.work _ _ (by intro _ h; cases h) _ (.take _ 1 (rpcReq 0) [rpcReq 1] rfl rfl)))
    (.cons (.call _ 1 0 (rpcGot 7) (5, [7]) _ rfl rfl rfl (KcpSend.Step.call _ 1 rpcOne .buff rfl))
    (.cons (.down _ _ _ rfl (by intro w; rfl) (KcpSend.Step.buffOpen _ 1 rpcOne rfl rfl))
    (.cons (.down _ _ _ rfl (by intro w; rfl) (KcpSend.Step.isNil _ 1 rpcOne false rfl rfl))
    (.cons (.down _ _ _ rfl (by intro w; rfl) (KcpSend.Step.make _ 1 rpcOne false rfl))
    (.cons (.down _ _ _ rfl (by intro w; rfl) (KcpSend.Step.eval _ 1 rpcOne false 0 rfl rfl))
    (.cons (.ret _ 1 0 (5, [7]) _ _ rfl rfl (KcpSend.Step.enq _ 1 rpcOne false 0 rfl rfl (by decide)))
    (.cons (.finish _ 1 (rpcReq 0) .returned _ rfl rfl (.work _ _ (by intro _ h; cases h) _ (.finish _ 1 (rpcReq 0) .returned rfl)))
    (.cons (.start _ 1 (rpcReq 1) _ rfl (.work _ _ (by intro _ h; cases h) _ (.take _ 1 (rpcReq 1) [] rfl rfl)))
    (.cons (.call _ 1 1 (rpcGot 8) (5, [8]) _ rfl rfl rfl (KcpSend.Step.call _ 1 rpcTwo .buff rfl))
    (.cons (.down _ _ _ rfl (by intro w; rfl) (KcpSend.Step.buffOpen _ 1 rpcTwo rfl rfl))
    (.cons (.down _ _ _ rfl (by intro w; rfl) (KcpSend.Step.notNil _ 1 rpcTwo false 0 rfl rfl))
    (.cons (.down _ _ _ rfl (by intro w; rfl) (KcpSend.Step.eval _ 1 rpcTwo false 0 rfl rfl))
    (.cons (.ret _ 1 1 (5, [8]) _ _ rfl rfl (KcpSend.Step.enq _ 1 rpcTwo false 0 rfl rfl (by decide)))
    (.cons (.down _ _ _ rfl (by intro w; rfl) (KcpSend.Step.weval _ 0 0 rfl rfl))
    (.cons (.down _ _ _ rfl (by intro w; rfl) (KcpSend.Step.recv _ 0 0 rpcOne [rpcTwo] rfl rfl))
    (.cons (.down _ _ _ rfl (by intro w; rfl) (KcpSend.Step.wOpen _ 0 rpcOne rfl rfl rfl))
    (.cons (.down _ _ _ rfl (by intro w; rfl) (KcpSend.Step.wwrite _ 0 rpcOne rfl rfl))
    (.cons (.down _ _ _ rfl (by intro w; rfl) (KcpSend.Step.weval _ 0 0 rfl rfl))
    (.cons (.down _ _ _ rfl (by intro w; rfl) (KcpSend.Step.recv _ 0 0 rpcTwo [] rfl rfl))
    (.cons (.down _ _ _ rfl (by intro w; rfl) (KcpSend.Step.wOpen _ 0 rpcTwo rfl rfl rfl))
    (.cons (.down _ _ _ rfl (by intro w; rfl) (KcpSend.Step.wwrite _ 0 rpcTwo rfl rfl))
    (.cons (.read _ (rpcOne ++ rpcTwo) [] _ _ _ (by decide) rfl rfl rpc_read_both)
    (.nil _)))))))))))))))))))))))))))))))), rfl, rfl, by decide +kernel⟩

/-- The first meets the hypotheses of `C148_ws` and `C148_ws_in_step`. -/
example : GoodWs .tlv (RpcAny.upTr (wsAsk false ++ wsAnswer)) ∧ (∀ j m, m.2.length < 2 ^ 32 - 8 → ∃ rep, echo j m = some rep ∧ rep.2.length < 2 ^ 32 - 8) ∧
    (∀ w j rep l, .ret w j rep l ∈ wsAsk false ++ wsAnswer → (ws 1 false).ok l = true) ∧ RpcAny.okReplies (wsAsk false ++ wsAnswer) = [(0, (5, [7]))] := by
  refine ⟨fun i m q hm => ?_, fun j m h => ⟨m, rfl, h⟩, fun w j rep l h => ?_, rfl⟩
  · have hm : WsSend.Label.call i m q ∈ [WsSend.Label.call 0 rpcOne false, .lock 0, .write 0 rpcOne, .ret 0 rpcOne, .call 0 rpcTwo false, .lock 0, .write 0 rpcTwo, .ret 0 rpcTwo] := mem_sendTr.2 hm
    simp at hm
    rcases hm with ⟨_, rfl, _⟩ | ⟨_, rfl, _⟩
    · exact ⟨(5, [7]), by decide, by decide +kernel⟩
    · exact ⟨(5, [8]), by decide, by decide +kernel⟩
  · simp [wsAsk, wsAnswer] at h
    obtain ⟨_, _, _, rfl⟩ := h
    rfl

end Zinx.Props
