import Verif.Props.RpcOver
import Verif.Props.RpcAnyLive

/-!
# C148: on WebSocket and KCP connections every request is answered
-/

namespace Zinx.Props

open Zinx.RpcAny
open Rpc (Bytes Msg packed Hand key)

variable {cc : Nat} {k : Decoder.Kind} {b : Bool} {wid : Nat → Nat} {cap c : Nat} {f : Nat → Msg → Option Msg}

/-! ## WebSocket -/

theorem ws_ready (buffered : Bool) : Ready (wsCarrier cc buffered) := by
  cases buffered with
  | false =>
    refine ⟨fun {s oks e w} h i m => ⟨_, WsSend.Step.call s i m false (WsDir.idle h i nofun)⟩, fun {s bu oks e w l t i} h hs hr => ?_⟩
    have h : WsDir s bu oks e w := h
    refine Classical.byContradiction fun hn => ?_
    have hidle := h.idle i fun m e => hn ⟨m, e⟩
    cases hs <;> simp only [ws, Bool.false_eq_true, decide_eq_true_eq] at hr <;> subst hr <;> simp_all
  | true =>
    refine ⟨fun {s oks e w} h i m => ⟨_, WsSend.Step.call s i m true (WsBuf.idle h i nofun)⟩, fun {s bu oks e w l t i} h hs hr => ?_⟩
    have h : WsBuf s bu oks e w := h
    refine Classical.byContradiction fun hn => ?_
    have hidle := h.idle i fun m e => hn ⟨m, e⟩
    cases hs <;> simp only [ws, Bool.false_eq_true, decide_eq_true_eq] at hr <;> subst hr <;> simp_all

theorem ws_waits {buffered : Bool} {ls : List (Label (ws cc buffered))} {s : State (ws cc buffered)} (h : Steps (Step (ws cc buffered) k b wid cap c f) (init _ k) ls s) {w : Nat} (hi : WsSend.State.s s.snd w = .idle) (j : Nat) (rep : Msg) :
    s.h w ≠ .called j rep := by
  intro hh
  cases buffered with
  | false =>
    obtain ⟨E, bu, hc⟩ := car_inv (wsCarrier cc false) h
    have hb := (hc.busy w j rep).1 hh
    subst hb
    have := WsDir.busy hc.inv w (packed k rep) rfl
    rw [hi] at this
    rcases this with h | ⟨_, _, h, _⟩ <;> cases h
  | true =>
    obtain ⟨E, bu, hc⟩ := car_inv (wsCarrier cc true) h
    have hb := (hc.busy w j rep).1 hh
    subst hb
    have := WsBuf.busy hc.inv w (packed k rep) rfl
    rw [hi] at this
    rcases this with h | h <;> cases h

theorem wends_length (ls : List WsSend.Label) : (WsSend.wends ls).flatten.length ≤ (WsSend.sent ls).flatten.length := by
  induction ls with
  | nil => exact Nat.le_refl _
  | cons l ls ih => cases l <;> simp only [WsSend.wends, WsSend.sent, List.flatten_cons, List.length_append] <;> omega

theorem ws_enq (ls : List WsSend.Label) : WsSend.enqOf ls = ls.flatMap fun | .enq _ m => [m] | _ => [] := by
  induction ls with
  | nil => rfl
  | cons l ls ih => cases l <;> simp [WsSend.enqOf, ih]

theorem ws_written_le {A B : List WsSend.Label} {t : WsSend.State} (hA : WsSend.enqOf A <+: WsSend.wends B) (hB : Steps (WsSend.Step cc) {} B t) :
    (WsSend.enqOf A).flatten.length ≤ (B.flatMap Pipe.wsWritten).length := by
  rw [ws_wire]
  obtain ⟨⟨p, g1, _⟩, _⟩ := C38_ws cc _ _ hB
  rw [g1, List.length_append]
  have := wends_length B
  obtain ⟨y, hy⟩ := hA
  rw [← hy, List.flatten_append, List.length_append] at this
  omega

theorem ws_sent_append (A B : List (Pipe.Label WsSend.Label)) : WsSend.sent (Pipe.sendTr (A ++ B)) = WsSend.sent (Pipe.sendTr A) ++ WsSend.sent (Pipe.sendTr B) := by
  simp only [Pipe.sendTr, List.filterMap_append, WsSend.sent_append]

/-- On a connection that is not stopped and whose network works, replies sent are written. -/
theorem ws_replies_written {buffered : Bool} (e : Exec (Step (ws cc buffered) k b wid cap c f)) (h0 : e.run 0 = init _ k)
    (hdown : ∀ n, WsSend.State.cancelled (e.run n).snd = false ∧ WsSend.State.broken (e.run n).snd = false)
    (hs : ∀ i, e.WeakFair (RpcAny.downs (WsSend.Label.inside i))) (hw : e.WeakFair (RpcAny.downs WsSend.Label.winside)) (hwl : e.StrongFair (RpcAny.downs (· = WsSend.Label.wlock))) (hrc : e.WeakFair (RpcAny.downs (· = WsSend.Label.recv))) (n : Nat) :
    ∃ m, n ≤ m ∧ ((RpcAny.okReplies (e.trace n)).map fun p => packed k p.2).flatten.length ≤ (RpcAny.written (e.trace m)).length := by
  have hst : ∀ n, Steps (Step (ws cc buffered) k b wid cap c f) (init _ k) (e.trace n) (e.run n) := fun n => h0 ▸ e.steps n
  have R := ws_ready (cc := cc) buffered
  cases buffered with
  | false =>
    refine ⟨n, Nat.le_refl _, ?_⟩
    obtain ⟨E, bu, hc⟩ := car_inv (wsCarrier cc false) (hst n)
    obtain ⟨_, o, h2, _⟩ := WsDir.good hc.inv (hdown n).2
    rw [h2, List.length_append]
    exact Nat.le_add_right _ _
  | true =>
    obtain ⟨m, hm, h⟩ := C40_ws_partial cc (RpcAny.sndExec e) (by show (e.run 0).snd = _; rw [h0]; rfl) hdown (fun i => RpcAny.sndExec_weak _ R h0 (fun l hl => by cases l <;> first | rfl | cases hl) (hs i))
      (RpcAny.sndExec_weak _ R h0 (fun l hl => by cases l <;> first | rfl | cases hl) hw) (RpcAny.sndExec_strong _ R h0 (by rintro l rfl; rfl) hwl) (RpcAny.sndExec_weak _ R h0 (by rintro l rfl; rfl) hrc) n
    have h : WsSend.enqOf (RpcAny.sndTr k (e.trace n)) <+: WsSend.wends (RpcAny.sndTr k (e.trace m)) := by rw [← RpcAny.sndExec_trace, ← RpcAny.sndExec_trace]; exact h
    refine ⟨m, hm, ?_⟩
    have e1 := queued_ok (wsCarrier cc true) (fun l : WsSend.Label => match l with | .enq _ m => [m] | _ => [])
      (by
        intro s t oks e w i m l h hs hr hok
        have hb := WsBuf.busy h i m rfl
        cases hs <;> simp only [ws, Bool.false_eq_true, decide_eq_true_eq] at hr hok <;> subst hr
        · rename_i hw _
          rw [hw] at hb
          rcases hb with hb | hb <;> cases hb
        · rename_i hw _ _ _
          rw [hw] at hb
          rcases hb with hb | hb <;> cases hb
          rfl)
      (by intro l hl; cases l <;> first | rfl | cases hl)
      (by intro i m; rfl)
      (by
        intro l hl
        cases l <;> first | rfl | skip
        rename_i i m
        have := hl i
        simp [ws] at this) (hst n)
    have e2 : WsSend.enqOf (RpcAny.sndTr k (e.trace n)) = (RpcAny.okReplies (e.trace n)).map fun p => packed k p.2 := (ws_enq _).trans e1
    rw [← e2]
    have hsn : Steps (WsSend.Step cc) {} (RpcAny.sndTr k (e.trace m)) ((RpcAny.sndExec e).run m) := by
      have h := (RpcAny.sndExec e).steps m
      have e0 : (RpcAny.sndExec e).run 0 = (ws cc true).s0 := by show (e.run 0).snd = _; rw [h0]; rfl
      rw [e0, RpcAny.sndExec_trace] at h; exact h
    exact Nat.le_trans (ws_written_le h hsn) (Nat.le_of_eq (congrArg List.length (written_snd (x := ws cc true) (k := k) (fun _ _ => rfl) (e.trace m))))

/-- **C148**, WebSocket, every request is answered: if both sides stay connected, no send of a reply fails, and everything that can go on goes on (fairness), then the client receives the replies to all messages it has
written, in order; and all messages it has queued are written. -/
theorem C148_ws_answered {buffered : Bool} (e : Exec (Step (ws cc buffered) k b wid cap c f)) (h0 : e.run 0 = init _ k) (hk : k ≠ .htlv)
    (hf : ∀ j m, m.2.length < 2 ^ 32 - 8 → ∃ rep, f j m = some rep ∧ rep.2.length < 2 ^ 32 - 8) (hg : ∀ n, GoodWs k (RpcAny.upTr (e.trace n)))
    (hup : ∀ n, WsSend.State.cancelled (e.run n).up.snd = false ∧ WsSend.State.broken (e.run n).up.snd = false)
    (hdown : ∀ n, WsSend.State.cancelled (e.run n).snd = false ∧ WsSend.State.broken (e.run n).snd = false)
    (hok : ∀ n w j rep l, e.act n = some (.ret w j rep l) → (ws cc buffered).ok l = true)
    (hcs : ∀ i, e.WeakFair (RpcAny.ups (bySender (WsSend.Label.inside i)))) (hcw : e.WeakFair (RpcAny.ups (bySender WsSend.Label.winside))) (hcl : e.StrongFair (RpcAny.ups (bySender (· = WsSend.Label.wlock))))
    (hcr : e.WeakFair (RpcAny.ups (bySender (· = WsSend.Label.recv)))) (hsr : e.WeakFair (RpcAny.ups isRead)) (hsd : e.StrongFair (RpcAny.ups (byWorker (readerActs c))))
    (hwk : e.WeakFair (RpcAny.ups (byWorker (workerActs (wid c))))) (hdec : e.WeakFair (RpcAny.decides (wid c)))
    (hss : ∀ i, e.WeakFair (RpcAny.downs (WsSend.Label.inside i))) (hsa : e.StrongFair (RpcAny.downs (WsSend.Label.acquire (wid c)))) (hsw : e.WeakFair (RpcAny.downs WsSend.Label.winside))
    (hswl : e.StrongFair (RpcAny.downs (· = WsSend.Label.wlock))) (hsrc : e.WeakFair (RpcAny.downs (· = WsSend.Label.recv))) (hrd : e.WeakFair RpcAny.clientRead) (n : Nat) :
    (∃ m, n ≤ m ∧ WsSend.enqOf (Pipe.sendTr (RpcAny.upTr (e.trace n))) <+: WsSend.wends (Pipe.sendTr (RpcAny.upTr (e.trace m)))) ∧
    ∃ reqs : List Msg, WsSend.sent (Pipe.sendTr (RpcAny.upTr (e.trace n))) = reqs.map (packOf k) ∧
      ∃ m, n ≤ m ∧ reqs.length ≤ (e.run m).msgs.length ∧ ∀ (i : Nat) (q : Msg), reqs[i]? = some q → (e.run m).msgs[i]?.map key = f i q := by
  have hst : ∀ n, Steps (Step (ws cc buffered) k b wid cap c f) (init _ k) (e.trace n) (e.run n) := fun n => h0 ▸ e.steps n
  have R := ws_ready (cc := cc) buffered
  have hs0 : (RpcAny.sndExec e).run 0 = ({} : WsSend.State) := by show (e.run 0).snd = _; rw [h0]; rfl
  have hret : ∀ n, ∃ m, n ≤ m ∧ ∀ j rep, (e.run m).h (wid c) ≠ .called j rep := by
    intro n
    obtain ⟨m, hm, h⟩ := C39_ws_returns cc (RpcAny.sndExec e) hs0 (fun i => RpcAny.sndExec_weak _ R h0 (fun l hl => by cases l <;> first | rfl | cases hl) (hss i))
      (RpcAny.sndExec_weak _ R h0 (fun l hl => by cases l <;> first | rfl | cases hl) hsw) (fun n hn => by
        obtain ⟨l, t, hl, hs⟩ := hn n (Nat.le_refl _)
        have h1 := (WsSend.exec_inv (RpcAny.sndExec e) hs0 n).running (hdown n).1
        have h2 : WsSend.State.cancelled ((RpcAny.sndExec e).run n) = false := (hdown n).1
        exfalso
        generalize (RpcAny.sndExec e).run n = s at hs h1 h2
        rcases hl with hl | hl <;> subst hl <;> cases hs <;> simp_all) (wid c) (RpcAny.sndExec_strong _ R h0 (fun l hl => by cases l <;> first | rfl | cases hl) hsa) n
    exact ⟨m, hm, ws_waits (hst m) h⟩
  obtain ⟨hq, msgs, hmsgs, m1, hm1, hseen⟩ := C91_ws_arrives (RpcAny.upExec e) (by show (e.run 0).up = _; rw [h0]; rfl) hk hup (fun n => by have := hg n; rw [← RpcAny.upExec_trace] at this; exact this)
    (fun i => RpcAny.upExec_weak (fun l hl => by cases l <;> first | rfl | cases hl) (hcs i)) (RpcAny.upExec_weak (fun l hl => by cases l <;> first | rfl | cases hl) hcw)
    (RpcAny.upExec_strong (fun l hl => by cases l <;> first | rfl | cases hl) hcl) (RpcAny.upExec_weak (fun l hl => by cases l <;> first | rfl | cases hl) hcr)
    (RpcAny.upExec_weak (fun l hl => by cases l <;> first | rfl | cases hl) hsr) (RpcAny.up_worker _ R e h0 hwk hdec hret)
    (RpcAny.upExec_strong (fun l hl => by
      cases l with
      | work a => cases a <;> first | rfl | cases hl
      | _ => cases hl) hsd) n
  have hmsgs : WsSend.sent (Pipe.sendTr (RpcAny.upTr (e.trace n))) = msgs.map (packOf k) := by rw [← RpcAny.upExec_trace]; exact hmsgs
  refine ⟨by obtain ⟨m, hm, hq⟩ := hq; exact ⟨m, hm, by rw [← RpcAny.upExec_trace, ← RpcAny.upExec_trace]; exact hq⟩, ?_⟩
  have hsent := fun n => ws_sent (Pipe.inv (parts (hst n)).up) (hg n)
  have hN : 2 * msgs.length ≤ (RpcAny.handled c (e.trace m1)).length := by
    have hl := hseen.length_le
    rw [one_length, List.length_map] at hl
    show _ ≤ (Worker.handlingOf c (Pipe.workTr c (RpcAny.upTr (e.trace m1)))).length
    rw [← RpcAny.upExec_trace]; exact hl
  obtain ⟨m3, hm3, hgot⟩ := RpcAny.answered (wsCarrier cc buffered) e h0 hk hf (fun n => let ⟨reqs, last, _, _, h3, h4⟩ := hsent n; up_small (hst n) hk _ (fun m hm => (h3 m hm).1) h4) hok
    (ws_replies_written e h0 hdown hss hsw hswl hsrc) hrd hN
  obtain ⟨reqs, last, g1, _, g3, g4⟩ := hsent m3
  have g5 := in_step (wsCarrier cc buffered) (hst m3) hk hf (fun w j rep l hl => let ⟨m, _, ha⟩ := e.mem_trace hl; hok m w j rep l ha) _ (fun m hm => (g3 m hm).1) g4
  have hpre : WsSend.sent (Pipe.sendTr (RpcAny.upTr (e.trace n))) = (reqs.take msgs.length).map (packOf k) ∧ msgs.length ≤ reqs.length := by
    obtain ⟨y, hy⟩ := e.trace_prefix (show n ≤ m3 by omega)
    have e1 : WsSend.sent (Pipe.sendTr (RpcAny.upTr (e.trace m3))) = WsSend.sent (Pipe.sendTr (RpcAny.upTr (e.trace n))) ++ WsSend.sent (Pipe.sendTr (RpcAny.upTr y)) := by
      rw [← hy, show RpcAny.upTr (e.trace n ++ y) = RpcAny.upTr (e.trace n) ++ RpcAny.upTr y from List.filterMap_append]
      exact ws_sent_append _ _
    have e2 : (WsSend.sent (Pipe.sendTr (RpcAny.upTr (e.trace n)))).length = msgs.length := by rw [hmsgs, List.length_map]
    constructor
    · rw [List.map_take, ← g1, e1, List.take_append_of_le_length (by omega), List.take_of_length_le (by omega)]
    · have := congrArg List.length g1
      rw [e1, List.length_append, List.length_map] at this
      omega
  refine ⟨reqs.take msgs.length, hpre.1, m3, by omega, by rw [List.length_take]; omega, fun i q hq => ?_⟩
  have hi : i < msgs.length := by
    have := (List.getElem?_eq_some_iff.1 hq).1
    rw [List.length_take] at this; omega
  obtain ⟨q', h1, h2⟩ := g5 i (by omega)
  rw [h2]
  rw [List.getElem?_take] at hq
  simp only [hi, if_true] at hq
  rw [List.getElem?_append_left (by omega), hq] at h1
  cases h1; rfl

/-! ## KCP -/

theorem kcp_ready (kind : KcpSend.Kind) : Ready (kcpCarrier cc kind) := by
  have dir : ∀ {s bu oks e w l t i}, KcpDir s bu oks e w → KcpSend.Step cc s l t → (kcp cc kind).ret i l = true → ∃ m, bu = some (i, m) := by
    intro s bu oks e w l t i h hs hr
    refine Classical.byContradiction fun hn => ?_
    have hidle := h.idle i fun m e => hn ⟨m, e⟩
    cases hs <;> simp only [kcp, Bool.false_eq_true, decide_eq_true_eq] at hr <;> subst hr <;> simp_all
  have buf : ∀ {s bu oks e w l t i}, KcpBuf s bu oks e w → KcpSend.Step cc s l t → (kcp cc kind).ret i l = true → ∃ m, bu = some (i, m) := by
    intro s bu oks e w l t i h hs hr
    refine Classical.byContradiction fun hn => ?_
    have hidle := h.idle i fun m e => hn ⟨m, e⟩
    cases hs <;> simp only [kcp, Bool.false_eq_true, decide_eq_true_eq] at hr <;> subst hr <;> simp_all
  cases kind with
  | send => exact ⟨fun {s oks e w} h i m => ⟨_, KcpSend.Step.call s i m .send (KcpDir.idle h i nofun)⟩, fun h hs hr => dir h hs hr⟩
  | msg => exact ⟨fun {s oks e w} h i m => ⟨_, KcpSend.Step.call s i m .msg (KcpDir.idle h i nofun)⟩, fun h hs hr => dir h hs hr⟩
  | buff => exact ⟨fun {s oks e w} h i m => ⟨_, KcpSend.Step.call s i m .buff (KcpBuf.idle h i nofun)⟩, fun h hs hr => buf h hs hr⟩
  | queue => exact ⟨fun {s oks e w} h i m => ⟨_, KcpSend.Step.call s i m .queue (KcpBuf.idle h i nofun)⟩, fun h hs hr => buf h hs hr⟩

theorem kcp_waits {kind : KcpSend.Kind} {ls : List (Label (kcp cc kind))} {s : State (kcp cc kind)} (h : Steps (Step (kcp cc kind) k b wid cap c f) (init _ k) ls s) {w : Nat} (hi : KcpSend.State.s s.snd w = .idle) (j : Nat)
    (rep : Msg) : s.h w ≠ .called j rep := by
  intro hh
  obtain ⟨E, bu, hc⟩ := car_inv (kcpCarrier cc kind) h
  have hb := (hc.busy w j rep).1 hh
  subst hb
  have dir : ∀ {s : KcpSend.State} {oks e wr}, KcpDir s (some (w, packed k rep)) oks e wr → s.s w ≠ .idle := fun h hi => by
    have := h.busy w (packed k rep) rfl
    rw [hi] at this
    rcases this with h | h | h <;> cases h
  have buf : ∀ {s : KcpSend.State} {oks e wr}, KcpBuf s (some (w, packed k rep)) oks e wr → s.s w ≠ .idle := fun h hi => by
    have := h.busy w (packed k rep) rfl
    rw [hi] at this
    exact this
  cases kind with
  | send => exact dir hc.inv hi
  | msg => exact dir hc.inv hi
  | buff => exact buf hc.inv hi
  | queue => exact buf hc.inv hi

theorem kcp_written_le {A B : List KcpSend.Label} (hA : KcpSend.queued A <+: KcpSend.written B) : (KcpSend.queued A).flatten.length ≤ (B.flatMap Pipe.kcpWritten).length := by
  rw [kcp_wire]
  have h : (KcpSend.written B).flatten.length ≤ (KcpSend.wire B).flatten.length := by
    clear hA
    induction B with
    | nil => exact Nat.le_refl _
    | cons l ls ih => cases l <;> simp only [KcpSend.written, KcpSend.wire, List.flatten_cons, List.length_append] <;> omega
  obtain ⟨y, hy⟩ := hA
  rw [← hy, List.flatten_append, List.length_append] at h
  omega

theorem kcp_queued (ls : List KcpSend.Label) : KcpSend.queued ls = ls.flatMap fun | .enq _ m _ => [m] | _ => [] := by
  induction ls with
  | nil => rfl
  | cons l ls ih => cases l <;> simp [KcpSend.queued, ih]

theorem kcp_wire_append (A B : List (Pipe.Label KcpSend.Label)) : KcpSend.wire (Pipe.sendTr (A ++ B)) = KcpSend.wire (Pipe.sendTr A) ++ KcpSend.wire (Pipe.sendTr B) := by
  simp only [Pipe.sendTr, List.filterMap_append, KcpSend.wire_append]

/-- On a connection that is not stopped and whose network works, replies sent are written. -/
theorem kcp_replies_written {kind : KcpSend.Kind} (e : Exec (Step (kcp cc kind) k b wid cap c f)) (h0 : e.run 0 = init _ k)
    (hdown : ∀ n, KcpSend.State.cancelled (e.run n).snd = false ∧ KcpSend.State.broken (e.run n).snd = false) (hw : e.WeakFair (RpcAny.downs (KcpSend.Label.writer 0))) (n : Nat) :
    ∃ m, n ≤ m ∧ ((RpcAny.okReplies (e.trace n)).map fun p => packed k p.2).flatten.length ≤ (RpcAny.written (e.trace m)).length := by
  have hst : ∀ n, Steps (Step (kcp cc kind) k b wid cap c f) (init _ k) (e.trace n) (e.run n) := fun n => h0 ▸ e.steps n
  have R := kcp_ready (cc := cc) kind
  have direct : (∀ {s bu oks e w}, (kcpCarrier cc kind).I s bu oks e w → w = oks.flatten) → ∃ m, n ≤ m ∧ ((RpcAny.okReplies (e.trace n)).map fun p => packed k p.2).flatten.length ≤ (RpcAny.written (e.trace m)).length := by
    intro hI
    obtain ⟨E, bu, hc⟩ := car_inv (kcpCarrier cc kind) (hst n)
    exact ⟨n, Nat.le_refl _, Nat.le_of_eq (congrArg List.length (hI hc.inv)).symm⟩
  have buffered : (∀ {s bu oks e w}, (kcpCarrier cc kind).I s bu oks e w → KcpBuf s bu oks e w) →
      ∃ m, n ≤ m ∧ ((RpcAny.okReplies (e.trace n)).map fun p => packed k p.2).flatten.length ≤ (RpcAny.written (e.trace m)).length := by
    intro hI
    have hn : ∀ n, KcpSend.State.nch (e.run n).snd ≤ 1 := by
      intro n
      obtain ⟨E, bu, hc⟩ := car_inv (kcpCarrier cc kind) (hst n)
      have h := hI hc.inv
      cases hf : KcpSend.State.field (e.run n).snd with
      | none => rw [(h.new hf).1]; exact Nat.zero_le _
      | some c => rw [(h.old c hf).2]; exact Nat.le_refl _
    obtain ⟨m, hm, h⟩ := KcpSend.all_written (RpcAny.sndExec e) (by show (e.run 0).snd = _; rw [h0]; rfl) hdown hn (RpcAny.sndExec_weak _ R h0 (fun l hl => by cases l <;> first | rfl | cases hl) hw) n
    have h : KcpSend.queued (RpcAny.sndTr k (e.trace n)) <+: KcpSend.written (RpcAny.sndTr k (e.trace m)) := by rw [← RpcAny.sndExec_trace, ← RpcAny.sndExec_trace]; exact h
    refine ⟨m, hm, ?_⟩
    have e1 := queued_ok (kcpCarrier cc kind) (fun l : KcpSend.Label => match l with | .enq _ m _ => [m] | _ => [])
      (by
        intro s t oks e w i m l h hs hr hok
        have hb := (hI h).busy i m rfl
        cases hs <;> simp only [kcp, Bool.false_eq_true, decide_eq_true_eq] at hr hok <;> subst hr
        · rename_i hw _
          rw [hw] at hb
          cases hb
        · rename_i hw _ _
          rw [hw] at hb
          rw [hb.1])
      (by intro l hl; cases l <;> first | rfl | cases hl)
      (by intro i m; rfl)
      (by
        intro l hl
        cases l <;> first | rfl | skip
        rename_i i m j
        have := hl i
        simp [kcp] at this) (hst n)
    have e2 : KcpSend.queued (RpcAny.sndTr k (e.trace n)) = (RpcAny.okReplies (e.trace n)).map fun p => packed k p.2 := (kcp_queued _).trans e1
    rw [← e2]
    exact Nat.le_trans (kcp_written_le h) (Nat.le_of_eq (congrArg List.length (written_snd (x := kcp cc kind) (k := k) (fun _ _ => rfl) (e.trace m))))
  cases kind with
  | send => exact direct fun h => KcpDir.wire h
  | msg => exact direct fun h => KcpDir.wire h
  | buff => exact buffered fun h => h
  | queue => exact buffered fun h => h

/-- **C148**, KCP, every request is answered: for each of the four ways of replying, the other side receives the replies to all messages it has written. (Whether messages it has queued are written is C92; concurrent first
uses of its queue can lose some.) -/
theorem C148_kcp_answered {kind : KcpSend.Kind} (e : Exec (Step (kcp cc kind) k b wid cap c f)) (h0 : e.run 0 = init _ k) (hk : k ≠ .htlv)
    (hf : ∀ j m, m.2.length < 2 ^ 32 - 8 → ∃ rep, f j m = some rep ∧ rep.2.length < 2 ^ 32 - 8) (hg : ∀ n, GoodKcp k (RpcAny.upTr (e.trace n)))
    (hdown : ∀ n, KcpSend.State.cancelled (e.run n).snd = false ∧ KcpSend.State.broken (e.run n).snd = false)
    (hok : ∀ n w j rep l, e.act n = some (.ret w j rep l) → (kcp cc kind).ok l = true)
    (hsr : e.WeakFair (RpcAny.ups isRead)) (hsd : e.StrongFair (RpcAny.ups (byWorker (readerActs c)))) (hwk : e.WeakFair (RpcAny.ups (byWorker (workerActs (wid c))))) (hdec : e.WeakFair (RpcAny.decides (wid c)))
    (hss : e.WeakFair (RpcAny.downs (KcpSend.Label.of (wid c)))) (hsw : e.WeakFair (RpcAny.downs (KcpSend.Label.writer 0))) (hrd : e.WeakFair RpcAny.clientRead) (n : Nat) :
    ∃ reqs : List Msg, KcpSend.wire (Pipe.sendTr (RpcAny.upTr (e.trace n))) = reqs.map (packOf k) ∧
      ∃ m, n ≤ m ∧ reqs.length ≤ (e.run m).msgs.length ∧ ∀ (i : Nat) (q : Msg), reqs[i]? = some q → (e.run m).msgs[i]?.map key = f i q := by
  have hst : ∀ n, Steps (Step (kcp cc kind) k b wid cap c f) (init _ k) (e.trace n) (e.run n) := fun n => h0 ▸ e.steps n
  have R := kcp_ready (cc := cc) kind
  have hs0 : (RpcAny.sndExec e).run 0 = ({} : KcpSend.State) := by show (e.run 0).snd = _; rw [h0]; rfl
  have hret : ∀ n, ∃ m, n ≤ m ∧ ∀ j rep, (e.run m).h (wid c) ≠ .called j rep := by
    intro n
    obtain ⟨m, hm, h⟩ := C39_kcp_returns cc (RpcAny.sndExec e) hs0 (fun n hn => by
        obtain ⟨l, t, hl, hs⟩ := hn n (Nat.le_refl _)
        have h1 := (KcpSend.invF_steps (KcpSend.exec_steps (RpcAny.sndExec e) hs0 n)).running (hdown n).1
        have h2 : KcpSend.State.cancelled ((RpcAny.sndExec e).run n) = false := (hdown n).1
        exfalso
        generalize (RpcAny.sndExec e).run n = s at hs h1 h2
        cases l <;> simp only [KcpSend.Label.isFin] at hl <;> cases hs <;> simp_all) (wid c) (RpcAny.sndExec_weak _ R h0 (fun l hl => by cases l <;> first | rfl | cases hl) hss) n
    exact ⟨m, hm, kcp_waits (hst m) h⟩
  obtain ⟨msgs, hmsgs, m1, hm1, hseen⟩ := (C92_kcp_arrives_partial (RpcAny.upExec e) (by show (e.run 0).up = _; rw [h0]; rfl) hk (fun n => by have := hg n; rw [← RpcAny.upExec_trace] at this; exact this)
    (RpcAny.upExec_weak (fun l hl => by cases l <;> first | rfl | cases hl) hsr) (RpcAny.up_worker _ R e h0 hwk hdec hret)
    (RpcAny.upExec_strong (fun l hl => by
      cases l with
      | work a => cases a <;> first | rfl | cases hl
      | _ => cases hl) hsd)).1 n
  have hmsgs : KcpSend.wire (Pipe.sendTr (RpcAny.upTr (e.trace n))) = msgs.map (packOf k) := by rw [← RpcAny.upExec_trace]; exact hmsgs
  have hsent := fun n => kcp_sent (Pipe.inv (parts (hst n)).up) (hg n)
  have hN : 2 * msgs.length ≤ (RpcAny.handled c (e.trace m1)).length := by
    have hl := hseen.length_le
    rw [one_length, List.length_map] at hl
    show _ ≤ (Worker.handlingOf c (Pipe.workTr c (RpcAny.upTr (e.trace m1)))).length
    rw [← RpcAny.upExec_trace]; exact hl
  obtain ⟨m3, hm3, hgot⟩ := RpcAny.answered (kcpCarrier cc kind) e h0 hk hf (fun n => let ⟨reqs, h3, h4⟩ := hsent n; up_small (hst n) hk _ h4 (kcp_pre h3)) hok (kcp_replies_written e h0 hdown hsw) hrd hN
  obtain ⟨reqs, g1, g3⟩ := hsent m3
  have g5 := in_step (kcpCarrier cc kind) (hst m3) hk hf (fun w j rep l hl => let ⟨m, _, ha⟩ := e.mem_trace hl; hok m w j rep l ha) _ g3 (kcp_pre g1)
  have hpre : KcpSend.wire (Pipe.sendTr (RpcAny.upTr (e.trace n))) = (reqs.take msgs.length).map (packOf k) ∧ msgs.length ≤ reqs.length := by
    obtain ⟨y, hy⟩ := e.trace_prefix (show n ≤ m3 by omega)
    have e1 : KcpSend.wire (Pipe.sendTr (RpcAny.upTr (e.trace m3))) = KcpSend.wire (Pipe.sendTr (RpcAny.upTr (e.trace n))) ++ KcpSend.wire (Pipe.sendTr (RpcAny.upTr y)) := by
      rw [← hy, show RpcAny.upTr (e.trace n ++ y) = RpcAny.upTr (e.trace n) ++ RpcAny.upTr y from List.filterMap_append]
      exact kcp_wire_append _ _
    have e2 : (KcpSend.wire (Pipe.sendTr (RpcAny.upTr (e.trace n)))).length = msgs.length := by rw [hmsgs, List.length_map]
    constructor
    · rw [List.map_take, ← g1, e1, List.take_append_of_le_length (by omega), List.take_of_length_le (by omega)]
    · have := congrArg List.length g1
      rw [e1, List.length_append, List.length_map] at this
      omega
  refine ⟨reqs.take msgs.length, hpre.1, m3, by omega, by rw [List.length_take]; omega, fun i q hq => ?_⟩
  have hi : i < msgs.length := by
    have := (List.getElem?_eq_some_iff.1 hq).1
    rw [List.length_take] at this; omega
  obtain ⟨q', h1, h2⟩ := g5 i (by omega)
  rw [h2]
  rw [List.getElem?_take] at hq
  simp only [hi, if_true] at hq
  rw [hq] at h1
  cases h1; rfl

/-! ### Examples -/

def WsFine (s : State (ws 1 true)) : Prop := (WsSend.State.cancelled s.up.snd = false ∧ WsSend.State.broken s.up.snd = false) ∧ WsSend.State.cancelled s.snd = false ∧ WsSend.State.broken s.snd = false

/-- The client sends two messages with `SendMsg`, the server answers both with `SendBuffMsg`. -/
def wsServed : List (Label (ws 1 true)) := wsAsk true ++ [.call 1 0 (5, [7]), .down (WsSend.Label.lock 1), .ret 1 0 (5, [7]) (WsSend.Label.enq 1 rpcOne), .up (.work (.finish 1 (rpcReq 0) .returned)),
  .up (.work (.start 1 (rpcReq 1))), .down WsSend.Label.recv, .down WsSend.Label.wlock, .down (WsSend.Label.wwrite rpcOne), .down (WsSend.Label.wend rpcOne), .call 1 1 (5, [8]), .down (WsSend.Label.lock 1),
  .ret 1 1 (5, [8]) (WsSend.Label.enq 1 rpcTwo), .up (.work (.finish 1 (rpcReq 1) .returned)), .down WsSend.Label.recv, .down WsSend.Label.wlock, .down (WsSend.Label.wwrite rpcTwo), .down (WsSend.Label.wend rpcTwo),
  .read (rpcOne ++ rpcTwo)]

/-- Nothing is on its way. -/
structure WsRest (s : State (ws 1 true)) : Prop where
  upFlight : s.up.flight = []
  upSend : ∀ i, WsSend.State.s s.up.snd i = .idle
  upWriter : WsSend.State.writer s.up.snd = .none
  queue : s.up.wk.queue 1 = [] ∧ s.up.wk.worker 1 = .idle
  todo : ∀ c, s.up.wk.todo c = []
  hand : s.h 1 = .idle
  send : ∀ i, WsSend.State.s s.snd i = .idle
  writer : WsSend.State.writer s.snd = .select ∧ WsSend.State.chan s.snd = some ⟨[], false⟩
  flight : s.flight = []

theorem wsServed_run : ∃ s, StepsAll (Step (ws 1 true) .tlv false (fun c => c % 2) 2 3 echo) WsFine (init _ .tlv) wsServed s ∧ WsRest s :=
  ⟨_, .cons ⟨⟨rfl, rfl⟩, rfl, rfl⟩ (.up _ _ _ (.send _ _ _ (WsSend.Step.call _ 0 rpcOne false rfl)) rfl)
    (.cons ⟨⟨rfl, rfl⟩, rfl, rfl⟩ (.up _ _ _ (.send _ _ _ (WsSend.Step.directOpen _ 0 rpcOne rfl rfl rfl)) rfl)
    (.cons ⟨⟨rfl, rfl⟩, rfl, rfl⟩ (.up _ _ _ (.send _ _ _ (WsSend.Step.write _ 0 [] rpcOne [] rfl nofun rfl)) rfl)
    (.cons ⟨⟨rfl, rfl⟩, rfl, rfl⟩ (.up _ _ _ (.send _ _ _ (WsSend.Step.writeEnd _ 0 rpcOne rfl rfl)) rfl)
    (.cons ⟨⟨rfl, rfl⟩, rfl, rfl⟩ (.up _ _ _ (.send _ _ _ (WsSend.Step.call _ 0 rpcTwo false rfl)) rfl)
    (.cons ⟨⟨rfl, rfl⟩, rfl, rfl⟩ (.up _ _ _ (.send _ _ _ (WsSend.Step.directOpen _ 0 rpcTwo rfl rfl rfl)) rfl)
    (.cons ⟨⟨rfl, rfl⟩, rfl, rfl⟩ (.up _ _ _ (.send _ _ _ (WsSend.Step.write _ 0 [] rpcTwo [] rfl nofun rfl)) rfl)
    (.cons ⟨⟨rfl, rfl⟩, rfl, rfl⟩ (.up _ _ _ (.send _ _ _ (WsSend.Step.writeEnd _ 0 rpcTwo rfl rfl)) rfl)
    (.cons ⟨⟨rfl, rfl⟩, rfl, rfl⟩ (.up _ _ _ (.read _ (rpcOne ++ rpcTwo) [] _ _ _ (by decide) rfl rfl rpc_read_both _ (.arrive _ 3 _ rfl (by decide))) rfl)
    (.cons ⟨⟨rfl, rfl⟩, rfl, rfl⟩ (.up _ _ _ (.work _ _ (by intro _ h; cases h) _ (.deliver _ 3 (rpcReq 0) [rpcReq 1] rfl (by decide))) rfl)
    (.cons ⟨⟨rfl, rfl⟩, rfl, rfl⟩ (.up _ _ _ (.work _ _ (by intro _ h; cases h) _ (.deliver _ 3 (rpcReq 1) [] rfl (by decide))) rfl)
    (.cons ⟨⟨rfl, rfl⟩, rfl, rfl⟩ (.start _ 1 (rpcReq 0) _ rfl (.work _ _ (by intro _ h; cases h) _ (.take _ 1 (rpcReq 0) [rpcReq 1] rfl rfl)))
    (.cons ⟨⟨rfl, rfl⟩, rfl, rfl⟩ (.call _ 1 0 (rpcGot 7) (5, [7]) _ rfl rfl rfl (WsSend.Step.call _ 1 rpcOne true rfl))
    (.cons ⟨⟨rfl, rfl⟩, rfl, rfl⟩ (.down _ _ _ rfl (by intro w; rfl) (WsSend.Step.buffOpen _ 1 rpcOne rfl rfl rfl))
    (.cons ⟨⟨rfl, rfl⟩, rfl, rfl⟩ (.ret _ 1 0 (5, [7]) _ _ rfl rfl (WsSend.Step.enq _ 1 rpcOne _ rfl rfl rfl (by decide)))
    (.cons ⟨⟨rfl, rfl⟩, rfl, rfl⟩ (.finish _ 1 (rpcReq 0) .returned _ rfl rfl (.work _ _ (by intro _ h; cases h) _ (.finish _ 1 (rpcReq 0) .returned rfl)))
    (.cons ⟨⟨rfl, rfl⟩, rfl, rfl⟩ (.start _ 1 (rpcReq 1) _ rfl (.work _ _ (by intro _ h; cases h) _ (.take _ 1 (rpcReq 1) [] rfl rfl)))
    (.cons ⟨⟨rfl, rfl⟩, rfl, rfl⟩ (.down _ _ _ rfl (by intro w; rfl) (WsSend.Step.recv _ rpcOne [] false rfl rfl))
    (.cons ⟨⟨rfl, rfl⟩, rfl, rfl⟩ (.down _ _ _ rfl (by intro w; rfl) (WsSend.Step.wOpen _ rpcOne rfl rfl rfl))
    (.cons ⟨⟨rfl, rfl⟩, rfl, rfl⟩ (.down _ _ _ rfl (by intro w; rfl) (WsSend.Step.wwrite _ [] rpcOne [] rfl nofun rfl))
    (.cons ⟨⟨rfl, rfl⟩, rfl, rfl⟩ (.down _ _ _ rfl (by intro w; rfl) (WsSend.Step.wend _ rpcOne rfl rfl))
    (.cons ⟨⟨rfl, rfl⟩, rfl, rfl⟩ (.call _ 1 1 (rpcGot 8) (5, [8]) _ rfl rfl rfl (WsSend.Step.call _ 1 rpcTwo true rfl))
    (.cons ⟨⟨rfl, rfl⟩, rfl, rfl⟩ (.down _ _ _ rfl (by intro w; rfl) (WsSend.Step.buffOpen _ 1 rpcTwo rfl rfl rfl))
    (.cons ⟨⟨rfl, rfl⟩, rfl, rfl⟩ (.ret _ 1 1 (5, [8]) _ _ rfl rfl (WsSend.Step.enq _ 1 rpcTwo _ rfl rfl rfl (by decide)))
    (.cons ⟨⟨rfl, rfl⟩, rfl, rfl⟩ (.finish _ 1 (rpcReq 1) .returned _ rfl rfl (.work _ _ (by intro _ h; cases h) _ (.finish _ 1 (rpcReq 1) .returned rfl)))
    (.cons ⟨⟨rfl, rfl⟩, rfl, rfl⟩ (.down _ _ _ rfl (by intro w; rfl) (WsSend.Step.recv _ rpcTwo [] false rfl rfl))
    (.cons ⟨⟨rfl, rfl⟩, rfl, rfl⟩ (.down _ _ _ rfl (by intro w; rfl) (WsSend.Step.wOpen _ rpcTwo rfl rfl rfl))
    (.cons ⟨⟨rfl, rfl⟩, rfl, rfl⟩ (.down _ _ _ rfl (by intro w; rfl) (WsSend.Step.wwrite _ [] rpcTwo [] rfl nofun rfl))
    (.cons ⟨⟨rfl, rfl⟩, rfl, rfl⟩ (.down _ _ _ rfl (by intro w; rfl) (WsSend.Step.wend _ rpcTwo rfl rfl))
    (.cons ⟨⟨rfl, rfl⟩, rfl, rfl⟩ (.read _ (rpcOne ++ rpcTwo) [] _ _ _ (by decide) rfl rfl rpc_read_both)
    (.nil ⟨⟨rfl, rfl⟩, rfl, rfl⟩)))))))))))))))))))))))))))))), by
    constructor
    · rfl
    · intro i; show WsSend.set _ 0 _ i = _; simp only [WsSend.set]; split <;> rfl
    · rfl
    · exact ⟨rfl, rfl⟩
    · intro c; by_cases h : c = 3 <;> simp [Worker.upd, h, Pipe.init, Worker.initial, init]
    · rfl
    · intro i; show WsSend.set _ 1 _ i = _; simp only [WsSend.set]; split <;> rfl
    · exact ⟨rfl, rfl⟩
    · rfl⟩

/-- The hypotheses of `C148_ws_answered` hold of it, and two messages are sent. -/
example : ∃ e : Exec (Step (ws 1 true) .tlv false (fun c => c % 2) 2 3 echo), e.run 0 = init _ .tlv ∧ (∀ j m, m.2.length < 2 ^ 32 - 8 → ∃ rep, echo j m = some rep ∧ rep.2.length < 2 ^ 32 - 8) ∧
    (∀ n, GoodWs .tlv (RpcAny.upTr (e.trace n))) ∧ (∀ n, WsFine (e.run n)) ∧ (∀ n w j rep l, e.act n = some (.ret w j rep l) → (ws 1 true).ok l = true) ∧
    (∀ i, e.WeakFair (RpcAny.ups (bySender (WsSend.Label.inside i)))) ∧ e.WeakFair (RpcAny.ups (bySender WsSend.Label.winside)) ∧ e.StrongFair (RpcAny.ups (bySender (· = WsSend.Label.wlock))) ∧
    e.WeakFair (RpcAny.ups (bySender (· = WsSend.Label.recv))) ∧ e.WeakFair (RpcAny.ups isRead) ∧ e.StrongFair (RpcAny.ups (byWorker (readerActs 3))) ∧
    e.WeakFair (RpcAny.ups (byWorker (workerActs 1))) ∧ e.WeakFair (RpcAny.decides 1) ∧
    (∀ i, e.WeakFair (RpcAny.downs (WsSend.Label.inside i))) ∧ e.StrongFair (RpcAny.downs (WsSend.Label.acquire 1)) ∧ e.WeakFair (RpcAny.downs WsSend.Label.winside) ∧
    e.StrongFair (RpcAny.downs (· = WsSend.Label.wlock)) ∧ e.WeakFair (RpcAny.downs (· = WsSend.Label.recv)) ∧ e.WeakFair RpcAny.clientRead ∧
    WsSend.sent (Pipe.sendTr (RpcAny.upTr (e.trace 8))) = [(5, [7]), (5, [8])].map (packOf .tlv) := by
  obtain ⟨s, h1, h2⟩ := wsServed_run
  obtain ⟨e, e1, e2, e3, e4⟩ := Exec.ofStepsAll h1
  have htr := e.trace_of_act e2
  have hmem : ∀ n l, l ∈ e.trace n → l ∈ wsServed := fun n l hl => List.mem_of_mem_take (htr n ▸ hl)
  have ups_no : ∀ A : Pipe.Label WsSend.Label → Prop, (∀ l t, A l → ¬ Pipe.Step (WsSend.Step 1) Pipe.wsWritten .tlv false (fun c => c % 2) 2 3 s.up l t) →
      ¬ Enabled (Step (ws 1 true) .tlv false (fun c => c % 2) 2 3 echo) (RpcAny.ups A) s := fun A h hE => let ⟨l, t, hA, hs⟩ := RpcAny.ups_enabled hE; h l t hA hs
  have downs_no : ∀ A : WsSend.Label → Prop, (∀ l t, A l → ¬ WsSend.Step 1 s.snd l t) →
      ¬ Enabled (Step (ws 1 true) .tlv false (fun c => c % 2) 2 3 echo) (RpcAny.downs A) s := fun A h hE => let ⟨l, t, hA, hs⟩ := RpcAny.downs_enabled hE; h l t hA hs
  obtain ⟨r1, r2, r3, ⟨r4, r4'⟩, r5, r6, r7, ⟨r8, r8'⟩, r9⟩ := h2
  have quiet : ∀ (u : WsSend.State) l t, (∀ i, u.s i = .idle) → (u.writer = .none ∨ u.writer = .select ∧ u.chan = some ⟨[], false⟩) → WsSend.Step 1 u l t →
      (∀ i, ¬ WsSend.Label.inside i l) ∧ (∀ i, ¬ WsSend.Label.acquire i l) ∧ ¬ WsSend.Label.winside l ∧ l ≠ .wlock ∧ l ≠ .recv := by
    intro u l t g1 g2 hs
    cases hs <;> simp_all [WsSend.Label.inside, WsSend.Label.acquire, WsSend.Label.winside]
  have upq : ∀ l t, Pipe.Step (WsSend.Step 1) Pipe.wsWritten .tlv false (fun c => c % 2) 2 3 s.up (.send l) t → (∀ i, ¬ WsSend.Label.inside i l) ∧ (∀ i, ¬ WsSend.Label.acquire i l) ∧ ¬ WsSend.Label.winside l ∧ l ≠ .wlock ∧ l ≠ .recv := by
    intro l t hs
    cases hs with
    | send _ u hs => exact quiet _ l u r2 (.inl r3) hs
  have downq : ∀ l t, WsSend.Step 1 s.snd l t → (∀ i, ¬ WsSend.Label.inside i l) ∧ (∀ i, ¬ WsSend.Label.acquire i l) ∧ ¬ WsSend.Label.winside l ∧ l ≠ .wlock ∧ l ≠ .recv := fun l t hs => quiet _ l t r7 (.inr ⟨r8, r8'⟩) hs
  have bys : ∀ A : WsSend.Label → Prop, (∀ l t, A l → ¬ Pipe.Step (WsSend.Step 1) Pipe.wsWritten .tlv false (fun c => c % 2) 2 3 s.up (.send l) t) →
      ¬ Enabled (Step (ws 1 true) .tlv false (fun c => c % 2) 2 3 echo) (RpcAny.ups (bySender A)) s := fun A h => ups_no _ fun l t hA hs => by
    cases l <;> first | cases hA | skip
    exact h _ _ hA hs
  refine ⟨e, e1, fun j m h => ⟨m, rfl, h⟩, fun n i m q hm => ?_, e3, fun n w j rep l ha => ?_, fun i => Exec.weakFair_of_end e4 (bys _ fun l t hA hs => (upq l t hs).1 i hA),
    Exec.weakFair_of_end e4 (bys _ fun l t hA hs => (upq l t hs).2.2.1 hA), Exec.strongFair_of_end e4 (bys _ fun l t hA hs => (upq l t hs).2.2.2.1 hA),
    Exec.weakFair_of_end e4 (bys _ fun l t hA hs => (upq l t hs).2.2.2.2 hA), Exec.weakFair_of_end e4 (ups_no _ fun l t hA hs => ?_), Exec.strongFair_of_end e4 (ups_no _ fun l t hA hs => ?_),
    Exec.weakFair_of_end e4 (ups_no _ fun l t hA hs => ?_), Exec.weakFair_of_end e4 (fun ⟨l, t, hA, hs⟩ => ?_),
    fun i => Exec.weakFair_of_end e4 (downs_no _ fun l t hA hs => (downq l t hs).1 i hA), Exec.strongFair_of_end e4 (downs_no _ fun l t hA hs => (downq l t hs).2.1 1 hA),
    Exec.weakFair_of_end e4 (downs_no _ fun l t hA hs => (downq l t hs).2.2.1 hA), Exec.strongFair_of_end e4 (downs_no _ fun l t hA hs => (downq l t hs).2.2.2.1 hA),
    Exec.weakFair_of_end e4 (downs_no _ fun l t hA hs => (downq l t hs).2.2.2.2 hA), Exec.weakFair_of_end e4 (fun ⟨l, t, hA, hs⟩ => ?_), by rw [htr]; decide +kernel⟩
  · have hx : WsSend.Label.call i m q ∈ [WsSend.Label.call 0 rpcOne false, .lock 0, .write 0 rpcOne, .ret 0 rpcOne, .call 0 rpcTwo false, .lock 0, .write 0 rpcTwo, .ret 0 rpcTwo] :=
      mem_sendTr.2 (up_mem (hmem n _ (mem_up hm)))
    simp at hx
    rcases hx with ⟨_, rfl, _⟩ | ⟨_, rfl, _⟩
    · exact ⟨(5, [7]), by decide, by decide +kernel⟩
    · exact ⟨(5, [8]), by decide, by decide +kernel⟩
  · rw [e2] at ha
    have ha := List.mem_of_getElem? ha
    simp [wsServed, wsAsk] at ha
    rcases ha with ⟨_, _, _, rfl⟩ | ⟨_, _, _, rfl⟩ <;> rfl
  · exact (calm r1 r5 ⟨r4, r4'⟩ hs).1 hA
  · exact (calm r1 r5 ⟨r4, r4'⟩ hs).2.1 hA
  · exact (calm r1 r5 ⟨r4, r4'⟩ hs).2.2 hA
  · cases hs <;> simp only [RpcAny.decides] at hA <;> subst hA <;> simp_all
  · cases hs <;> simp only [RpcAny.clientRead] at hA
    rename_i hx hf _ _
    rw [r9] at hf
    exact hx (List.append_eq_nil_iff.1 hf.symm).1

def KcpFine (s : State (kcp 2 .buff)) : Prop := KcpSend.State.cancelled s.snd = false ∧ KcpSend.State.broken s.snd = false

/-- The other side sends two messages with `Send`, the server answers both with `SendBuffMsg`. -/
def kcpServed : List (Label (kcp 2 .buff)) := [.up (.send (KcpSend.Label.call 0 rpcOne .send)), .up (.send (KcpSend.Label.rlock 0)), .up (.send (KcpSend.Label.write 0 rpcOne)), .up (.send (KcpSend.Label.call 0 rpcTwo .send)),
  .up (.send (KcpSend.Label.rlock 0)), .up (.send (KcpSend.Label.write 0 rpcTwo)), .up (.read (rpcOne ++ rpcTwo) [rpcReq 0, rpcReq 1]), .up (.work (.submit 1 (rpcReq 0))), .up (.work (.submit 1 (rpcReq 1))),
  .up (.work (.start 1 (rpcReq 0))), .call 1 0 (5, [7]), .down (KcpSend.Label.own 1), .down (KcpSend.Label.own 1), .down (KcpSend.Label.make 1), .down (KcpSend.Label.own 1), .ret 1 0 (5, [7]) (KcpSend.Label.enq 1 rpcOne 0),
  .up (.work (.finish 1 (rpcReq 0) .returned)), .up (.work (.start 1 (rpcReq 1))), .call 1 1 (5, [8]), .down (KcpSend.Label.own 1), .down (KcpSend.Label.own 1), .down (KcpSend.Label.own 1),
  .ret 1 1 (5, [8]) (KcpSend.Label.enq 1 rpcTwo 0), .up (.work (.finish 1 (rpcReq 1) .returned)), .down (KcpSend.Label.weval 0), .down (KcpSend.Label.recv 0), .down (KcpSend.Label.wlock 0), .down (KcpSend.Label.wwrite 0 rpcOne),
  .down (KcpSend.Label.weval 0), .down (KcpSend.Label.recv 0), .down (KcpSend.Label.wlock 0), .down (KcpSend.Label.wwrite 0 rpcTwo), .down (KcpSend.Label.weval 0), .read (rpcOne ++ rpcTwo)]

/-- Nothing is on its way. -/
structure KcpRest (s : State (kcp 2 .buff)) : Prop where
  upFlight : s.up.flight = []
  queue : s.up.wk.queue 1 = [] ∧ s.up.wk.worker 1 = .idle
  todo : ∀ c, s.up.wk.todo c = []
  hand : s.h 1 = .idle
  send : KcpSend.State.s s.snd 1 = .idle
  writer : KcpSend.State.w s.snd 0 = .sel 0 ∧ KcpSend.State.chan s.snd 0 = ⟨[], false⟩
  flight : s.flight = []

theorem kcpServed_run : ∃ s, StepsAll (Step (kcp 2 .buff) .tlv false (fun c => c % 2) 2 3 echo) KcpFine (init _ .tlv) kcpServed s ∧ KcpRest s :=
  ⟨_, .cons ⟨rfl, rfl⟩ (.up _ _ _ (.send _ _ _ (KcpSend.Step.call _ 0 rpcOne .send rfl)) rfl)
    (.cons ⟨rfl, rfl⟩ (.up _ _ _ (.send _ _ _ (KcpSend.Step.sendOpen _ 0 rpcOne rfl rfl rfl)) rfl)
    (.cons ⟨rfl, rfl⟩ (.up _ _ _ (.send _ _ _ (KcpSend.Step.write _ 0 rpcOne rfl rfl)) rfl)
    (.cons ⟨rfl, rfl⟩ (.up _ _ _ (.send _ _ _ (KcpSend.Step.call _ 0 rpcTwo .send rfl)) rfl)
    (.cons ⟨rfl, rfl⟩ (.up _ _ _ (.send _ _ _ (KcpSend.Step.sendOpen _ 0 rpcTwo rfl rfl rfl)) rfl)
    (.cons ⟨rfl, rfl⟩ (.up _ _ _ (.send _ _ _ (KcpSend.Step.write _ 0 rpcTwo rfl rfl)) rfl)
    (.cons ⟨rfl, rfl⟩ (.up _ _ _ (.read _ (rpcOne ++ rpcTwo) [] _ _ _ (by decide) rfl rfl rpc_read_both _ (.arrive _ 3 _ rfl (by decide))) rfl)
    (.cons ⟨rfl, rfl⟩ (.up _ _ _ (.work _ _ (by intro _ h; cases h) _ (.deliver _ 3 (rpcReq 0) [rpcReq 1] rfl (by decide))) rfl)
    (.cons ⟨rfl, rfl⟩ (.up _ _ _ (.work _ _ (by intro _ h; cases h) _ (.deliver _ 3 (rpcReq 1) [] rfl (by decide))) rfl)
    (.cons ⟨rfl, rfl⟩ (.start _ 1 (rpcReq 0) _ rfl (.work _ _ (by intro _ h; cases h) _ (.take _ 1 (rpcReq 0) [rpcReq 1] rfl rfl)))
    (.cons ⟨rfl, rfl⟩ (.call _ 1 0 (rpcGot 7) (5, [7]) _ rfl rfl rfl (KcpSend.Step.call _ 1 rpcOne .buff rfl))
    (.cons ⟨rfl, rfl⟩ (.down _ _ _ rfl (by intro w; rfl) (KcpSend.Step.buffOpen _ 1 rpcOne rfl rfl))
    (.cons ⟨rfl, rfl⟩ (.down _ _ _ rfl (by intro w; rfl) (KcpSend.Step.isNil _ 1 rpcOne false rfl rfl))
    (.cons ⟨rfl, rfl⟩ (.down _ _ _ rfl (by intro w; rfl) (KcpSend.Step.make _ 1 rpcOne false rfl))
    (.cons ⟨rfl, rfl⟩ (.down _ _ _ rfl (by intro w; rfl) (KcpSend.Step.eval _ 1 rpcOne false 0 rfl rfl))
    (.cons ⟨rfl, rfl⟩ (.ret _ 1 0 (5, [7]) _ _ rfl rfl (KcpSend.Step.enq _ 1 rpcOne false 0 rfl rfl (by decide)))
    (.cons ⟨rfl, rfl⟩ (.finish _ 1 (rpcReq 0) .returned _ rfl rfl (.work _ _ (by intro _ h; cases h) _ (.finish _ 1 (rpcReq 0) .returned rfl)))
    (.cons ⟨rfl, rfl⟩ (.start _ 1 (rpcReq 1) _ rfl (.work _ _ (by intro _ h; cases h) _ (.take _ 1 (rpcReq 1) [] rfl rfl)))
    (.cons ⟨rfl, rfl⟩ (.call _ 1 1 (rpcGot 8) (5, [8]) _ rfl rfl rfl (KcpSend.Step.call _ 1 rpcTwo .buff rfl))
    (.cons ⟨rfl, rfl⟩ (.down _ _ _ rfl (by intro w; rfl) (KcpSend.Step.buffOpen _ 1 rpcTwo rfl rfl))
    (.cons ⟨rfl, rfl⟩ (.down _ _ _ rfl (by intro w; rfl) (KcpSend.Step.notNil _ 1 rpcTwo false 0 rfl rfl))
    (.cons ⟨rfl, rfl⟩ (.down _ _ _ rfl (by intro w; rfl) (KcpSend.Step.eval _ 1 rpcTwo false 0 rfl rfl))
    (.cons ⟨rfl, rfl⟩ (.ret _ 1 1 (5, [8]) _ _ rfl rfl (KcpSend.Step.enq _ 1 rpcTwo false 0 rfl rfl (by decide)))
    (.cons ⟨rfl, rfl⟩ (.finish _ 1 (rpcReq 1) .returned _ rfl rfl (.work _ _ (by intro _ h; cases h) _ (.finish _ 1 (rpcReq 1) .returned rfl)))
    (.cons ⟨rfl, rfl⟩ (.down _ _ _ rfl (by intro w; rfl) (KcpSend.Step.weval _ 0 0 rfl rfl))
    (.cons ⟨rfl, rfl⟩ (.down _ _ _ rfl (by intro w; rfl) (KcpSend.Step.recv _ 0 0 rpcOne [rpcTwo] rfl rfl))
    (.cons ⟨rfl, rfl⟩ (.down _ _ _ rfl (by intro w; rfl) (KcpSend.Step.wOpen _ 0 rpcOne rfl rfl rfl))
    (.cons ⟨rfl, rfl⟩ (.down _ _ _ rfl (by intro w; rfl) (KcpSend.Step.wwrite _ 0 rpcOne rfl rfl))
    (.cons ⟨rfl, rfl⟩ (.down _ _ _ rfl (by intro w; rfl) (KcpSend.Step.weval _ 0 0 rfl rfl))
    (.cons ⟨rfl, rfl⟩ (.down _ _ _ rfl (by intro w; rfl) (KcpSend.Step.recv _ 0 0 rpcTwo [] rfl rfl))
    (.cons ⟨rfl, rfl⟩ (.down _ _ _ rfl (by intro w; rfl) (KcpSend.Step.wOpen _ 0 rpcTwo rfl rfl rfl))
    (.cons ⟨rfl, rfl⟩ (.down _ _ _ rfl (by intro w; rfl) (KcpSend.Step.wwrite _ 0 rpcTwo rfl rfl))
    (.cons ⟨rfl, rfl⟩ (.down _ _ _ rfl (by intro w; rfl) (KcpSend.Step.weval _ 0 0 rfl rfl))
    (.cons ⟨rfl, rfl⟩ (.read _ (rpcOne ++ rpcTwo) [] _ _ _ (by decide) rfl rfl rpc_read_both)
    (.nil ⟨rfl, rfl⟩)))))))))))))))))))))))))))))))))), by
    constructor
    · rfl
    · exact ⟨rfl, rfl⟩
    · intro c; by_cases h : c = 3 <;> simp [Worker.upd, h, Pipe.init, Worker.initial, init]
    · rfl
    · rfl
    · exact ⟨rfl, rfl⟩
    · rfl⟩

/-- The hypotheses of `C148_kcp_answered` hold of it, and two messages are sent. -/
example : ∃ e : Exec (Step (kcp 2 .buff) .tlv false (fun c => c % 2) 2 3 echo), e.run 0 = init _ .tlv ∧ (∀ j m, m.2.length < 2 ^ 32 - 8 → ∃ rep, echo j m = some rep ∧ rep.2.length < 2 ^ 32 - 8) ∧
    (∀ n, GoodKcp .tlv (RpcAny.upTr (e.trace n))) ∧ (∀ n, KcpFine (e.run n)) ∧ (∀ n w j rep l, e.act n = some (.ret w j rep l) → (kcp 2 .buff).ok l = true) ∧
    e.WeakFair (RpcAny.ups isRead) ∧ e.StrongFair (RpcAny.ups (byWorker (readerActs 3))) ∧ e.WeakFair (RpcAny.ups (byWorker (workerActs 1))) ∧ e.WeakFair (RpcAny.decides 1) ∧
    e.WeakFair (RpcAny.downs (KcpSend.Label.of 1)) ∧ e.WeakFair (RpcAny.downs (KcpSend.Label.writer 0)) ∧ e.WeakFair RpcAny.clientRead ∧
    KcpSend.wire (Pipe.sendTr (RpcAny.upTr (e.trace 6))) = [(5, [7]), (5, [8])].map (packOf .tlv) := by
  obtain ⟨s, h1, h2⟩ := kcpServed_run
  obtain ⟨e, e1, e2, e3, e4⟩ := Exec.ofStepsAll h1
  have htr := e.trace_of_act e2
  have hmem : ∀ n l, l ∈ e.trace n → l ∈ kcpServed := fun n l hl => List.mem_of_mem_take (htr n ▸ hl)
  have ups_no : ∀ A : Pipe.Label KcpSend.Label → Prop, (∀ l t, A l → ¬ Pipe.Step (KcpSend.Step 2) Pipe.kcpWritten .tlv false (fun c => c % 2) 2 3 s.up l t) →
      ¬ Enabled (Step (kcp 2 .buff) .tlv false (fun c => c % 2) 2 3 echo) (RpcAny.ups A) s := fun A h hE => let ⟨l, t, hA, hs⟩ := RpcAny.ups_enabled hE; h l t hA hs
  have downs_no : ∀ A : KcpSend.Label → Prop, (∀ l t, A l → ¬ KcpSend.Step 2 s.snd l t) →
      ¬ Enabled (Step (kcp 2 .buff) .tlv false (fun c => c % 2) 2 3 echo) (RpcAny.downs A) s := fun A h hE => let ⟨l, t, hA, hs⟩ := RpcAny.downs_enabled hE; h l t hA hs
  have hfine : KcpFine s := h1.last
  obtain ⟨r1, ⟨r4, r4'⟩, r5, r6, r7, ⟨r8, r8'⟩, r9⟩ := h2
  have quiet : ∀ (u : KcpSend.State) l t, u.s 1 = .idle → u.w 0 = .sel 0 → u.chan 0 = ⟨[], false⟩ → u.cancelled = false → KcpSend.Step 2 u l t → ¬ KcpSend.Label.of 1 l ∧ ¬ KcpSend.Label.writer 0 l := by
    intro u l t g1 g2 g3 g4 hs
    cases hs <;> simp only [KcpSend.Label.of, KcpSend.Label.writer, not_false_eq_true, and_self, and_true, true_and] <;> intro hx <;> subst hx <;> simp_all
  refine ⟨e, e1, fun j m h => ⟨m, rfl, h⟩, fun n i m q hm => ?_, e3, fun n w j rep l ha => ?_, Exec.weakFair_of_end e4 (ups_no _ fun l t hA hs => ?_), Exec.strongFair_of_end e4 (ups_no _ fun l t hA hs => ?_),
    Exec.weakFair_of_end e4 (ups_no _ fun l t hA hs => ?_), Exec.weakFair_of_end e4 (fun ⟨l, t, hA, hs⟩ => ?_),
    Exec.weakFair_of_end e4 (downs_no _ fun l t hA hs => (quiet _ l t r7 r8 r8' hfine.1 hs).1 hA), Exec.weakFair_of_end e4 (downs_no _ fun l t hA hs => (quiet _ l t r7 r8 r8' hfine.1 hs).2 hA),
    Exec.weakFair_of_end e4 (fun ⟨l, t, hA, hs⟩ => ?_), by rw [htr]; decide +kernel⟩
  · have hx : KcpSend.Label.call i m q ∈ [KcpSend.Label.call 0 rpcOne .send, .rlock 0, .write 0 rpcOne, .call 0 rpcTwo .send, .rlock 0, .write 0 rpcTwo] := mem_sendTr.2 (up_mem (hmem n _ (mem_up hm)))
    simp at hx
    rcases hx with ⟨_, rfl, _⟩ | ⟨_, rfl, _⟩
    · exact ⟨(5, [7]), by decide, by decide +kernel⟩
    · exact ⟨(5, [8]), by decide, by decide +kernel⟩
  · rw [e2] at ha
    have ha := List.mem_of_getElem? ha
    simp [kcpServed] at ha
    rcases ha with ⟨_, _, _, rfl⟩ | ⟨_, _, _, rfl⟩ <;> rfl
  · exact (calm r1 r5 ⟨r4, r4'⟩ hs).1 hA
  · exact (calm r1 r5 ⟨r4, r4'⟩ hs).2.1 hA
  · exact (calm r1 r5 ⟨r4, r4'⟩ hs).2.2 hA
  · cases hs <;> simp only [RpcAny.decides] at hA <;> subst hA <;> simp_all
  · cases hs <;> simp only [RpcAny.clientRead] at hA
    rename_i hx hf _ _
    rw [r9] at hf
    exact hx (List.append_eq_nil_iff.1 hf.symm).1

end Zinx.Props
