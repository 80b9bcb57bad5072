import Verif.Model.Send
import Verif.Model.WsSend
import Verif.Model.KcpSend

/-! # C86: a send call has one outcome, and it is about its own message

The calls of one goroutine (on a TCP connection: its buffered and its direct calls, counted apart) are seen as a list of events; `SendsWell` says that calls and returns alternate, that only
buffered calls queue and only direct calls write, that what a call queues is its message, that what it writes is a part of its message, from its start and in order, and that it returns nil having
written if it has written the whole. -/

namespace Zinx.Props

/-- What can be seen of a goroutine that sends. -/
inductive SendEvent where
  | call (buffered : Bool) (m : List UInt8)
  /-- the message is queued; nil is returned -/
  | queued (m : List UInt8)
  /-- bytes are written to the connection -/
  | piece (x : List UInt8)
  /-- nil is returned by a direct send of the message -/
  | sent (m : List UInt8)
  /-- an error is returned, or the call panics -/
  | failed

/-- Where a goroutine is: in no call; in a call, with what it has to send and what it has written of it. -/
inductive Sending where
  | idle
  | buffered (m : List UInt8)
  | direct (m out : List UInt8)

/-- `none`: the goroutine does something wrong. -/
def sendsNext : Sending → SendEvent → Option Sending
  | .idle, .call true m => some (.buffered m)
  | .idle, .call false m => some (.direct m [])
  | .buffered m, .queued x => if x = m then some .idle else none
  | .buffered _, .failed => some .idle
  | .direct m out, .piece x => if out ++ x <+: m then some (.direct m (out ++ x)) else none
  | .direct m out, .sent x => if x = m ∧ out = m then some .idle else none
  | .direct _ _, .failed => some .idle
  | _, _ => none

def SendsWell (es : List SendEvent) : Prop := es.foldlM sendsNext .idle ≠ none

/-- Not well: two calls without a return, a return without a call, another message, success before all is written, bytes written twice. -/
example : ¬ SendsWell [.call true [1], .call true [1]] ∧ ¬ SendsWell [.failed] ∧ ¬ SendsWell [.call true [1], .queued [2]] ∧ ¬ SendsWell [.call true [1], .piece [1]] ∧
    ¬ SendsWell [.call false [1, 2], .piece [1], .sent [1, 2]] ∧ ¬ SendsWell [.call false [1, 2], .piece [1], .piece [1]] := by
  simp [SendsWell, sendsNext]

theorem sendsWell_of {S L : Type} {step : S → L → S → Prop} (ev : L → List SendEvent) (In : Sending → S → Prop)
    (hstep : ∀ s l t o, In o s → step s l t → ∃ o', (ev l).foldlM sendsNext o = some o' ∧ In o' t) {s t : S} {ls : List L} (h : Steps step s ls t) (h0 : In .idle s) :
    SendsWell (ls.flatMap ev) := by
  have := h.invariant_trace (P := fun ls s => ∃ o, (ls.flatMap ev).foldlM sendsNext .idle = some o ∧ In o s) ?_ ⟨.idle, rfl, h0⟩
  · obtain ⟨o, h, _⟩ := this
    rw [SendsWell, h]
    nofun
  · intro ls s l t ⟨o, h1, h2⟩ hs
    obtain ⟨o', h3, h4⟩ := hstep s l t o h2 hs
    refine ⟨o', ?_, h4⟩
    rw [List.flatMap_append, List.foldlM_append, h1, ← h3]
    simp

/-! ## TCP -/

section
open Zinx.Send

/-- The buffered calls of goroutine `i`. -/
def tcpBuffered (i : Nat) : Send.Label → List SendEvent
  | .call j m => if j = i then [.call true m] else []
  | .enq j m => if j = i then [.queued m] else []
  | .retErr j | .panic j => if j = i then [.failed] else []
  | _ => []

/-- The direct calls of goroutine `i`. -/
def tcpDirect (i : Nat) : Send.Label → List SendEvent
  | .dcall j m => if j = i then [.call false m] else []
  | .dwrite j m true => if j = i then [.piece m, .sent m] else []
  | .dwrite j x false => if j = i then [.piece x, .failed] else []
  | .dretErr j => if j = i then [.failed] else []
  | _ => []

/-- What the program counter says about the call. -/
def tcpBuffIn (o : Sending) : Send.BPc → Prop
  | .idle => o = .idle
  | .test m | .cas m | .make m | .check m | .sel m _ => o = .buffered m
  | .closing => ∃ m, o = .buffered m

def tcpDirIn (o : Sending) : Send.DPc → Prop
  | .idle => o = .idle
  | .check m | .write m => o = .direct m []

theorem tcpBuff_step {cc bc i : Nat} {s t : Send.State} {l : Send.Label} {o : Sending} (h : tcpBuffIn o (s.b i)) (hs : Send.Step cc bc s l t) :
    ∃ o', (tcpBuffered i l).foldlM sendsNext o = some o' ∧ tcpBuffIn o' (t.b i) := by
  cases hs <;> simp only [tcpBuffered, Send.set] <;> first | exact ⟨o, rfl, h⟩ | skip
  all_goals
    split
    · subst_vars
      simp_all [tcpBuffIn, sendsNext]
      try (obtain ⟨m, rfl⟩ := h; simp)
    · exact ⟨o, rfl, by grind⟩

theorem tcpDir_step {cc bc i : Nat} {s t : Send.State} {l : Send.Label} {o : Sending} (h : tcpDirIn o (s.d i)) (hs : Send.Step cc bc s l t) :
    ∃ o', (tcpDirect i l).foldlM sendsNext o = some o' ∧ tcpDirIn o' (t.d i) := by
  cases hs <;> simp only [tcpDirect, Send.set] <;> first | exact ⟨o, rfl, h⟩ | skip
  all_goals
    split
    · subst_vars
      simp_all [tcpDirIn, sendsNext]
    · exact ⟨o, rfl, by grind⟩

/-- **C86** for TCP. -/
theorem C86_tcp (cc bc i : Nat) (t : Send.State) (ls : List Send.Label) (h : Steps (Send.Step cc bc) {} ls t) :
    SendsWell (ls.flatMap (tcpBuffered i)) ∧ SendsWell (ls.flatMap (tcpDirect i)) :=
  ⟨sendsWell_of _ (fun o (s : Send.State) => tcpBuffIn o (s.b i)) (fun _ _ _ _ h hs => tcpBuff_step h hs) h rfl,
    sendsWell_of _ (fun o (s : Send.State) => tcpDirIn o (s.d i)) (fun _ _ _ _ h hs => tcpDir_step h hs) h rfl⟩

/-- A buffered call that succeeds after one that times out, and a direct write cut short. -/
example : ∃ ls t, Steps (Send.Step 1 4) {} ls t ∧ ls.flatMap (tcpBuffered 0) = [.call true [1], .failed, .call true [2], .queued [2]] ∧
    ls.flatMap (tcpDirect 0) = [.call false [3, 4], .piece [3], .failed] :=
  ⟨_, _, .cons (.call _ 0 [1] rfl) (.cons (.testNil _ 0 [1] rfl rfl) (.cons (.casWin _ 0 [1] rfl rfl) (.cons (.make _ 0 [1] rfl) (.cons (.checkOpen _ 0 [1] rfl rfl) (.cons (.timeout _ 0 [1] true rfl)
    (.cons (.call _ 0 [2] rfl) (.cons (.testSome _ 0 [2] rfl (by simp)) (.cons (.checkOpen _ 0 [2] rfl rfl) (.cons (.enq _ 0 [2] ⟨[], false⟩ rfl rfl rfl (by decide))
    (.cons (.dcall _ 0 [3, 4] rfl) (.cons (.dcheckOpen _ 0 [3, 4] rfl rfl) (.cons (.dwritePart _ 0 [3, 4] [3] rfl rfl ⟨[4], rfl⟩) (.nil _))))))))))))), rfl, rfl⟩

end

/-! ## WebSocket -/

section
open Zinx.WsSend

/-- The calls of goroutine `i`. -/
def wsCalls (i : Nat) : WsSend.Label → List SendEvent
  | .call j m b => if j = i then [.call b m] else []
  | .enq j m => if j = i then [.queued m] else []
  | .write j x => if j = i then [.piece x] else []
  | .ret j m => if j = i then [.sent m] else []
  | .refuse j | .retErr j | .panic j => if j = i then [.failed] else []
  | _ => []

def wsIn (o : Sending) : WsSend.SPc → Prop
  | .idle => o = .idle
  | .want m true => o = .buffered m
  | .want m false => o = .direct m []
  | .write x r => o = .direct (x ++ r) x
  | .sel m => o = .buffered m

theorem wsIn_step {cc i : Nat} {s t : WsSend.State} {l : WsSend.Label} {o : Sending} (h : wsIn o (s.s i)) (hs : WsSend.Step cc s l t) :
    ∃ o', (wsCalls i l).foldlM sendsNext o = some o' ∧ wsIn o' (t.s i) := by
  cases hs <;> simp only [wsCalls, WsSend.set] <;> first | exact ⟨o, rfl, h⟩ | skip
  case call j m b _ =>
    split
    · subst_vars
      cases b <;> simp_all [wsIn, sendsNext]
    · exact ⟨o, rfl, by grind⟩
  all_goals
    split
    · subst_vars
      simp_all [wsIn, sendsNext]
    · exact ⟨o, rfl, by grind⟩

/-- **C86** for WebSocket. -/
theorem C86_ws (cc i : Nat) (t : WsSend.State) (ls : List WsSend.Label) (h : Steps (WsSend.Step cc) {} ls t) : SendsWell (ls.flatMap (wsCalls i)) :=
  sendsWell_of _ (fun o (s : WsSend.State) => wsIn o (s.s i)) (fun _ _ _ _ h hs => wsIn_step h hs) h rfl

/-- A direct send in two pieces, then a buffered one. -/
example : ∃ ls t, Steps (WsSend.Step 1) {} ls t ∧ ls.flatMap (wsCalls 0) = [.call false [1, 2], .piece [1], .piece [2], .sent [1, 2], .call true [3], .queued [3]] :=
  ⟨_, _, .cons (.call _ 0 [1, 2] false rfl) (.cons (.directOpen _ 0 [1, 2] rfl rfl rfl) (.cons (.write _ 0 [] [1] [2] rfl (by simp) rfl) (.cons (.write _ 0 [1] [2] [] rfl (by simp) rfl)
    (.cons (.writeEnd _ 0 [1, 2] rfl rfl) (.cons (.call _ 0 [3] true rfl) (.cons (.buffOpen _ 0 [3] rfl rfl rfl) (.cons (.enq _ 0 [3] ⟨[], false⟩ rfl rfl rfl (by decide)) (.nil _)))))))), rfl⟩

end

/-! ## KCP -/

section
open Zinx.KcpSend

/-- The calls of goroutine `i`. -/
def kcpCalls (i : Nat) : KcpSend.Label → List SendEvent
  | .call j m k => if j = i then [.call (k == .queue || k == .buff) m] else []
  | .enq j m _ => if j = i then [.queued m] else []
  | .write j m => if j = i then [.piece m, .sent m] else []
  | .retErr j | .panic j => if j = i then [.failed] else []
  | _ => []

def kcpIn (o : Sending) : KcpSend.SPc → Prop
  | .idle => o = .idle
  | .mcheck m | .swant m | .write m => o = .direct m []
  | .bcheck m | .qwant m | .nil m _ | .make m _ | .qcheck m | .eval m _ | .sel m _ _ => o = .buffered m

theorem kcpIn_step {cc i : Nat} {s t : KcpSend.State} {l : KcpSend.Label} {o : Sending} (h : kcpIn o (s.s i)) (hs : KcpSend.Step cc s l t) :
    ∃ o', (kcpCalls i l).foldlM sendsNext o = some o' ∧ kcpIn o' (t.s i) := by
  cases hs <;> simp only [kcpCalls, KcpSend.set] <;> first | exact ⟨o, rfl, h⟩ | skip
  case call j m k _ =>
    split
    · subst_vars
      cases k <;> simp_all [kcpIn, KcpSend.entry] <;> rfl
    · exact ⟨o, rfl, by grind⟩
  all_goals
    split
    · subst_vars
      simp_all [kcpIn, sendsNext]
      try (rename Bool => r; cases r <;> simp)
    · exact ⟨o, rfl, by grind⟩

/-- **C86** for KCP. -/
theorem C86_kcp (cc i : Nat) (t : KcpSend.State) (ls : List KcpSend.Label) (h : Steps (KcpSend.Step cc) {} ls t) : SendsWell (ls.flatMap (kcpCalls i)) :=
  sendsWell_of _ (fun o (s : KcpSend.State) => kcpIn o (s.s i)) (fun _ _ _ _ h hs => kcpIn_step h hs) h rfl

/-- A direct send, then a buffered one. -/
example : ∃ ls t, Steps (KcpSend.Step 1) {} ls t ∧ ls.flatMap (kcpCalls 0) = [.call false [2], .piece [2], .sent [2], .call true [1], .queued [1]] :=
  ⟨_, _, .cons (.call _ 0 [2] .msg rfl) (.cons (.msgOpen _ 0 [2] rfl rfl) (.cons (.sendOpen _ 0 [2] rfl rfl rfl) (.cons (.write _ 0 [2] rfl rfl) (.cons (.call _ 0 [1] .buff rfl)
    (.cons (.buffOpen _ 0 [1] rfl rfl) (.cons (.isNil _ 0 [1] false rfl rfl) (.cons (.make _ 0 [1] false rfl) (.cons (.eval _ 0 [1] false 0 rfl rfl)
    (.cons (.enq _ 0 [1] false 0 rfl rfl (by decide)) (.nil _)))))))))), rfl⟩

end

end Zinx.Props
