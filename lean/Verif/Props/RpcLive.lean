import Verif.Props.Rpc

/-!
# C105: every request is answered
-/

namespace Zinx.Props

open Zinx Zinx.Rpc

variable {cc bc : Nat} {k : Decoder.Kind} {b : Bool} {wid : Nat → Nat} {cap c : Nat} {direct : Bool} {f : Nat → Msg → Option Msg}

/-- An action on the way of the requests. -/
def ups (A : Pipe.Label Send.Label → Prop) : Rpc.Label → Prop
  | .up l => A l
  | _ => False

/-- An action of the server's sending. -/
def downs (A : Send.Label → Prop) : Rpc.Label → Prop
  | .down l => A l
  | .ret _ _ _ l => A l
  | .call _ _ _ l => A l
  | _ => False

/-- The handler on worker `w` calls the send method, or does without. -/
def decides (w : Nat) : Rpc.Label → Prop
  | .call w' _ _ _ => w' = w
  | .skip w' _ => w' = w
  | _ => False

/-- A step of worker `w` in the send method, up to its return. -/
def sends (w : Nat) : Rpc.Label → Prop
  | .down l => l = .inside w ∨ l = .dinside w
  | .ret w' _ _ _ => w' = w
  | _ => False

def clientRead : Rpc.Label → Prop
  | .read _ => True
  | _ => False

/-! ## Projections -/

def upExec (e : Exec (Rpc.Step cc bc k b wid cap c direct f)) : Exec (Pipe.Step (Send.Step cc bc) Pipe.tcpWritten k b wid cap c) where
  run n := (e.run n).up
  act n := match e.act n with
    | some (.up l) => some l
    | _ => none
  next n := by
    have hn := e.next n
    cases ha : e.act n with
    | none => rw [ha] at hn; dsimp only at hn ⊢; rw [hn]
    | some l =>
      rw [ha] at hn
      dsimp only at hn
      generalize e.run (n + 1) = t at hn
      cases hn <;> first | rfl | assumption

def sndExec (e : Exec (Rpc.Step cc bc k b wid cap c direct f)) : Exec (Send.Step cc bc) where
  run n := (e.run n).snd
  act n := match e.act n with
    | some (.down l) => some l
    | some (.ret _ _ _ l) => some l
    | some (.call _ _ _ l) => some l
    | _ => none
  next n := by
    have hn := e.next n
    cases ha : e.act n with
    | none => rw [ha] at hn; dsimp only at hn ⊢; rw [hn]
    | some l =>
      rw [ha] at hn
      dsimp only at hn
      generalize e.run (n + 1) = t at hn
      cases hn <;> first | rfl | assumption

theorem upExec_trace (e : Exec (Rpc.Step cc bc k b wid cap c direct f)) (n : Nat) : (upExec e).trace n = upTr (e.trace n) := by
  induction n with
  | zero => rfl
  | succ n ih =>
    show (upExec e).trace n ++ ((upExec e).act n).toList = upTr (e.trace n ++ (e.act n).toList)
    rw [ih, upTr, upTr, List.filterMap_append]
    congr 1
    show (match e.act n with | some (.up l) => some l | _ => none : Option (Pipe.Label Send.Label)).toList = _
    cases e.act n with
    | none => rfl
    | some l => cases l <;> rfl

theorem sndExec_trace (e : Exec (Rpc.Step cc bc k b wid cap c direct f)) (n : Nat) : (sndExec e).trace n = downTr (e.trace n) := by
  induction n with
  | zero => rfl
  | succ n ih =>
    show (sndExec e).trace n ++ ((sndExec e).act n).toList = downTr (e.trace n ++ (e.act n).toList)
    rw [ih, downTr, downTr, List.filterMap_append]
    congr 1
    show (match e.act n with | some (.down l) => some l | some (.ret _ _ _ l) => some l | some (.call _ _ _ l) => some l | _ => none : Option Send.Label).toList = _
    cases e.act n with
    | none => rfl
    | some l => cases l <;> rfl

theorem upExec_weak {e : Exec (Rpc.Step cc bc k b wid cap c direct f)} {A : Pipe.Label Send.Label → Prop} (hA0 : ∀ l, A l → handles c l = false) (h : e.WeakFair (ups A)) : (upExec e).WeakFair A := by
  intro n hn
  obtain ⟨m, l, hm, ha, hA⟩ := h n fun m hm => let ⟨l, t, hA, hs⟩ := hn m hm; ⟨.up l, _, hA, .up _ l t hs (hA0 l hA)⟩
  cases l <;> simp only [ups] at hA
  exact ⟨m, _, hm, by simp [upExec, ha], hA⟩

theorem upExec_strong {e : Exec (Rpc.Step cc bc k b wid cap c direct f)} {A : Pipe.Label Send.Label → Prop} (hA0 : ∀ l, A l → handles c l = false) (h : e.StrongFair (ups A)) : (upExec e).StrongFair A := by
  intro n hn
  obtain ⟨m, l, hm, ha, hA⟩ := h n fun m hm => let ⟨x, hx, l, t, hA, hs⟩ := hn m hm; ⟨x, hx, .up l, _, hA, .up _ l t hs (hA0 l hA)⟩
  cases l <;> simp only [ups] at hA
  exact ⟨m, _, hm, by simp [upExec, ha], hA⟩

theorem sndExec_weak {e : Exec (Rpc.Step cc bc k b wid cap c direct f)} {A : Send.Label → Prop} (hA0 : ∀ l, A l → isCall l = false ∧ ∀ w, isRet w l = false) (h : e.WeakFair (downs A)) : (sndExec e).WeakFair A := by
  intro n hn
  obtain ⟨m, l, hm, ha, hA⟩ := h n fun m hm => let ⟨l, t, hA, hs⟩ := hn m hm; ⟨.down l, _, hA, .down _ l t (hA0 l hA).1 (hA0 l hA).2 hs⟩
  cases l <;> simp only [downs] at hA <;> exact ⟨m, _, hm, by simp [sndExec, ha], hA⟩

theorem sndExec_strong {e : Exec (Rpc.Step cc bc k b wid cap c direct f)} {A : Send.Label → Prop} (hA0 : ∀ l, A l → isCall l = false ∧ ∀ w, isRet w l = false) (h : e.StrongFair (downs A)) : (sndExec e).StrongFair A := by
  intro n hn
  obtain ⟨m, l, hm, ha, hA⟩ := h n fun m hm => let ⟨x, hx, l, t, hA, hs⟩ := hn m hm; ⟨x, hx, .down l, _, hA, .down _ l t (hA0 l hA).1 (hA0 l hA).2 hs⟩
  cases l <;> simp only [downs] at hA <;> exact ⟨m, _, hm, by simp [sndExec, ha], hA⟩

theorem ups_enabled {A : Pipe.Label Send.Label → Prop} {s : Rpc.State} (h : Enabled (Rpc.Step cc bc k b wid cap c direct f) (ups A) s) : Enabled (Pipe.Step (Send.Step cc bc) Pipe.tcpWritten k b wid cap c) A s.up := by
  obtain ⟨l, t, hA, hs⟩ := h
  cases hs <;> simp only [ups] at hA
  · exact ⟨_, _, hA, by assumption⟩
  · exact ⟨_, _, hA, by assumption⟩
  · exact ⟨_, _, hA, by assumption⟩

/-! ## Handlers get done -/

/-- Worker `w` handles a request of connection `c`. -/
def ServesConn (c : Nat) (s : Worker.State) (w : Nat) : Prop := ∃ r, s.worker w = .busy r ∧ r.conn = some c

theorem serves_other {st t : Pipe.State Send.State} {l : Pipe.Label Send.Label} (h : Pipe.Step (Send.Step cc bc) Pipe.tcpWritten k b wid cap c st l t) (hl : handles c l = false) (w : Nat) :
    ServesConn c t.wk w ↔ ServesConn c st.wk w := by
  have work : ∀ a wt, Worker.Step b wid cap st.wk a wt → (∀ v r, a = .start v r → ¬ r.conn = some c) → (∀ v r o, a = .finish v r o → ¬ r.conn = some c) → (ServesConn c wt w ↔ ServesConn c st.wk w) := by
    intro a wt hw g1 g2
    cases hw with
    | take v r rest h1 h2 =>
      by_cases e : w = v
      · subst e
        refine ⟨fun ⟨r', hb, hr⟩ => ?_, fun ⟨r', hb, hr⟩ => ?_⟩
        · simp [Worker.upd] at hb; subst hb; exact absurd hr (g1 _ _ rfl)
        · rw [h1] at hb; cases hb
      · simp [ServesConn, Worker.upd, e]
    | finish v r o h1 =>
      by_cases e : w = v
      · subst e
        refine ⟨fun ⟨r', hb, hr⟩ => ?_, fun ⟨r', hb, hr⟩ => ?_⟩
        · simp [Worker.upd] at hb; split at hb <;> cases hb
        · rw [h1] at hb; cases hb; exact absurd hr (g2 _ _ _ rfl)
      · simp [ServesConn, Worker.upd, e]
    | _ => exact Iff.rfl
  cases h with
  | send => exact Iff.rfl
  | read x y d ms sta hx hf hd hr t hw => exact work _ _ hw nofun nofun
  | work a ha t hw =>
    refine work _ _ hw (fun v r e => ?_) (fun v r o e => ?_)
    · subst e; simpa [handles] using hl
    · subst e; simpa [handles] using hl

/-- Worker, handler and send method go together. -/
def Linked (c : Nat) (s : Rpc.State) : Prop :=
  (∀ w, s.h w ≠ .idle ↔ ServesConn c s.up.wk w) ∧ ∀ w, (∀ j rep, s.h w ≠ .called j rep) → s.snd.b w = .idle ∧ s.snd.d w = .idle

theorem send_idle {s t : Send.State} {l : Send.Label} (h : Send.Step cc bc s l t) (w : Nat) (hc : ∀ m, l ≠ .call w m ∧ l ≠ .dcall w m) (hi : s.b w = .idle ∧ s.d w = .idle) : t.b w = .idle ∧ t.d w = .idle := by
  obtain ⟨h1, h2⟩ := hi
  cases h <;> simp_all [Send.set] <;> grind

theorem ret_idle {s t : Send.State} {l : Send.Label} (h : Send.Step cc bc s l t) (w : Nat) (hl : isRet w l = true) : (t.b w = .idle ∧ t.d w = s.d w ∧ s.b w ≠ .idle) ∨ (t.d w = .idle ∧ t.b w = s.b w ∧ s.d w ≠ .idle) := by
  cases h <;> simp_all [Send.set, isRet]

theorem linked {ls : List Rpc.Label} {s : Rpc.State} (h : Steps (Rpc.Step cc bc k b wid cap c direct f) (Rpc.init k) ls s) : Linked c s := by
  refine (h.invariant_trace (P := fun ls s => Steps (Rpc.Step cc bc k b wid cap c direct f) (Rpc.init k) ls s ∧ Linked c s) ?_ ⟨.nil _, ⟨fun w => ⟨fun h => absurd rfl h, fun ⟨r, hr, _⟩ => by cases hr⟩, fun _ _ => ⟨rfl, rfl⟩⟩⟩).2
  intro ls s l t ⟨h0, h1, h2⟩ hs
  refine ⟨h0.snoc hs, ?_⟩
  have same : ∀ w v u, s.h w ≠ .idle → v ≠ .idle → (Rpc.set s.h w v u ≠ .idle ↔ ServesConn c s.up.wk u) := by
    intro w v u hw hv
    rw [← h1 u]
    by_cases e : u = w
    · subst e; simp [Rpc.set, hw, hv]
    · simp [Rpc.set, e]
  cases hs with
  | up l t' hs hl => exact ⟨fun w => (h1 w).trans (serves_other hs hl w).symm, h2⟩
  | start w r t' hr hs =>
    cases hs with
    | work a ha t' hw =>
      cases hw with
      | take _ _ rest g1 g2 =>
        have hidle : s.h w = .idle := Classical.byContradiction fun hne => by
          obtain ⟨r', hb, _⟩ := (h1 w).1 hne
          rw [g1] at hb; cases hb
        refine ⟨fun u => ?_, fun u hu => ?_⟩
        · by_cases e : u = w
          · subst e
            simp only [Rpc.set, if_true]
            exact ⟨fun _ => ⟨r, by simp [Worker.upd], hr⟩, fun _ => nofun⟩
          · simp only [Rpc.set, e, if_false]
            rw [h1 u]
            simp [ServesConn, Worker.upd, e]
        · by_cases e : u = w
          · subst e; exact h2 u (by rw [hidle]; exact nofun)
          · exact h2 u (by simpa [Rpc.set, e] using hu)
  | finish w r o t' hr hh hs =>
    cases hs with
    | work a ha t' hw =>
      cases hw with
      | finish _ _ _ g1 =>
        refine ⟨fun u => ?_, fun u hu => ?_⟩
        · by_cases e : u = w
          · subst e
            simp only [Rpc.set, if_true]
            refine ⟨fun h => absurd rfl h, fun ⟨r', hb, _⟩ => ?_⟩
            simp [Worker.upd] at hb; split at hb <;> cases hb
          · simp only [Rpc.set, e, if_false]
            rw [h1 u]
            simp [ServesConn, Worker.upd, e]
        · by_cases e : u = w
          · subst e; exact h2 u (by rw [hh]; exact nofun)
          · exact h2 u (by simpa [Rpc.set, e] using hu)
  | call w j m rep t' hh hm hf hs =>
    refine ⟨fun u => same w _ u (by rw [hh]; exact nofun) nofun, fun u hu => ?_⟩
    by_cases e : u = w
    · subst e; exact absurd (by simp [Rpc.set]) (hu j rep)
    · refine send_idle hs u (fun m => ?_) (h2 u (by simpa [Rpc.set, e] using hu))
      unfold callLabel
      constructor <;> (split <;> simp; try (intro e'; exact absurd e'.symm e))
  | skip w j m hh hm hf =>
    refine ⟨fun u => same w _ u (by rw [hh]; exact nofun) nofun, fun u hu => ?_⟩
    by_cases e : u = w
    · subst e; exact h2 u (by rw [hh]; exact nofun)
    · exact h2 u (by simpa [Rpc.set, e] using hu)
  | ret w j rep l t' hh hl hs =>
    refine ⟨fun u => same w _ u (by rw [hh]; exact nofun) nofun, fun u hu => ?_⟩
    by_cases e : u = w
    · subst e
      have hr := ret_idle hs u hl
      cases direct with
      | false =>
        have hq := (queue_inv h0).quiet u
        rcases hr with ⟨g1, g2, _⟩ | ⟨_, _, g⟩
        · exact ⟨g1, g2.trans hq⟩
        · exact absurd hq g
      | true =>
        obtain ⟨T, hT⟩ := direct_inv h0
        have hq := hT.quiet u
        rcases hr with ⟨_, _, g⟩ | ⟨g1, g2, _⟩
        · exact absurd hq g
        · exact ⟨g2.trans hq, g1⟩
    · refine send_idle hs u (fun m => ?_) (h2 u (by simpa [Rpc.set, e] using hu))
      constructor <;> (intro e'; subst e'; simp [isRet] at hl)
  | down l t' hc hl hs =>
    refine ⟨h1, fun u hu => send_idle hs u (fun m => ?_) (h2 u hu)⟩
    constructor <;> (intro e'; subst e'; simp [isCall] at hc)
  | read => exact ⟨h1, h2⟩
  | begins => exact ⟨h1, h2⟩
  | ends => exact ⟨h1, h2⟩

/-- Reachable. -/
def RpcReach (cc bc : Nat) (k : Decoder.Kind) (b : Bool) (wid : Nat → Nat) (cap c : Nat) (direct : Bool) (f : Nat → Msg → Option Msg) (s : Rpc.State) : Prop :=
  ∃ ls, Steps (Rpc.Step cc bc k b wid cap c direct f) (Rpc.init k) ls s

theorem got_exists {s : Rpc.State} (h : RpcReach cc bc k b wid cap c direct f s) {w j : Nat} (hh : s.h w = .got j) : ∃ m, s.up.msgs[j]? = some m := by
  obtain ⟨ls, h⟩ := h
  obtain ⟨a, hi⟩ := hand_inv h
  have hp : ∃ n, n = s.up.msgs.length ∧ handled c ls <+: Worker.sequential (Pipe.requests c 0 n) := by
    have hi := Pipe.inv (rpc_inv h).up
    have hf := C27_fifo_one_at_a_time (fun _ _ h => by cases h) hi.wk c
    rw [hi.arrived, List.nil_append] at hf
    exact ⟨_, rfl, hf⟩
  obtain ⟨n, e, hp⟩ := hp
  rcases hi.phase with ⟨_, g, _⟩ | ⟨g0, w0, g1, g2⟩
  · rw [g w] at hh; cases hh
  · rw [g0] at hp
    have hlt := (seq_begin hp).1
    have ew : w = w0 := Classical.byContradiction fun hne => by rw [g1 w hne] at hh; cases hh
    subst ew
    have ej : j = a := by
      rcases g2 with ⟨g, _⟩ | ⟨⟨_, g, _⟩, _⟩ | ⟨g, _⟩
      · rw [g] at hh; cases hh; rfl
      · rw [g] at hh; cases hh
      · rw [g] at hh; cases hh
    subst ej
    exact ⟨s.up.msgs[j]'(by omega), List.getElem?_eq_getElem _⟩

theorem callable {s : Send.State} (w : Nat) (m : Bytes) (h : s.b w = .idle ∧ s.d w = .idle) : ∃ t, Send.Step cc bc s (callLabel direct w m) t := by
  unfold callLabel
  split
  · exact ⟨_, .dcall s w m h.2⟩
  · exact ⟨_, .call s w m h.1⟩

def dstage : Send.DPc → Nat
  | .idle => 0
  | .write _ => 1
  | .check _ => 2

theorem dstage_step {i : Nat} {s t : Send.State} {l : Send.Label} (hs : Send.Step cc bc s l t) (hl : ∀ m, l ≠ .dcall i m) :
    dstage (t.d i) + (if l = .dinside i then 1 else 0) ≤ dstage (s.d i) := by
  cases hs <;> simp_all [Send.set] <;> grind [dstage]

/-- A goroutine in a send method can go on. -/
theorem send_goes {s : Send.State} {w : Nat} (h : s.b w ≠ .idle ∨ s.d w ≠ .idle) : ∃ l t, Send.Step cc bc s l t ∧ (l = .inside w ∨ l = .dinside w ∨ isRet w l = true) := by
  by_cases hb : s.b w = .idle
  · have hd : s.d w ≠ .idle := h.resolve_left fun h => h hb
    cases e : s.d w with
    | idle => exact absurd e hd
    | check m =>
      cases hc : s.closed with
      | true => exact ⟨_, _, .dcheckClosed s w m e hc, .inr (.inr (by simp [isRet]))⟩
      | false => exact ⟨_, _, .dcheckOpen s w m e hc, .inr (.inl rfl)⟩
    | write m =>
      cases hc : s.broken with
      | true => exact ⟨_, _, .dwriteFail s w m e hc, .inr (.inr (by simp [isRet]))⟩
      | false => exact ⟨_, _, .dwrite s w m e hc, .inr (.inr (by simp [isRet]))⟩
  · obtain ⟨l, t, hs, hl⟩ := (C39_returns cc bc w).1 s hb
    refine ⟨l, t, hs, ?_⟩
    cases l <;> simp_all [ownStep, isRet]

theorem called_busy {s : Rpc.State} (h : RpcReach cc bc k b wid cap c direct f s) {w j : Nat} {rep : Msg} (hh : s.h w = .called j rep) : s.snd.b w ≠ .idle ∨ s.snd.d w ≠ .idle := by
  obtain ⟨ls, h⟩ := h
  cases direct with
  | false =>
    have := (queue_inv h).busy w j rep hh
    refine .inl fun e => ?_
    rw [e] at this; exact this
  | true =>
    obtain ⟨T, hT⟩ := direct_inv h
    rcases hT.busy w j rep hh with g | g <;> exact .inr (by rw [g]; exact nofun)

/-- The handler on worker `w`, in one step of the system. -/
theorem hand_step {s t : Rpc.State} {l : Rpc.Label} (hr : RpcReach cc bc k b wid cap c direct f s) (hs : Rpc.Step cc bc k b wid cap c direct f s l t) (w : Nat) :
    t.h w = s.h w ∨ (∃ r, l = .up (.work (.start w r)) ∧ s.h w = .idle) ∨ (∃ j, s.h w = .got j ∧ decides w l ∧ ((∃ rep, t.h w = .called j rep) ∨ t.h w = .done)) ∨
      ((∃ j rep, s.h w = .called j rep) ∧ t.h w = .done ∧ sends w l) ∨ s.h w = .done ∧ ∃ r o, l = .up (.work (.finish w r o)) := by
  obtain ⟨ls, h0⟩ := hr
  have hl := linked h0
  cases hs with
  | up => exact .inl rfl
  | start v r t' hr hs =>
    by_cases e : w = v
    · subst e
      refine .inr (.inl ⟨r, rfl, Classical.byContradiction fun hne => ?_⟩)
      obtain ⟨r', hb, _⟩ := (hl.1 w).1 hne
      cases hs with
      | work a ha t' hw => cases hw with | take _ _ rest g1 g2 => rw [g1] at hb; cases hb
    · exact .inl (by simp [Rpc.set, e])
  | call v j m rep t' hh hm hf hs =>
    by_cases e : w = v
    · subst e; exact .inr (.inr (.inl ⟨j, hh, rfl, .inl ⟨rep, by simp [Rpc.set]⟩⟩))
    · exact .inl (by simp [Rpc.set, e])
  | skip v j m hh hm hf =>
    by_cases e : w = v
    · subst e; exact .inr (.inr (.inl ⟨j, hh, rfl, .inr (by simp [Rpc.set])⟩))
    · exact .inl (by simp [Rpc.set, e])
  | ret v j rep l t' hh hl hs =>
    by_cases e : w = v
    · subst e; exact .inr (.inr (.inr (.inl ⟨⟨j, rep, hh⟩, by simp [Rpc.set], rfl⟩)))
    · exact .inl (by simp [Rpc.set, e])
  | finish v r o t' hr hh hs =>
    by_cases e : w = v
    · subst e; exact .inr (.inr (.inr (.inr ⟨hh, r, o, rfl⟩)))
    · exact .inl (by simp [Rpc.set, e])
  | down => exact .inl rfl
  | read => exact .inl rfl
  | begins => exact .inl rfl
  | ends => exact .inl rfl

section
variable (e : Exec (Rpc.Step cc bc k b wid cap c direct f)) (h0 : e.run 0 = Rpc.init k)

include h0

theorem rpc_reach (n : Nat) : RpcReach cc bc k b wid cap c direct f (e.run n) := ⟨e.trace n, h0 ▸ e.steps n⟩

/-- A handler that got a request comes to its end. -/
theorem hand_done {w : Nat} (hdec : e.WeakFair (decides w)) (hsend : e.WeakFair (sends w)) {n : Nat} (hne : (e.run n).h w ≠ .idle) : ∃ m, n ≤ m ∧ (e.run m).h w = .done := by
  have hcalled : ∀ n, (∃ j rep, (e.run n).h w = .called j rep) → ∃ m, n ≤ m ∧ (e.run m).h w = .done := by
    intro n hc
    refine e.leads_weak_dec hsend (P := fun s => RpcReach cc bc k b wid cap c direct f s ∧ ∃ j rep, s.h w = .called j rep) (Q := fun s => s.h w = .done)
      (fun s => stage (s.snd.b w) + dstage (s.snd.d w)) ?_ ?_ ?_ ⟨rpc_reach e h0 n, hc⟩
    · intro s l t ⟨hr, j, rep, hh⟩ hs
      rcases hand_step hr hs w with g | ⟨_, _, g⟩ | ⟨_, g, _⟩ | ⟨_, g, _⟩ | ⟨g, _⟩
      · refine .inl ⟨⟨⟨_, hr.choose_spec.snoc hs⟩, j, rep, g.trans hh⟩, ?_⟩
        have one : ∀ l' t', Send.Step cc bc s.snd l' t' → (∀ m, l' ≠ .call w m ∧ l' ≠ .dcall w m) → stage (t'.b w) + dstage (t'.d w) ≤ stage (s.snd.b w) + dstage (s.snd.d w) := by
          intro l' t' hs' hc'
          have := stage_step (i := w) hs' fun m => (hc' m).1
          have := dstage_step (i := w) hs' fun m => (hc' m).2
          omega
        cases hs with
        | call v j' m rep' t' hh' hm hf hs =>
          refine one _ _ hs fun m => ?_
          have hne : v ≠ w := by rintro rfl; rw [hh] at hh'; cases hh'
          unfold callLabel
          constructor <;> (split <;> simp [hne])
        | ret v j' rep' l t' hh' hl hs =>
          refine one _ _ hs fun m => ?_
          constructor <;> (intro e'; subst e'; simp [isRet] at hl)
        | down l t' hc' hl hs =>
          refine one _ _ hs fun m => ?_
          constructor <;> (intro e'; subst e'; simp [isCall] at hc')
        | _ => exact Nat.le_refl _
      · rw [hh] at g; cases g
      · rw [hh] at g; cases g
      · exact .inr g
      · rw [hh] at g; cases g
    · intro s l t ⟨hr, j, rep, hh⟩ hs hA
      cases hs with
      | down l t' hc' hl hs =>
        refine .inl ⟨⟨⟨_, hr.choose_spec.snoc (.down s l t' hc' hl hs)⟩, j, rep, hh⟩, ?_⟩
        have g1 := stage_step (i := w) hs fun m e' => by subst e'; simp [isCall] at hc'
        have g2 := dstage_step (i := w) hs fun m e' => by subst e'; simp [isCall] at hc'
        rcases hA with rfl | rfl
        · simp [ownStep] at g1; simp at g2; dsimp only; omega
        · simp only [if_true] at g2; dsimp only; omega
      | ret v j' rep' l t' hh' hl hs =>
        have : v = w := hA
        subst this
        exact .inr (by simp [Rpc.set])
      | _ => cases hA
    · intro s ⟨hr, j, rep, hh⟩
      obtain ⟨l, t, hs, hl⟩ := send_goes (cc := cc) (bc := bc) (called_busy hr hh)
      by_cases hret : isRet w l = true
      · exact ⟨.ret w j rep l, _, rfl, .ret s w j rep l t hh hret hs⟩
      · rcases hl with rfl | rfl | hl
        · exact ⟨.down (.inside w), _, .inl rfl, .down s _ t rfl (fun _ => rfl) hs⟩
        · exact ⟨.down (.dinside w), _, .inr rfl, .down s _ t rfl (fun _ => rfl) hs⟩
        · exact absurd hl hret
  cases hh : (e.run n).h w with
  | idle => exact absurd hh hne
  | done => exact ⟨n, Nat.le_refl _, hh⟩
  | called j rep => exact hcalled n ⟨j, rep, hh⟩
  | got j =>
    obtain ⟨m, hm, hq⟩ := e.leads_weak hdec (P := fun s => RpcReach cc bc k b wid cap c direct f s ∧ s.h w = .got j) (Q := fun s => (∃ j rep, s.h w = .called j rep) ∨ s.h w = .done)
      (by
        intro s l t ⟨hr, hh⟩ hs
        rcases hand_step hr hs w with g | ⟨_, _, g⟩ | ⟨_, g, _, g'⟩ | ⟨⟨_, _, g⟩, _⟩ | ⟨g, _⟩
        · exact .inl ⟨⟨_, hr.choose_spec.snoc hs⟩, g.trans hh⟩
        · rw [hh] at g; cases g
        · rcases g' with ⟨rep, g'⟩ | g'
          · exact .inr (.inl ⟨_, rep, g'⟩)
          · exact .inr (.inr g')
        · rw [hh] at g; cases g
        · rw [hh] at g; cases g)
      (by
        intro s l t ⟨hr, hh⟩ hs hA
        cases hs with
        | call v j' m rep t' hh' hm hf hs =>
          have : v = w := hA
          subst this
          exact .inl ⟨j', rep, by simp [Rpc.set]⟩
        | skip v j' m hh' hm hf =>
          have : v = w := hA
          subst this
          exact .inr (by simp [Rpc.set])
        | _ => cases hA)
      (by
        intro s ⟨hr, hh⟩
        obtain ⟨m, hm⟩ := got_exists hr hh
        cases hf : f j (key m) with
        | none => exact ⟨.skip w j, _, rfl, .skip s w j m hh hm hf⟩
        | some rep =>
          obtain ⟨t, ht⟩ := callable (cc := cc) (bc := bc) (direct := direct) w (packed k rep) ((linked hr.choose_spec).2 w fun _ _ => by rw [hh]; exact nofun)
          exact ⟨.call w j rep _, _, rfl, .call s w j m rep t hh hm hf ht⟩)
      ⟨rpc_reach e h0 n, hh⟩
    rcases hq with hq | hq
    · obtain ⟨m', hm', h⟩ := hcalled m hq
      exact ⟨m', by omega, h⟩
    · exact ⟨m, hm, hq⟩

/-- The worker runs, handlers do something, the send method goes on: then the worker's queue is served. -/
theorem up_worker {w : Nat} (hwk : e.WeakFair (ups (byWorker (workerActs w)))) (hdec : e.WeakFair (decides w)) (hsend : e.WeakFair (sends w)) : (upExec e).WeakFair (byWorker (workerActs w)) := by
  intro n hen
  apply Classical.byContradiction
  intro hno
  have hno' : ∀ m l, n ≤ m → e.act m = some l → ¬ ups (byWorker (workerActs w)) l := by
    intro m l hm ha hA
    cases l <;> simp only [ups] at hA
    exact hno ⟨m, _, hm, by simp [upExec, ha], hA⟩
  suffices H : ∃ m, n ≤ m ∧ ∀ m', m ≤ m' → Enabled (Rpc.Step cc bc k b wid cap c direct f) (ups (byWorker (workerActs w))) (e.run m') by
    obtain ⟨m, hm, hE⟩ := H
    obtain ⟨m', l, hm', ha, hA⟩ := hwk m hE
    exact hno' m' l (by omega) ha hA
  by_cases hall : ∀ m, n ≤ m → (e.run m).h w = .idle
  · refine ⟨n, Nat.le_refl _, fun m hm => ?_⟩
    obtain ⟨l, t, hA, hs⟩ := hen m hm
    by_cases hl : handles c l = false
    · exact ⟨.up l, _, hA, .up _ l t hs hl⟩
    · cases l with
      | send => simp [handles] at hl
      | read => simp [handles] at hl
      | work a =>
        cases a with
        | arrive => simp [handles] at hl
        | submit => simp [handles] at hl
        | start v r => exact ⟨.up (.work (.start v r)), _, hA, .start _ v r t (by simpa [handles] using hl) hs⟩
        | finish v r o =>
          have hv : v = w := hA
          subst hv
          have hr : r.conn = some c := by simpa [handles] using hl
          cases hs with
          | work a ha t hw =>
            cases hw with
            | finish _ _ _ g => exact absurd (hall m hm) (((linked (rpc_reach e h0 m).choose_spec).1 v).2 ⟨r, g, hr⟩)
  · have : ∃ m, n ≤ m ∧ (e.run m).h w ≠ .idle := Classical.byContradiction fun h => hall fun m hm => Classical.byContradiction fun h' => h ⟨m, hm, h'⟩
    obtain ⟨m0, hm0, hne⟩ := this
    obtain ⟨m, hm, hd⟩ := hand_done e h0 hdec hsend hne
    have hstay : ∀ m', m ≤ m' → (e.run m').h w = .done := by
      intro m' hm'
      induction m' with
      | zero => have : m = 0 := by omega
                subst this; exact hd
      | succ m' ih =>
        by_cases e1 : m = m' + 1
        · rw [← e1]; exact hd
        have hp := ih (by omega)
        have hn := e.next m'
        cases ha : e.act m' with
        | none => rw [ha] at hn; rw [hn]; exact hp
        | some l =>
          rw [ha] at hn
          rcases hand_step (rpc_reach e h0 m') hn w with g | ⟨_, _, g⟩ | ⟨_, g, _⟩ | ⟨⟨_, _, g⟩, _⟩ | ⟨g, r, o, rfl⟩
          · exact g.trans hp
          · rw [hp] at g; cases g
          · rw [hp] at g; cases g
          · rw [hp] at g; cases g
          · exact absurd (show ups (byWorker (workerActs w)) (.up (.work (.finish w r o))) from rfl) (hno' m' _ (by omega) ha)
    refine ⟨m, by omega, fun m' hm' => ?_⟩
    have hd' := hstay m' hm'
    obtain ⟨r, hb, hr⟩ := ((linked (rpc_reach e h0 m').choose_spec).1 w).1 (by rw [hd']; exact nofun)
    exact ⟨.up (.work (.finish w r .returned)), _, rfl, .finish _ w r .returned _ hr hd' (.work _ _ (fun _ h => by cases h) _ (.finish _ w r .returned hb))⟩

/-- The client reads what has been written. -/
theorem client_read (hrun : ∀ n, ∃ d, (e.run n).rcv = .running d) (hrd : e.WeakFair clientRead) (N n : Nat) (hN : N ≤ ((downTr (e.trace n)).flatMap Pipe.tcpWritten).length) :
    ∃ m, n ≤ m ∧ N ≤ (clientReads (e.trace m)).flatten.length := by
  have happ : ∀ a b : List Rpc.Label, (clientReads (a ++ b)).flatten.length = (clientReads a).flatten.length + (clientReads b).flatten.length := by
    intro a b; simp [clientReads, List.filterMap_append]
  have hwire : ∀ m, n ≤ m → N ≤ ((downTr (e.trace m)).flatMap Pipe.tcpWritten).length := by
    intro m hm
    obtain ⟨x, hx⟩ := e.trace_prefix hm
    rw [← hx, down_append, List.flatMap_append, List.length_append]
    omega
  suffices H : ∀ v m, n ≤ m → N - (clientReads (e.trace m)).flatten.length ≤ v → ∃ m', m ≤ m' ∧ N ≤ (clientReads (e.trace m')).flatten.length from H _ n (Nat.le_refl _) (Nat.le_refl _)
  intro v
  induction v with
  | zero => intro m _ hv; exact ⟨m, Nat.le_refl _, by omega⟩
  | succ v ih =>
    intro m hm hv
    by_cases hd : N ≤ (clientReads (e.trace m)).flatten.length
    · exact ⟨m, Nat.le_refl _, hd⟩
    have hmono : ∀ j, m ≤ j → (clientReads (e.trace m)).flatten.length ≤ (clientReads (e.trace j)).flatten.length := by
      intro j hj
      obtain ⟨x, hx⟩ := e.trace_prefix hj
      rw [← hx, happ]; omega
    by_cases hE : ∀ j, m ≤ j → Enabled (Rpc.Step cc bc k b wid cap c direct f) clientRead (e.run j)
    · obtain ⟨j, l, hj, ha, hA⟩ := hrd m hE
      have hn := e.next j
      rw [ha] at hn
      obtain ⟨m', hm', h⟩ := ih (j + 1) (by omega) (by
        show N - (clientReads (e.trace j ++ (e.act j).toList)).flatten.length ≤ v
        have := hmono j hj
        rw [ha, happ]
        cases l <;> simp only [clientRead] at hA
        rename_i x
        generalize e.run (j + 1) = t at hn
        cases hn with
        | read x y d ms sta hx =>
          have : 0 < x.length := List.length_pos_iff.2 hx
          simp [clientReads] at *
          omega)
      exact ⟨m', by omega, h⟩
    · have : ∃ j, m ≤ j ∧ ¬ Enabled (Rpc.Step cc bc k b wid cap c direct f) clientRead (e.run j) :=
        Classical.byContradiction fun h => hE fun j hj => Classical.byContradiction fun h' => h ⟨j, hj, h'⟩
      obtain ⟨j, hj, hno⟩ := this
      refine ⟨j, hj, ?_⟩
      have hi := rpc_inv (h0 ▸ e.steps j)
      have hfl := congrArg List.length hi.flight
      rw [List.length_append] at hfl
      have hemp : (e.run j).flight = [] := by
        apply Classical.byContradiction
        intro hne
        obtain ⟨d, hrd⟩ := hrun j
        cases hr : Decoder.receive k d [(e.run j).flight] with
        | mk ms sta => exact hno ⟨.read (e.run j).flight, _, trivial, .read _ _ [] d ms sta hne (by simp) hrd hr⟩
      rw [hemp, List.length_nil] at hfl
      have := hwire j (by omega)
      omega

/-- **C105**, every request is answered. Neither connection is stopped and the network works; the client sends buffered; every handler replies, and no send of a reply fails. Then for all messages the client has queued
at some point there is a time when it has received the replies: the `i`-th message received is the reply to the `i`-th sent. Fairness: the writers run and their `select`s do not for ever ignore a branch that is ready again
and again; the readers run, and the server's reader is not refused for ever a queue in which there is room again and again; the worker of the connection runs, its handlers call the send method, and a send goes on until it
returns. -/
theorem C105_answered (hk : k ≠ .htlv) (hf : ∀ j m, m.2.length < 2 ^ 32 - 8 → ∃ rep, f j m = some rep ∧ rep.2.length < 2 ^ 32 - 8)
    (hg : ∀ n, GoodClient k true (upTr (e.trace n))) (hup : ∀ n, (e.run n).up.snd.closed = false ∧ (e.run n).up.snd.broken = false) (hdown : ∀ n, (e.run n).snd.closed = false ∧ (e.run n).snd.broken = false)
    (hok : ∀ n w j rep l, e.act n = some (.ret w j rep l) → sentOk l = true)
    (hcw : e.WeakFair (ups (bySender Send.Inner))) (hcr : e.StrongFair (ups (bySender fun l => l = .recv))) (hct : e.StrongFair (ups (bySender fun l => l = .tick)))
    (hsr : e.WeakFair (ups isRead)) (hsd : e.StrongFair (ups (byWorker (readerActs c)))) (hwk : e.WeakFair (ups (byWorker (workerActs (wid c)))))
    (hdec : e.WeakFair (decides (wid c))) (hsend : e.WeakFair (sends (wid c)))
    (hsw : e.WeakFair (downs Send.Inner)) (hsr' : e.StrongFair (downs fun l => l = .recv)) (hst : e.StrongFair (downs fun l => l = .tick)) (hrd : e.WeakFair clientRead) (n : Nat) :
    ∃ reqs : List Msg, Send.enqOf (Pipe.sendTr (upTr (e.trace n))) = reqs.map (packOf k) ∧
      ∃ m, n ≤ m ∧ reqs.length ≤ (e.run m).msgs.length ∧ ∀ (i : Nat) (q : Msg), reqs[i]? = some q → (e.run m).msgs[i]?.map key = f i q := by
  have hst0 : ∀ n, Steps (Rpc.Step cc bc k b wid cap c direct f) (Rpc.init k) (e.trace n) (e.run n) := fun n => h0 ▸ e.steps n
  have hokt : ∀ n w j rep l, .ret w j rep l ∈ e.trace n → sentOk l = true := fun n w j rep l hl => let ⟨m, _, ha⟩ := e.mem_trace hl; hok m w j rep l ha
  -- requests are handled
  obtain ⟨msgs, hmsgs, m1, hm1, hseen⟩ := C84_arrives (upExec e) (by show (e.run 0).up = _; rw [h0]; rfl) hk hup (fun n => by rw [upExec_trace]; exact (hg n).1) (fun n => by rw [upExec_trace]; exact (hg n).2)
    (upExec_weak (fun l hl => by cases l <;> first | rfl | cases hl) hcw) (upExec_strong (fun l hl => by cases l <;> first | rfl | cases hl) hcr)
    (upExec_strong (fun l hl => by cases l <;> first | rfl | cases hl) hct) (upExec_weak (fun l hl => by cases l <;> first | rfl | cases hl) hsr)
    (up_worker e h0 hwk hdec hsend) (upExec_strong (fun l hl => by
      cases l with
      | work a => cases a <;> first | rfl | cases hl
      | _ => cases hl) hsd) n
  rw [upExec_trace] at hmsgs hseen
  -- all handlers up to then have replied
  have hsett : ∀ n, (okReplies (e.trace n)).map asSettled = settledReplies (e.trace n) ∧ ∀ p ∈ okReplies (e.trace n), p.2.2.length < 2 ^ 32 - 8 := by
    intro n
    obtain ⟨reqs, _, h2, hlen⟩ := up_msgs (rpc_inv (hst0 n)).up hk (hg n)
    have hu : ∀ m ∈ (e.run n).up.msgs, (key m).2.length < 2 ^ 32 - 8 := fun m hm => hlen _ (h2.subset (List.mem_map_of_mem hm))
    obtain ⟨a, hh⟩ := hand_inv (hst0 n)
    have hall := all_ok (fun p hp e' => by
      obtain ⟨m, hx, hm⟩ := hh.settled p hp
      obtain ⟨rep, e'', _⟩ := hf p.1 (key m) (hu m (List.mem_of_getElem? hx))
      rw [hm, e'] at e''; cases e'') (hokt n)
    refine ⟨hall, fun p hp => ?_⟩
    obtain ⟨m, hx, hm⟩ := hh.settled (asSettled p) (hall ▸ List.mem_map_of_mem hp)
    obtain ⟨rep, e'', hl⟩ := hf p.1 (key m) (hu m (List.mem_of_getElem? hx))
    simp only [asSettled] at hm
    rw [hm] at e''; cases e''; exact hl
  have hcount : msgs.length ≤ (okReplies (e.trace m1)).length := by
    have hl := hseen.length_le
    have e1 : (oneByOne msgs).length = 2 * msgs.length := by
      clear hmsgs hseen hl
      induction msgs with
      | nil => rfl
      | cons m ms ih => simp only [oneByOne, List.flatMap_cons, List.length_append, List.length_cons, List.length_nil] at ih ⊢; omega
    rw [e1, List.length_map] at hl
    change 2 * msgs.length ≤ (handled c (e.trace m1)).length at hl
    have e2 := congrArg List.length (hsett m1).1
    rw [List.length_map] at e2
    obtain ⟨a, hh⟩ := hand_inv (hst0 m1)
    have hreq : (Pipe.requests c 0 a).length = a := by simp [Pipe.requests]
    rcases hh.phase with ⟨g1, _, g2⟩ | ⟨g1, _, _, ⟨_, g2⟩ | ⟨_, g2⟩ | ⟨_, g2⟩⟩
    all_goals
      have g2 := congrArg List.length g2
      rw [List.length_map, List.length_range] at g2
      rw [g1] at hl
      simp only [List.length_append, seq_length, hreq, List.length_cons, List.length_nil] at hl
      omega
  -- the stream of replies
  have hstream : ∀ n, (downTr (e.trace n)).flatMap Pipe.tcpWritten <+: ((okReplies (e.trace n)).map fun p => packed k p.2).flatten := by
    intro n
    cases direct with
    | false =>
      have hq := queue_inv (hst0 n)
      rw [tcp_wire, wire_buffered _ hq.none, ← hq.enq]
      exact (Send.stream_steps (rpc_inv (hst0 n)).snd).pre
    | true =>
      obtain ⟨T, hT⟩ := direct_inv (hst0 n)
      rw [tcp_wire, (C38_partial cc bc _ _ (rpc_inv (hst0 n)).snd).2 hT.none]
      obtain ⟨g1, g2⟩ := hT.whole (hdown n).2
      rw [g2, g1]; exact List.prefix_rfl
  -- all replies are written
  have hwritten : ∃ m2, m1 ≤ m2 ∧ (((okReplies (e.trace m1)).map fun p => packed k p.2).flatten).length ≤ ((downTr (e.trace m2)).flatMap Pipe.tcpWritten).length := by
    cases direct with
    | true =>
      refine ⟨m1, Nat.le_refl _, ?_⟩
      obtain ⟨T, hT⟩ := direct_inv (hst0 m1)
      rw [tcp_wire, (C38_partial cc bc _ _ (rpc_inv (hst0 m1)).snd).2 hT.none]
      obtain ⟨g1, g2⟩ := hT.whole (hdown m1).2
      rw [g2, g1]; exact Nat.le_refl _
    | false =>
      have hq := queue_inv (hst0 m1)
      rw [← hq.enq]
      by_cases hne : Send.enqOf (downTr (e.trace m1)) = []
      · exact ⟨m1, Nat.le_refl _, by rw [hne]; exact Nat.zero_le _⟩
      have hin : ∀ l, Send.Inner l → isCall l = false ∧ ∀ w, isRet w l = false := by
        rintro l (rfl | ⟨x, rfl⟩) <;> exact ⟨rfl, fun _ => rfl⟩
      obtain ⟨m2, hm2, hwr⟩ := Send.all_written (sndExec e) (by show (e.run 0).snd = _; rw [h0]; rfl) hdown (sndExec_weak hin hsw) (sndExec_strong (by rintro l rfl; exact ⟨rfl, fun _ => rfl⟩) hsr')
        (sndExec_strong (by rintro l rfl; exact ⟨rfl, fun _ => rfl⟩) hst) (n := m1) (enq_writer (rpc_inv (hst0 m1)).snd hne)
      rw [sndExec_trace, sndExec_trace] at hwr
      exact ⟨m2, hm2, by rw [tcp_wire, wire_buffered _ (queue_inv (hst0 m2)).none]; exact hwr.length_le⟩
  obtain ⟨m2, hm2, hlen⟩ := hwritten
  -- and read
  have hrecv : ∀ n, ∃ N, (e.run n).msgs.map key = ((okReplies (e.trace n)).map (·.2)).take N ∧ (∃ d, (e.run n).rcv = .running d) ∧
      ∀ j, j ≤ (okReplies (e.trace n)).length → ((((okReplies (e.trace n)).map (·.2)).take j).map (packOf k)).flatten.length ≤ (clientReads (e.trace n)).flatten.length → j ≤ N := by
    intro n
    have hi := rpc_inv (hst0 n)
    obtain ⟨N, g1, g2, g3⟩ := recv_prefix hk ((okReplies (e.trace n)).map (·.2)) (fun m hm => by
      obtain ⟨p, hp, rfl⟩ := List.mem_map.1 hm
      exact (hsett n).2 p hp) (clientReads (e.trace n)) (.trans (hi.flight ▸ List.prefix_append _ _) (by rw [List.map_map]; exact hstream n))
    rw [hi.rcv] at g1 g2
    exact ⟨N, g1, g2, fun j hj => g3 j (by simpa using hj)⟩
  obtain ⟨m3, hm3, hread⟩ := client_read e h0 (fun n => let ⟨_, _, h, _⟩ := hrecv n; h) hrd _ m2 hlen
  have hgot : msgs.length ≤ (e.run m3).msgs.length := by
    obtain ⟨N, g1, _, g3⟩ := hrecv m3
    obtain ⟨x, hx⟩ := e.trace_prefix (show m1 ≤ m3 by omega)
    have hpre : okReplies (e.trace m3) = okReplies (e.trace m1) ++ okReplies x := by rw [← hx, ok_append]
    have hle : (okReplies (e.trace m1)).length ≤ (okReplies (e.trace m3)).length := by rw [hpre, List.length_append]; omega
    have := g3 (okReplies (e.trace m1)).length hle (by
      rw [hpre, List.map_append, List.take_append_of_le_length (by simp), List.take_of_length_le (by simp), List.map_map]
      exact hread)
    have hl := congrArg List.length g1
    rw [List.length_map, List.length_take, List.length_map] at hl
    omega
  obtain ⟨reqs, g1, g2, g3⟩ := C105_in_step (hst0 m3) hk (hg m3) hf (hokt m3)
  change Send.enqOf (Pipe.sendTr (upTr (e.trace m3))) = reqs.map (packOf k) at g1
  have hpre : Send.enqOf (Pipe.sendTr (upTr (e.trace n))) = (reqs.take msgs.length).map (packOf k) := by
    obtain ⟨x, hx⟩ := e.trace_prefix (show n ≤ m3 by omega)
    have e1 : Send.enqOf (Pipe.sendTr (upTr (e.trace m3))) = Send.enqOf (Pipe.sendTr (upTr (e.trace n))) ++ Send.enqOf (Pipe.sendTr (upTr x)) := by
      rw [← hx]; simp only [upTr, Pipe.sendTr, List.filterMap_append, Send.enqOf_append]
    have e2 : (Send.enqOf (Pipe.sendTr (upTr (e.trace n)))).length = msgs.length := by rw [hmsgs, List.length_map]
    rw [List.map_take, ← g1, e1, List.take_append_of_le_length (by omega), List.take_of_length_le (by omega)]
  refine ⟨reqs.take msgs.length, hpre, m3, by omega, by rw [List.length_take]; omega, fun i q hq => ?_⟩
  have hi : i < msgs.length := by
    have := (List.getElem?_eq_some_iff.1 hq).1
    rw [List.length_take] at this; omega
  exact g3 i q (by omega) (by rw [List.getElem?_take] at hq; simpa [hi] using hq)

end

/-! ### Example -/

/-- The client queues one message, the server reads it in two pieces, handles it and queues the reply, which the client reads in two pieces. -/
def answerRun : List Rpc.Label := [.up (.send (.call 0 pipeBytes)), .up (.send (.inside 0)), .up (.send (.inside 0)), .up (.send (.inside 0)), .up (.send (.inside 0)), .up (.send (.enq 0 pipeBytes)), .up (.send .recv),
  .up (.send .winside), .up (.send .winside), .up (.send .tick), .up (.send .winside), .up (.send (.wwrite pipeBytes)), .up (.read [0, 0, 0, 5, 0] []), .up (.read [0, 0, 1, 7] [pipeReq]),
  .up (.work (.submit 1 pipeReq)), .up (.work (.start 1 pipeReq)), .call 1 0 (5, [7]) (.call 1 pipeBytes), .down (.inside 1), .down (.inside 1), .down (.inside 1), .down (.inside 1),
  .ret 1 0 (5, [7]) (.enq 1 pipeBytes), .up (.work (.finish 1 pipeReq .returned)), .down .recv, .down .winside, .down .winside, .down .tick, .down .winside, .down (.wwrite pipeBytes), .read [0, 0, 0, 5, 0],
  .read [0, 0, 1, 7]]

/-- After that the writers tick for ever. -/
def answerCyc : List Rpc.Label := [.up (.send .tick), .up (.send .winside), .up (.send .winside), .down .tick, .down .winside, .down .winside]

def AnswerOpen (s : Rpc.State) : Prop := (s.up.snd.closed = false ∧ s.up.snd.broken = false) ∧ s.snd.closed = false ∧ s.snd.broken = false

/-- Nothing is on its way. -/
def AnswerRest (s : Rpc.State) : Prop := AnswerOpen s ∧ (s.up.flight = [] ∧ s.flight = []) ∧ (s.up.snd.chan = some ⟨[], false⟩ ∧ s.snd.chan = some ⟨[], false⟩) ∧ (s.up.wk.queue 1 = [] ∧ s.up.wk.worker 1 = .idle) ∧
  (∀ c, s.up.wk.todo c = []) ∧ s.h 1 = .idle ∧ s.snd.b 1 = .idle ∧ s.snd.d 1 = .idle

theorem answer_example : ∃ s, StepsAll (Rpc.Step 1 16 .tlv false (fun c => c % 2) 1 3 false echo) AnswerOpen (Rpc.init .tlv) answerRun s ∧
    StepsAll (Rpc.Step 1 16 .tlv false (fun c => c % 2) 1 3 false echo) AnswerRest s answerCyc s := by
  have r1 : Decoder.receive .tlv (pipeDec []) [[0, 0, 0, 5, 0]] = ([], .running (pipeDec [0, 0, 0, 5, 0])) := by decide +kernel
  have r2 : Decoder.receive .tlv (pipeDec [0, 0, 0, 5, 0]) [[0, 0, 1, 7]] = ([({ Pack.newMsgPackage 5 [7] with rawData := pipeBytes }, some (.tlv 5 1 [7]))], .running (pipeDec [])) := by decide +kernel
  refine ⟨_, .cons ⟨⟨rfl, rfl⟩, rfl, rfl⟩ (.up _ _ _ (.send _ _ _ (.call _ 0 pipeBytes rfl)) rfl)
    (.cons ⟨⟨rfl, rfl⟩, rfl, rfl⟩ (.up _ _ _ (.send _ _ _ (.testNil _ 0 pipeBytes rfl rfl)) rfl)
    (.cons ⟨⟨rfl, rfl⟩, rfl, rfl⟩ (.up _ _ _ (.send _ _ _ (.casWin _ 0 pipeBytes rfl rfl)) rfl)
    (.cons ⟨⟨rfl, rfl⟩, rfl, rfl⟩ (.up _ _ _ (.send _ _ _ (.make _ 0 pipeBytes rfl)) rfl)
    (.cons ⟨⟨rfl, rfl⟩, rfl, rfl⟩ (.up _ _ _ (.send _ _ _ (.checkOpen _ 0 pipeBytes rfl rfl)) rfl)
    (.cons ⟨⟨rfl, rfl⟩, rfl, rfl⟩ (.up _ _ _ (.send _ _ _ (.enq _ 0 pipeBytes _ rfl rfl rfl (by decide))) rfl)
    (.cons ⟨⟨rfl, rfl⟩, rfl, rfl⟩ (.up _ _ _ (.send _ _ _ (.recv _ pipeBytes [] false rfl rfl)) rfl)
    (.cons ⟨⟨rfl, rfl⟩, rfl, rfl⟩ (.up _ _ _ (.send _ _ _ (.gotOpen _ pipeBytes rfl rfl)) rfl)
    (.cons ⟨⟨rfl, rfl⟩, rfl, rfl⟩ (.up _ _ _ (.send _ _ _ (.putRest _ pipeBytes rfl rfl (by decide))) rfl)
    (.cons ⟨⟨rfl, rfl⟩, rfl, rfl⟩ (.up _ _ _ (.send _ _ _ (.tick _ rfl)) rfl)
    (.cons ⟨⟨rfl, rfl⟩, rfl, rfl⟩ (.up _ _ _ (.send _ _ _ (.flushOpen _ rfl rfl)) rfl)
    (.cons ⟨⟨rfl, rfl⟩, rfl, rfl⟩ (.up _ _ _ (.send _ _ _ (.flushWrite _ rfl rfl (by decide) rfl)) rfl)
    (.cons ⟨⟨rfl, rfl⟩, rfl, rfl⟩ (.up _ _ _ (.read _ [0, 0, 0, 5, 0] [0, 0, 1, 7] (pipeDec []) [] _ (by decide) rfl rfl r1 _ (.arrive _ 3 _ rfl nofun)) rfl)
    (.cons ⟨⟨rfl, rfl⟩, rfl, rfl⟩ (.up _ _ _ (.read _ [0, 0, 1, 7] [] (pipeDec [0, 0, 0, 5, 0]) _ _ (by decide) rfl rfl r2 _ (.arrive _ 3 _ rfl (by decide))) rfl)
    (.cons ⟨⟨rfl, rfl⟩, rfl, rfl⟩ (.up _ _ _ (.work _ _ (by intro _ h; cases h) _ (.deliver _ 3 _ [] rfl (by decide))) rfl)
    (.cons ⟨⟨rfl, rfl⟩, rfl, rfl⟩ (.start _ 1 pipeReq _ rfl (.work _ _ (by intro _ h; cases h) _ (.take _ 1 _ [] rfl rfl)))
    (.cons ⟨⟨rfl, rfl⟩, rfl, rfl⟩ (.call _ 1 0 _ (5, [7]) _ rfl rfl rfl (.call _ 1 pipeBytes rfl))
    (.cons ⟨⟨rfl, rfl⟩, rfl, rfl⟩ (.down _ _ _ rfl (by intro w; rfl) (.testNil _ 1 pipeBytes rfl rfl))
    (.cons ⟨⟨rfl, rfl⟩, rfl, rfl⟩ (.down _ _ _ rfl (by intro w; rfl) (.casWin _ 1 pipeBytes rfl rfl))
    (.cons ⟨⟨rfl, rfl⟩, rfl, rfl⟩ (.down _ _ _ rfl (by intro w; rfl) (.make _ 1 pipeBytes rfl))
    (.cons ⟨⟨rfl, rfl⟩, rfl, rfl⟩ (.down _ _ _ rfl (by intro w; rfl) (.checkOpen _ 1 pipeBytes rfl rfl))
    (.cons ⟨⟨rfl, rfl⟩, rfl, rfl⟩ (.ret _ 1 0 (5, [7]) _ _ rfl rfl (.enq _ 1 pipeBytes _ rfl rfl rfl (by decide)))
    (.cons ⟨⟨rfl, rfl⟩, rfl, rfl⟩ (.finish _ 1 pipeReq .returned _ rfl rfl (.work _ _ (by intro _ h; cases h) _ (.finish _ 1 _ _ rfl)))
    (.cons ⟨⟨rfl, rfl⟩, rfl, rfl⟩ (.down _ _ _ rfl (by intro w; rfl) (.recv _ pipeBytes [] false rfl rfl))
    (.cons ⟨⟨rfl, rfl⟩, rfl, rfl⟩ (.down _ _ _ rfl (by intro w; rfl) (.gotOpen _ pipeBytes rfl rfl))
    (.cons ⟨⟨rfl, rfl⟩, rfl, rfl⟩ (.down _ _ _ rfl (by intro w; rfl) (.putRest _ pipeBytes rfl rfl (by decide)))
    (.cons ⟨⟨rfl, rfl⟩, rfl, rfl⟩ (.down _ _ _ rfl (by intro w; rfl) (.tick _ rfl))
    (.cons ⟨⟨rfl, rfl⟩, rfl, rfl⟩ (.down _ _ _ rfl (by intro w; rfl) (.flushOpen _ rfl rfl))
    (.cons ⟨⟨rfl, rfl⟩, rfl, rfl⟩ (.down _ _ _ rfl (by intro w; rfl) (.flushWrite _ rfl rfl (by decide) rfl))
    (.cons ⟨⟨rfl, rfl⟩, rfl, rfl⟩ (.read _ [0, 0, 0, 5, 0] [0, 0, 1, 7] (pipeDec []) [] _ (by decide) rfl rfl r1)
    (.cons ⟨⟨rfl, rfl⟩, rfl, rfl⟩ (.read _ [0, 0, 1, 7] [] (pipeDec [0, 0, 0, 5, 0]) _ _ (by decide) rfl rfl r2)
    (.nil ⟨⟨rfl, rfl⟩, rfl, rfl⟩))))))))))))))))))))))))))))))), ?_⟩
  have hrest : ∀ s : Rpc.State, AnswerOpen s → (s.up.flight = [] ∧ s.flight = []) → (s.up.snd.chan = some ⟨[], false⟩ ∧ s.snd.chan = some ⟨[], false⟩) → (s.up.wk.queue 1 = [] ∧ s.up.wk.worker 1 = .idle) →
      (∀ c, s.up.wk.todo c = []) → (s.h 1 = .idle ∧ s.snd.b 1 = .idle ∧ s.snd.d 1 = .idle) → (s.up.snd.writer = .select ∧ s.up.snd.err = false ∧ s.up.snd.buf = []) → (s.snd.writer = .select ∧ s.snd.err = false ∧ s.snd.buf = []) →
      StepsAll (Rpc.Step 1 16 .tlv false (fun c => c % 2) 1 3 false echo) AnswerRest s answerCyc s := by
    intro ⟨⟨⟨closed, broken, chan, flag, writer, buf, err, b, d⟩, flight, rcv, msgs, wk⟩, h, ⟨closed', broken', chan', flag', writer', buf', err', b', d'⟩, flight', rcv', msgs', fresh, running⟩ h1 h2 h3 h4 h7 h8 h9 h10
    simp only [AnswerOpen] at h1 h2 h3 h4 h7 h8 h9 h10
    obtain ⟨⟨rfl, rfl⟩, rfl, rfl⟩ := h1
    obtain ⟨rfl, rfl⟩ := h2
    obtain ⟨rfl, rfl⟩ := h3
    obtain ⟨h5, h6⟩ := h4
    obtain ⟨rfl, rfl, rfl⟩ := h9
    obtain ⟨rfl, rfl, rfl⟩ := h10
    exact .cons ⟨⟨⟨rfl, rfl⟩, rfl, rfl⟩, ⟨rfl, rfl⟩, ⟨rfl, rfl⟩, ⟨h5, h6⟩, h7, h8⟩ (.up _ _ _ (.send _ _ _ (.tick _ rfl)) rfl)
      (.cons ⟨⟨⟨rfl, rfl⟩, rfl, rfl⟩, ⟨rfl, rfl⟩, ⟨rfl, rfl⟩, ⟨h5, h6⟩, h7, h8⟩ (.up _ _ _ (.send _ _ _ (.flushOpen _ rfl rfl)) rfl)
      (.cons ⟨⟨⟨rfl, rfl⟩, rfl, rfl⟩, ⟨rfl, rfl⟩, ⟨rfl, rfl⟩, ⟨h5, h6⟩, h7, h8⟩ (.up _ _ _ (.send _ _ _ (.flushEmpty _ rfl rfl rfl)) rfl)
      (.cons ⟨⟨⟨rfl, rfl⟩, rfl, rfl⟩, ⟨rfl, rfl⟩, ⟨rfl, rfl⟩, ⟨h5, h6⟩, h7, h8⟩ (.down _ _ _ rfl (by intro w; rfl) (.tick _ rfl))
      (.cons ⟨⟨⟨rfl, rfl⟩, rfl, rfl⟩, ⟨rfl, rfl⟩, ⟨rfl, rfl⟩, ⟨h5, h6⟩, h7, h8⟩ (.down _ _ _ rfl (by intro w; rfl) (.flushOpen _ rfl rfl))
      (.cons ⟨⟨⟨rfl, rfl⟩, rfl, rfl⟩, ⟨rfl, rfl⟩, ⟨rfl, rfl⟩, ⟨h5, h6⟩, h7, h8⟩ (.down _ _ _ rfl (by intro w; rfl) (.flushEmpty _ rfl rfl rfl))
      (.nil ⟨⟨⟨rfl, rfl⟩, rfl, rfl⟩, ⟨rfl, rfl⟩, ⟨rfl, rfl⟩, ⟨h5, h6⟩, h7, h8⟩))))))
  exact hrest _ ⟨⟨rfl, rfl⟩, rfl, rfl⟩ ⟨rfl, rfl⟩ ⟨rfl, rfl⟩ ⟨rfl, rfl⟩ (fun c => by by_cases h : c = 3 <;> simp [Worker.upd, h, Pipe.init, Worker.initial, Rpc.init]) ⟨rfl, rfl, rfl⟩ ⟨rfl, rfl, rfl⟩ ⟨rfl, rfl, rfl⟩

theorem answer_good (l : Rpc.Label) (h : l ∈ answerRun ∨ l ∈ answerCyc) : (∀ i m, l = .up (.send (.call i m)) → m = pipeBytes) ∧ (∀ i m, l ≠ .up (.send (.dcall i m))) ∧ ∀ w j rep l', l = .ret w j rep l' → sentOk l' = true := by
  rw [← List.mem_append] at h
  simp only [answerRun, answerCyc, List.cons_append, List.nil_append, List.mem_cons, List.not_mem_nil, or_false] at h
  refine ⟨?_, ?_, ?_⟩
  · rintro i m rfl; simp at h; exact h.2
  · rintro i m rfl; simp at h
  · rintro w j rep l' rfl; simp at h; rw [h.2.2.2]; rfl

/-- The hypotheses of `C105_answered` hold of it, and one message is queued. -/
example : ∃ e : Exec (Rpc.Step 1 16 .tlv false (fun c => c % 2) 1 3 false echo), e.run 0 = Rpc.init .tlv ∧ (∀ j m, m.2.length < 2 ^ 32 - 8 → ∃ rep, echo j m = some rep ∧ rep.2.length < 2 ^ 32 - 8) ∧
    (∀ n, GoodClient .tlv true (upTr (e.trace n))) ∧ (∀ n, (e.run n).up.snd.closed = false ∧ (e.run n).up.snd.broken = false) ∧ (∀ n, (e.run n).snd.closed = false ∧ (e.run n).snd.broken = false) ∧
    (∀ n w j rep l, e.act n = some (.ret w j rep l) → sentOk l = true) ∧
    e.WeakFair (ups (bySender Send.Inner)) ∧ e.StrongFair (ups (bySender fun l => l = .recv)) ∧ e.StrongFair (ups (bySender fun l => l = .tick)) ∧
    e.WeakFair (ups isRead) ∧ e.StrongFair (ups (byWorker (readerActs 3))) ∧ e.WeakFair (ups (byWorker (workerActs 1))) ∧ e.WeakFair (decides 1) ∧ e.WeakFair (sends 1) ∧
    e.WeakFair (downs Send.Inner) ∧ e.StrongFair (downs fun l => l = .recv) ∧ e.StrongFair (downs fun l => l = .tick) ∧ e.WeakFair clientRead ∧
    Send.enqOf (Pipe.sendTr (upTr (e.trace 6))) = [packOf .tlv pipeMsg] := by
  obtain ⟨s, h1, h2⟩ := answer_example
  obtain ⟨e, e1, e2, e3, e4, e5, e6, e7⟩ := Exec.ofLasso h1 h2 (by decide) (fun _ h => h.1)
  have hsend : ∀ n l, Pipe.Label.send l ∈ upTr (e.trace n) → Rpc.Label.up (.send l) ∈ answerRun ∨ Rpc.Label.up (.send l) ∈ answerCyc := by
    intro n l hl
    obtain ⟨x, hx, ex⟩ := List.mem_filterMap.1 hl
    cases x <;> simp at ex
    subst ex
    exact e7 n _ hx
  have hret : ∀ n w j rep l, e.act n = some (.ret w j rep l) → sentOk l = true := by
    intro n w j rep l ha
    refine (answer_good _ (e7 (n + 1) (.ret w j rep l) ?_)).2.2 _ _ _ _ rfl
    show _ ∈ e.trace n ++ (e.act n).toList
    rw [ha]; exact List.mem_append_right _ (.head _)
  refine ⟨e, e1, fun j m h => ⟨m, rfl, h⟩, fun n => ⟨fun i m hm => ⟨pipeMsg, by decide, ?_⟩, fun i m hm => (answer_good _ (hsend n _ hm)).2.1 i m rfl⟩, fun n => (e3 n).1, fun n => (e3 n).2, hret,
    Exec.weakFair_of_often (e5 (.up (.send .winside)) (by simp [answerCyc])) (.inl rfl), Exec.strongFair_of_never (N := answerRun.length) (fun n hn => ?_), Exec.strongFair_of_often (e5 (.up (.send .tick)) (by simp [answerCyc])) rfl,
    Exec.weakFair_of_never (N := answerRun.length) (fun n hn => ?_), Exec.strongFair_of_never (N := answerRun.length) (fun n hn => ?_), Exec.weakFair_of_never (N := answerRun.length) (fun n hn => ?_),
    Exec.weakFair_of_never (N := answerRun.length) (fun n hn => ?_), Exec.weakFair_of_never (N := answerRun.length) (fun n hn => ?_),
    Exec.weakFair_of_often (e5 (.down .winside) (by simp [answerCyc])) (.inl rfl), Exec.strongFair_of_never (N := answerRun.length) (fun n hn => ?_), Exec.strongFair_of_often (e5 (.down .tick) (by simp [answerCyc])) rfl,
    Exec.weakFair_of_never (N := answerRun.length) (fun n hn => ?_), by rw [e2 6 (by decide)]; decide +kernel⟩
  · rw [(answer_good _ (hsend n _ hm)).1 i m rfl]; decide +kernel
  all_goals
    obtain ⟨⟨⟨_, _⟩, _, _⟩, ⟨h2, h2'⟩, ⟨h3, h3'⟩, ⟨h4, h5⟩, h6, h7, h8, h9⟩ := e4 n hn
    intro hE
    generalize e.run n = s at *
  · obtain ⟨l, t, hA, hs⟩ := ups_enabled hE
    cases hs <;> simp only [bySender] at hA
    rename_i h
    subst hA
    cases h
    grind
  · obtain ⟨l, t, hA, hs⟩ := ups_enabled hE
    cases hs <;> simp only [isRead] at hA
    rename_i hx hf _ _ _ _
    rw [h2] at hf
    exact hx (List.append_eq_nil_iff.1 hf.symm).1
  · obtain ⟨l, t, hA, hs⟩ := ups_enabled hE
    cases hs <;> simp only [byWorker] at hA
    rename_i h
    cases h <;> grind [readerActs]
  · obtain ⟨l, t, hA, hs⟩ := ups_enabled hE
    cases hs <;> simp only [byWorker] at hA
    rename_i h
    cases h <;> grind [workerActs]
  · obtain ⟨l, t, hA, hs⟩ := hE
    cases hs <;> simp only [decides] at hA <;> subst hA <;> simp_all
  · obtain ⟨l, t, hA, hs⟩ := hE
    cases hs <;> simp only [sends] at hA
    · subst hA; simp_all
    · rename_i h
      rcases hA with rfl | rfl <;> cases h <;> simp_all
  · obtain ⟨l, t, hA, hs⟩ := hE
    cases hs <;> simp only [downs] at hA
    · simp [callLabel] at hA
    · subst hA; simp_all [isRet]
    · subst hA
      rename_i h
      cases h
      simp_all
  · obtain ⟨l, t, hA, hs⟩ := hE
    cases hs <;> simp only [clientRead] at hA
    rename_i hx hf _ _
    rw [h2'] at hf
    exact hx (List.append_eq_nil_iff.1 hf.symm).1

end Zinx.Props
