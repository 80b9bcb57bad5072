import Verif.Props.RpcAny
import Verif.Props.RpcLive

/-!
# C148: every request is answered, for any way of sending
-/

namespace Zinx.RpcAny

open Rpc (Bytes Msg packed Hand key)
open Props (asSettled ServesConn byWorker bySender isRead workerActs readerActs)

variable {x : Sender} {k : Decoder.Kind} {b : Bool} {wid : Nat → Nat} {cap c : Nat} {f : Nat → Msg → Option Msg}

/-- An action on the way of the requests. -/
def ups (A : Pipe.Label x.L → Prop) : Label x → Prop
  | .up l => A l
  | _ => False

/-- An action of the server's sending. -/
def downs (A : x.L → Prop) : Label x → Prop
  | .down l => A l
  | .ret _ _ _ l => A l
  | _ => False

/-- The handler on worker `w` calls the send method, or does without. -/
def decides (w : Nat) : Label x → Prop
  | .call w' _ _ => w' = w
  | .skip w' _ => w' = w
  | _ => False

def clientRead : Label x → Prop
  | .read _ => True
  | _ => False

/-- The server's sending. -/
def sndTr (k : Decoder.Kind) (ls : List (Label x)) : List x.L := ls.filterMap fun | .down l => some l | .ret _ _ _ l => some l | .call w _ rep => some (x.call w (packed k rep)) | _ => none

/-! ## Projections -/

def upExec (e : Exec (Step x k b wid cap c f)) : Exec (Pipe.Step x.st x.wr k b wid cap c) where
  run n := (e.run n).up
  act n := match e.act n with
    | some (.up l) => some l
    | _ => none
  next n := by
    have hn := e.next n
    cases ha : e.act n with
    | none => rw [ha] at hn; dsimp only at hn ⊢; rw [hn]
    | some l =>
      rw [ha] at hn
      dsimp only at hn
      generalize e.run (n + 1) = t at hn
      cases hn <;> first | rfl | assumption

def sndExec (e : Exec (Step x k b wid cap c f)) : Exec x.st where
  run n := (e.run n).snd
  act n := match e.act n with
    | some (.down l) => some l
    | some (.ret _ _ _ l) => some l
    | some (.call w _ rep) => some (x.call w (packed k rep))
    | _ => none
  next n := by
    have hn := e.next n
    cases ha : e.act n with
    | none => rw [ha] at hn; dsimp only at hn ⊢; rw [hn]
    | some l =>
      rw [ha] at hn
      dsimp only at hn
      generalize e.run (n + 1) = t at hn
      cases hn <;> first | rfl | assumption

theorem upExec_trace (e : Exec (Step x k b wid cap c f)) (n : Nat) : (upExec e).trace n = upTr (e.trace n) := by
  induction n with
  | zero => rfl
  | succ n ih =>
    show (upExec e).trace n ++ ((upExec e).act n).toList = upTr (e.trace n ++ (e.act n).toList)
    rw [ih, upTr, upTr, List.filterMap_append]
    congr 1
    show (match e.act n with | some (.up l) => some l | _ => none : Option (Pipe.Label x.L)).toList = _
    cases e.act n with
    | none => rfl
    | some l => cases l <;> rfl

theorem sndExec_trace (e : Exec (Step x k b wid cap c f)) (n : Nat) : (sndExec e).trace n = sndTr k (e.trace n) := by
  induction n with
  | zero => rfl
  | succ n ih =>
    show (sndExec e).trace n ++ ((sndExec e).act n).toList = sndTr k (e.trace n ++ (e.act n).toList)
    rw [ih, sndTr, sndTr, List.filterMap_append]
    congr 1
    show (match e.act n with | some (.down l) => some l | some (.ret _ _ _ l) => some l | some (.call w _ rep) => some (x.call w (packed k rep)) | _ => none : Option x.L).toList = _
    cases e.act n with
    | none => rfl
    | some l => cases l <;> rfl

theorem ups_enabled {A : Pipe.Label x.L → Prop} {s : State x} (h : Enabled (Step x k b wid cap c f) (ups A) s) : Enabled (Pipe.Step x.st x.wr k b wid cap c) A s.up := by
  obtain ⟨l, t, hA, hs⟩ := h
  cases hs <;> simp only [ups] at hA <;> exact ⟨_, _, hA, by assumption⟩

theorem downs_enabled {A : x.L → Prop} {s : State x} (h : Enabled (Step x k b wid cap c f) (downs A) s) : Enabled x.st A s.snd := by
  obtain ⟨l, t, hA, hs⟩ := h
  cases hs <;> simp only [downs] at hA <;> exact ⟨_, _, hA, by assumption⟩

theorem mem_up {ls : List (Label x)} {l : Pipe.Label x.L} (h : l ∈ upTr ls) : .up l ∈ ls := by
  obtain ⟨y, hy, ey⟩ := List.mem_filterMap.1 h
  cases y <;> cases ey
  exact hy

theorem up_mem {ls : List (Label x)} {l : Pipe.Label x.L} (h : .up l ∈ ls) : l ∈ upTr ls := List.mem_filterMap.2 ⟨_, h, rfl⟩

/-- Nothing is left to read, to hand over, or to handle. -/
theorem calm {S L : Type} {st : S → L → S → Prop} {wr : L → Bytes} {s t : Pipe.State S} {l : Pipe.Label L} (h1 : s.flight = []) (h2 : ∀ c, s.wk.todo c = []) {w : Nat} (h3 : s.wk.queue w = [] ∧ s.wk.worker w = .idle)
    (hs : Pipe.Step st wr k b wid cap c s l t) : ¬ isRead l ∧ ¬ byWorker (readerActs c) l ∧ ¬ byWorker (workerActs w) l := by
  obtain ⟨h3, h4⟩ := h3
  cases hs with
  | send => exact ⟨nofun, nofun, nofun⟩
  | read y z d ms sta hx hf => rw [h1] at hf; exact absurd (List.append_eq_nil_iff.1 hf.symm).1 hx
  | work a ha t hw =>
    refine ⟨nofun, ?_⟩
    cases hw <;> refine ⟨fun hA => ?_, fun hA => ?_⟩ <;> simp only [byWorker, readerActs, workerActs] at hA <;> simp_all

/-- A sender that is not sending can call, and only one that is sending returns; what is queued is what was sent. -/
structure Ready (C : Carrier x) : Prop where
  call : ∀ {s oks e w}, C.I s none oks e w → ∀ i m, ∃ t, x.st s (x.call i m) t
  busy : ∀ {s bu oks e w l t i}, C.I s bu oks e w → x.st s l t → x.ret i l = true → ∃ m, bu = some (i, m)

section
variable (C : Carrier x) (R : Ready C) {e : Exec (Step x k b wid cap c f)} (h0 : e.run 0 = init x k)

theorem upExec_weak {A : Pipe.Label x.L → Prop} (hA0 : ∀ l, A l → handles c l = false) (h : e.WeakFair (ups A)) : (upExec e).WeakFair A := by
  intro n hn
  obtain ⟨m, l, hm, ha, hA⟩ := h n fun m hm => let ⟨l, t, hA, hs⟩ := hn m hm; ⟨.up l, _, hA, .up _ l t hs (hA0 l hA)⟩
  cases l <;> simp only [ups] at hA
  exact ⟨m, _, hm, by simp [upExec, ha], hA⟩

theorem upExec_strong {A : Pipe.Label x.L → Prop} (hA0 : ∀ l, A l → handles c l = false) (h : e.StrongFair (ups A)) : (upExec e).StrongFair A := by
  intro n hn
  obtain ⟨m, l, hm, ha, hA⟩ := h n fun m hm => let ⟨y, hy, l, t, hA, hs⟩ := hn m hm; ⟨y, hy, .up l, _, hA, .up _ l t hs (hA0 l hA)⟩
  cases l <;> simp only [ups] at hA
  exact ⟨m, _, hm, by simp [upExec, ha], hA⟩

include R in
/-- What the sender can do the system can do. -/
theorem down_enabled {ls : List (Label x)} {s : State x} (h : Steps (Step x k b wid cap c f) (init x k) ls s) {A : x.L → Prop} (hA0 : ∀ l, A l → x.isCall l = false) (hE : Enabled x.st A s.snd) :
    Enabled (Step x k b wid cap c f) (downs A) s := by
  obtain ⟨l, t, hA, hs⟩ := hE
  by_cases hr : ∃ i, x.ret i l = true
  · obtain ⟨i, hr⟩ := hr
    obtain ⟨E, bu, hc⟩ := car_inv C h
    obtain ⟨m, hb⟩ := R.busy hc.inv hs hr
    cases bu with
    | none => cases hb
    | some p =>
      obtain ⟨w, j, rep⟩ := p
      cases hb
      exact ⟨.ret w j rep l, _, hA, .ret s w j rep l t ((hc.busy w j rep).2 rfl) hr hs⟩
  · refine ⟨.down l, _, hA, .down s l t (hA0 l hA) (fun w => ?_) hs⟩
    cases h : x.ret w l with
    | false => rfl
    | true => exact absurd ⟨w, h⟩ hr

include R h0 in
theorem sndExec_weak {A : x.L → Prop} (hA0 : ∀ l, A l → x.isCall l = false) (h : e.WeakFair (downs A)) : (sndExec e).WeakFair A := by
  intro n hn
  obtain ⟨m, l, hm, ha, hA⟩ := h n fun m hm => down_enabled C R (h0 ▸ e.steps m) hA0 (hn m hm)
  cases l <;> simp only [downs] at hA <;> exact ⟨m, _, hm, by simp [sndExec, ha], hA⟩

include R h0 in
theorem sndExec_strong {A : x.L → Prop} (hA0 : ∀ l, A l → x.isCall l = false) (h : e.StrongFair (downs A)) : (sndExec e).StrongFair A := by
  intro n hn
  obtain ⟨m, l, hm, ha, hA⟩ := h n fun m hm => let ⟨y, hy, hE⟩ := hn m hm; ⟨y, hy, down_enabled C R (h0 ▸ e.steps y) hA0 hE⟩
  cases l <;> simp only [downs] at hA <;> exact ⟨m, _, hm, by simp [sndExec, ha], hA⟩

end

/-! ## Handlers get done -/

theorem serves_other {st t : Pipe.State x.S} {l : Pipe.Label x.L} (h : Pipe.Step x.st x.wr k b wid cap c st l t) (hl : handles c l = false) (w : Nat) : ServesConn c t.wk w ↔ ServesConn c st.wk w := by
  have work : ∀ a wt, Worker.Step b wid cap st.wk a wt → (∀ v r, a = .start v r → ¬ r.conn = some c) → (∀ v r o, a = .finish v r o → ¬ r.conn = some c) → (ServesConn c wt w ↔ ServesConn c st.wk w) := by
    intro a wt hw g1 g2
    cases hw with
    | take v r rest h1 h2 =>
      by_cases e : w = v
      · subst e
        refine ⟨fun ⟨r', hb, hr⟩ => ?_, fun ⟨r', hb, hr⟩ => ?_⟩
        · simp [Worker.upd] at hb; subst hb; exact absurd hr (g1 _ _ rfl)
        · rw [h1] at hb; cases hb
      · simp [ServesConn, Worker.upd, e]
    | finish v r o h1 =>
      by_cases e : w = v
      · subst e
        refine ⟨fun ⟨r', hb, hr⟩ => ?_, fun ⟨r', hb, hr⟩ => ?_⟩
        · simp [Worker.upd] at hb; split at hb <;> cases hb
        · rw [h1] at hb; cases hb; exact absurd hr (g2 _ _ _ rfl)
      · simp [ServesConn, Worker.upd, e]
    | _ => exact Iff.rfl
  cases h with
  | send => exact Iff.rfl
  | read x y d ms sta hx hf hd hr t hw => exact work _ _ hw nofun nofun
  | work a ha t hw =>
    refine work _ _ hw (fun v r e => ?_) (fun v r o e => ?_)
    · subst e; simpa [handles] using hl
    · subst e; simpa [handles] using hl

/-- Worker and handler go together. -/
theorem linked {ls : List (Label x)} {s : State x} (h : Steps (Step x k b wid cap c f) (init x k) ls s) : ∀ w, s.h w ≠ .idle ↔ ServesConn c s.up.wk w := by
  refine h.invariant (P := fun s => ∀ w, s.h w ≠ .idle ↔ ServesConn c s.up.wk w) ?_ (fun w => ⟨fun h => absurd rfl h, fun ⟨r, hr, _⟩ => by cases hr⟩)
  intro s l t h1 hs
  have same : ∀ w v u, s.h w ≠ .idle → v ≠ .idle → (Rpc.set s.h w v u ≠ .idle ↔ ServesConn c s.up.wk u) := by
    intro w v u hw hv
    rw [← h1 u]
    by_cases e : u = w
    · subst e; simp [Rpc.set, hw, hv]
    · simp [Rpc.set, e]
  cases hs with
  | up l t' hs hl => exact fun w => (h1 w).trans (serves_other hs hl w).symm
  | start w r t' hr hs =>
    cases hs with
    | work a ha t' hw =>
      cases hw with
      | take _ _ rest g1 g2 =>
        intro u
        by_cases e : u = w
        · subst e
          simp only [Rpc.set, if_true]
          exact ⟨fun _ => ⟨r, by simp [Worker.upd], hr⟩, fun _ => nofun⟩
        · simp only [Rpc.set, e, if_false]
          rw [h1 u]
          simp [ServesConn, Worker.upd, e]
  | finish w r o t' hr hh hs =>
    cases hs with
    | work a ha t' hw =>
      cases hw with
      | finish _ _ _ g1 =>
        intro u
        by_cases e : u = w
        · subst e
          simp only [Rpc.set, if_true]
          refine ⟨fun h => absurd rfl h, fun ⟨r', hb, _⟩ => ?_⟩
          simp [Worker.upd] at hb; split at hb <;> cases hb
        · simp only [Rpc.set, e, if_false]
          rw [h1 u]
          simp [ServesConn, Worker.upd, e]
  | call w j m rep t' hh hm hf hs => exact fun u => same w _ u (by rw [hh]; exact nofun) nofun
  | skip w j m hh hm hf => exact fun u => same w _ u (by rw [hh]; exact nofun) nofun
  | ret w j rep l t' hh hl hs => exact fun u => same w _ u (by rw [hh]; exact nofun) nofun
  | down => exact h1
  | read => exact h1

theorem got_exists {ls : List (Label x)} {s : State x} (h : Steps (Step x k b wid cap c f) (init x k) ls s) {w j : Nat} (hh : s.h w = .got j) :
    (∃ m, s.up.msgs[j]? = some m) ∧ ∀ w' j' rep, s.h w' ≠ .called j' rep := by
  obtain ⟨a, hi⟩ := hand_inv h
  have hp : ∃ n, n = s.up.msgs.length ∧ handled c ls <+: Worker.sequential (Pipe.requests c 0 n) := by
    have hi := Pipe.inv (parts h).up
    have hf := Props.C27_fifo_one_at_a_time (fun _ _ h => by cases h) hi.wk c
    rw [hi.arrived, List.nil_append] at hf
    exact ⟨_, rfl, hf⟩
  obtain ⟨n, e, hp⟩ := hp
  rcases hi.phase with ⟨_, g, _⟩ | ⟨g0, w0, g1, g2⟩
  · rw [g w] at hh; cases hh
  · rw [g0] at hp
    have hlt := (Props.seq_begin hp).1
    have ew : w = w0 := Classical.byContradiction fun hne => by rw [g1 w hne] at hh; cases hh
    subst ew
    have ej : j = a := by
      rcases g2 with ⟨g, _⟩ | ⟨⟨_, g, _⟩, _⟩ | ⟨g, _⟩
      · rw [g] at hh; cases hh; rfl
      · rw [g] at hh; cases hh
      · rw [g] at hh; cases hh
    subst ej
    refine ⟨⟨s.up.msgs[j]'(by omega), List.getElem?_eq_getElem _⟩, fun w' j' rep hc => ?_⟩
    by_cases e' : w' = w
    · rw [e', hh] at hc; cases hc
    · rw [g1 w' e'] at hc; cases hc

/-- The handler on worker `w`, in one step of the system. -/
theorem hand_step {ls : List (Label x)} {s t : State x} {l : Label x} (hr : Steps (Step x k b wid cap c f) (init x k) ls s) (hs : Step x k b wid cap c f s l t) (w : Nat) :
    t.h w = s.h w ∨ (∃ r, l = .up (.work (.start w r)) ∧ s.h w = .idle) ∨ (∃ j, s.h w = .got j ∧ decides w l ∧ ((∃ rep, t.h w = .called j rep) ∨ t.h w = .done)) ∨
      ((∃ j rep, s.h w = .called j rep) ∧ t.h w = .done) ∨ s.h w = .done ∧ ∃ r o, l = .up (.work (.finish w r o)) := by
  have hl := linked hr
  cases hs with
  | up => exact .inl rfl
  | start v r t' hr hs =>
    by_cases e : w = v
    · subst e
      refine .inr (.inl ⟨r, rfl, Classical.byContradiction fun hne => ?_⟩)
      obtain ⟨r', hb, _⟩ := (hl w).1 hne
      cases hs with
      | work a ha t' hw => cases hw with | take _ _ rest g1 g2 => rw [g1] at hb; cases hb
    · exact .inl (by simp [Rpc.set, e])
  | call v j m rep t' hh hm hf hs =>
    by_cases e : w = v
    · subst e; exact .inr (.inr (.inl ⟨j, hh, rfl, .inl ⟨rep, by simp [Rpc.set]⟩⟩))
    · exact .inl (by simp [Rpc.set, e])
  | skip v j m hh hm hf =>
    by_cases e : w = v
    · subst e; exact .inr (.inr (.inl ⟨j, hh, rfl, .inr (by simp [Rpc.set])⟩))
    · exact .inl (by simp [Rpc.set, e])
  | ret v j rep l t' hh hl hs =>
    by_cases e : w = v
    · subst e; exact .inr (.inr (.inr (.inl ⟨⟨j, rep, hh⟩, by simp [Rpc.set]⟩)))
    · exact .inl (by simp [Rpc.set, e])
  | finish v r o t' hr hh hs =>
    by_cases e : w = v
    · subst e; exact .inr (.inr (.inr (.inr ⟨hh, r, o, rfl⟩)))
    · exact .inl (by simp [Rpc.set, e])
  | down => exact .inl rfl
  | read => exact .inl rfl

section
variable (C : Carrier x) (R : Ready C) (e : Exec (Step x k b wid cap c f)) (h0 : e.run 0 = init x k)

include h0

theorem rpc_steps (n : Nat) : Steps (Step x k b wid cap c f) (init x k) (e.trace n) (e.run n) := h0 ▸ e.steps n

include C R

/-- A handler that got a request comes to its end, if sends return. -/
theorem hand_done {w : Nat} (hdec : e.WeakFair (decides w)) (hret : ∀ n, ∃ m, n ≤ m ∧ ∀ j rep, (e.run m).h w ≠ .called j rep) {n : Nat} (hne : (e.run n).h w ≠ .idle) : ∃ m, n ≤ m ∧ (e.run m).h w = .done := by
  have hcalled : ∀ n, (∃ j rep, (e.run n).h w = .called j rep) → ∃ m, n ≤ m ∧ (e.run m).h w = .done := by
    intro n ⟨j, rep, hc⟩
    apply Classical.byContradiction
    intro hno
    have hall : ∀ m, n ≤ m → (e.run m).h w = .called j rep := by
      intro m hm
      induction m with
      | zero => have : n = 0 := by omega
                subst this; exact hc
      | succ m ih =>
        by_cases e1 : n = m + 1
        · rw [← e1]; exact hc
        have hp := ih (by omega)
        have hn := e.next m
        cases ha : e.act m with
        | none => rw [ha] at hn; rw [hn]; exact hp
        | some l =>
          rw [ha] at hn
          rcases hand_step (rpc_steps e h0 m) hn w with g | ⟨_, _, g⟩ | ⟨_, g, _⟩ | ⟨_, g⟩ | ⟨g, _⟩
          · exact g.trans hp
          · rw [hp] at g; cases g
          · rw [hp] at g; cases g
          · exact absurd ⟨m + 1, hm, g⟩ hno
          · rw [hp] at g; cases g
    obtain ⟨m, hm, h⟩ := hret n
    exact h j rep (hall m hm)
  cases hh : (e.run n).h w with
  | idle => exact absurd hh hne
  | done => exact ⟨n, Nat.le_refl _, hh⟩
  | called j rep => exact hcalled n ⟨j, rep, hh⟩
  | got j =>
    obtain ⟨m, hm, hq⟩ := e.leads_weak hdec (P := fun s => (∃ ls, Steps (Step x k b wid cap c f) (init x k) ls s) ∧ s.h w = .got j) (Q := fun s => (∃ j rep, s.h w = .called j rep) ∨ s.h w = .done)
      (by
        intro s l t ⟨⟨ls, hr⟩, hh⟩ hs
        rcases hand_step hr hs w with g | ⟨_, _, g⟩ | ⟨_, g, _, g'⟩ | ⟨⟨_, _, g⟩, _⟩ | ⟨g, _⟩
        · exact .inl ⟨⟨_, hr.snoc hs⟩, g.trans hh⟩
        · rw [hh] at g; cases g
        · rcases g' with ⟨rep, g'⟩ | g'
          · exact .inr (.inl ⟨_, rep, g'⟩)
          · exact .inr (.inr g')
        · rw [hh] at g; cases g
        · rw [hh] at g; cases g)
      (by
        intro s l t ⟨hr, hh⟩ hs hA
        cases hs with
        | call v j' m rep t' hh' hm hf hs =>
          have : v = w := hA
          subst this
          exact .inl ⟨j', rep, by simp [Rpc.set]⟩
        | skip v j' m hh' hm hf =>
          have : v = w := hA
          subst this
          exact .inr (by simp [Rpc.set])
        | _ => cases hA)
      (by
        intro s ⟨⟨ls, hr⟩, hh⟩
        obtain ⟨⟨m, hm⟩, hno⟩ := got_exists hr hh
        cases hf : f j (key m) with
        | none => exact ⟨.skip w j, _, rfl, .skip s w j m hh hm hf⟩
        | some rep =>
          obtain ⟨E, bu, hc⟩ := car_inv C hr
          have hb : bu = none := by
            cases bu with
            | none => rfl
            | some p => exact absurd ((hc.busy p.1 p.2.1 p.2.2).2 rfl) (hno _ _ _)
          subst hb
          obtain ⟨t, ht⟩ := R.call hc.inv w (packed k rep)
          exact ⟨.call w j rep, _, rfl, .call s w j m rep t hh hm hf ht⟩)
      ⟨⟨_, rpc_steps e h0 n⟩, hh⟩
    rcases hq with hq | hq
    · obtain ⟨m', hm', h⟩ := hcalled m hq
      exact ⟨m', by omega, h⟩
    · exact ⟨m, hm, hq⟩

/-- The worker runs, handlers do something, sends return: then the worker's queue is served. -/
theorem up_worker {w : Nat} (hwk : e.WeakFair (ups (byWorker (workerActs w)))) (hdec : e.WeakFair (decides w)) (hret : ∀ n, ∃ m, n ≤ m ∧ ∀ j rep, (e.run m).h w ≠ .called j rep) :
    (upExec e).WeakFair (byWorker (workerActs w)) := by
  intro n hen
  apply Classical.byContradiction
  intro hno
  have hno' : ∀ m l, n ≤ m → e.act m = some l → ¬ ups (byWorker (workerActs w)) l := by
    intro m l hm ha hA
    cases l <;> simp only [ups] at hA
    exact hno ⟨m, _, hm, by simp [upExec, ha], hA⟩
  suffices H : ∃ m, n ≤ m ∧ ∀ m', m ≤ m' → Enabled (Step x k b wid cap c f) (ups (byWorker (workerActs w))) (e.run m') by
    obtain ⟨m, hm, hE⟩ := H
    obtain ⟨m', l, hm', ha, hA⟩ := hwk m hE
    exact hno' m' l (by omega) ha hA
  by_cases hall : ∀ m, n ≤ m → (e.run m).h w = .idle
  · refine ⟨n, Nat.le_refl _, fun m hm => ?_⟩
    obtain ⟨l, t, hA, hs⟩ := hen m hm
    by_cases hl : handles c l = false
    · exact ⟨.up l, _, hA, .up _ l t hs hl⟩
    · cases l with
      | send => simp [handles] at hl
      | read => simp [handles] at hl
      | work a =>
        cases a with
        | arrive => simp [handles] at hl
        | submit => simp [handles] at hl
        | start v r => exact ⟨.up (.work (.start v r)), _, hA, .start _ v r t (by simpa [handles] using hl) hs⟩
        | finish v r o =>
          have hv : v = w := hA
          subst hv
          have hr : r.conn = some c := by simpa [handles] using hl
          cases hs with
          | work a ha t hw =>
            cases hw with
            | finish _ _ _ g => exact absurd (hall m hm) ((linked (rpc_steps e h0 m) v).2 ⟨r, g, hr⟩)
  · have : ∃ m, n ≤ m ∧ (e.run m).h w ≠ .idle := Classical.byContradiction fun h => hall fun m hm => Classical.byContradiction fun h' => h ⟨m, hm, h'⟩
    obtain ⟨m0, hm0, hne⟩ := this
    obtain ⟨m, hm, hd⟩ := hand_done C R e h0 hdec hret hne
    have hstay : ∀ m', m ≤ m' → (e.run m').h w = .done := by
      intro m' hm'
      induction m' with
      | zero => have : m = 0 := by omega
                subst this; exact hd
      | succ m' ih =>
        by_cases e1 : m = m' + 1
        · rw [← e1]; exact hd
        have hp := ih (by omega)
        have hn := e.next m'
        cases ha : e.act m' with
        | none => rw [ha] at hn; rw [hn]; exact hp
        | some l =>
          rw [ha] at hn
          rcases hand_step (rpc_steps e h0 m') hn w with g | ⟨_, _, g⟩ | ⟨_, g, _⟩ | ⟨⟨_, _, g⟩, _⟩ | ⟨g, r, o, rfl⟩
          · exact g.trans hp
          · rw [hp] at g; cases g
          · rw [hp] at g; cases g
          · rw [hp] at g; cases g
          · exact absurd (show ups (byWorker (workerActs w)) (.up (.work (.finish w r o))) from rfl) (hno' m' _ (by omega) ha)
    refine ⟨m, by omega, fun m' hm' => ?_⟩
    have hd' := hstay m' hm'
    obtain ⟨r, hb, hr⟩ := (linked (rpc_steps e h0 m') w).1 (by rw [hd']; exact nofun)
    exact ⟨.up (.work (.finish w r .returned)), _, rfl, .finish _ w r .returned _ hr hd' (.work _ _ (fun _ h => by cases h) _ (.finish _ w r .returned hb))⟩

omit C R in
/-- The client reads what has been written. -/
theorem client_read (hrun : ∀ n, ∃ d, (e.run n).rcv = .running d) (hrd : e.WeakFair clientRead) (N n : Nat) (hN : N ≤ (written (e.trace n)).length) : ∃ m, n ≤ m ∧ N ≤ (reads (e.trace m)).flatten.length := by
  have happ : ∀ a b : List (Label x), (reads (a ++ b)).flatten.length = (reads a).flatten.length + (reads b).flatten.length := by
    intro a b; simp [reads, List.filterMap_append]
  have hwire : ∀ m, n ≤ m → N ≤ (written (e.trace m)).length := by
    intro m hm
    obtain ⟨y, hy⟩ := e.trace_prefix hm
    rw [← hy, written_append, List.length_append]
    omega
  suffices H : ∀ v m, n ≤ m → N - (reads (e.trace m)).flatten.length ≤ v → ∃ m', m ≤ m' ∧ N ≤ (reads (e.trace m')).flatten.length from H _ n (Nat.le_refl _) (Nat.le_refl _)
  intro v
  induction v with
  | zero => intro m _ hv; exact ⟨m, Nat.le_refl _, by omega⟩
  | succ v ih =>
    intro m hm hv
    by_cases hd : N ≤ (reads (e.trace m)).flatten.length
    · exact ⟨m, Nat.le_refl _, hd⟩
    have hmono : ∀ j, m ≤ j → (reads (e.trace m)).flatten.length ≤ (reads (e.trace j)).flatten.length := by
      intro j hj
      obtain ⟨y, hy⟩ := e.trace_prefix hj
      rw [← hy, happ]; omega
    by_cases hE : ∀ j, m ≤ j → Enabled (Step x k b wid cap c f) clientRead (e.run j)
    · obtain ⟨j, l, hj, ha, hA⟩ := hrd m hE
      have hn := e.next j
      rw [ha] at hn
      obtain ⟨m', hm', h⟩ := ih (j + 1) (by omega) (by
        show N - (reads (e.trace j ++ (e.act j).toList)).flatten.length ≤ v
        have := hmono j hj
        rw [ha, happ]
        cases l <;> simp only [clientRead] at hA
        rename_i y
        generalize e.run (j + 1) = t at hn
        cases hn with
        | read y z d ms sta hy =>
          have : 0 < y.length := List.length_pos_iff.2 hy
          simp [reads] at *
          omega)
      exact ⟨m', by omega, h⟩
    · have : ∃ j, m ≤ j ∧ ¬ Enabled (Step x k b wid cap c f) clientRead (e.run j) :=
        Classical.byContradiction fun h => hE fun j hj => Classical.byContradiction fun h' => h ⟨j, hj, h'⟩
      obtain ⟨j, hj, hno⟩ := this
      refine ⟨j, hj, ?_⟩
      have hfl := congrArg List.length (parts (rpc_steps e h0 j)).flight
      rw [List.length_append] at hfl
      have hemp : (e.run j).flight = [] := by
        apply Classical.byContradiction
        intro hne
        obtain ⟨d, hrd⟩ := hrun j
        cases hr : Decoder.receive k d [(e.run j).flight] with
        | mk ms sta => exact hno ⟨.read (e.run j).flight, _, trivial, .read _ _ [] d ms sta hne (by simp) hrd hr⟩
      rw [hemp, List.length_nil] at hfl
      have := hwire j (by omega)
      omega

omit R in
/-- If requests are handled and replies written, the client receives as many messages as have been handled. -/
theorem answered (hk : k ≠ .htlv) (hf : ∀ j m, m.2.length < 2 ^ 32 - 8 → ∃ rep, f j m = some rep ∧ rep.2.length < 2 ^ 32 - 8)
    (hu : ∀ n, ∀ m ∈ (e.run n).up.msgs, (key m).2.length < 2 ^ 32 - 8) (hok : ∀ n w j rep l, e.act n = some (.ret w j rep l) → x.ok l = true)
    (hwr : ∀ n, ∃ m, n ≤ m ∧ ((okReplies (e.trace n)).map fun p => packed k p.2).flatten.length ≤ (written (e.trace m)).length) (hrd : e.WeakFair clientRead) {N m1 : Nat}
    (hN : 2 * N ≤ (handled c (e.trace m1)).length) : ∃ m, m1 ≤ m ∧ N ≤ (e.run m).msgs.length := by
  have hokt : ∀ n w j rep l, .ret w j rep l ∈ e.trace n → x.ok l = true := fun n w j rep l hl => let ⟨m, _, ha⟩ := e.mem_trace hl; hok m w j rep l ha
  have hall : ∀ n, (okReplies (e.trace n)).map asSettled = settledReplies (e.trace n) := by
    intro n
    obtain ⟨a, hh⟩ := hand_inv (rpc_steps e h0 n)
    exact all_ok (fun p hp e' => by
      obtain ⟨m, hx, hm⟩ := hh.settled p hp
      obtain ⟨rep, e'', _⟩ := hf p.1 (key m) (hu n m (List.mem_of_getElem? hx))
      rw [hm, e'] at e''; cases e'') (hokt n)
  have hcount : N ≤ (okReplies (e.trace m1)).length := by
    have e2 := congrArg List.length (hall m1)
    rw [List.length_map] at e2
    obtain ⟨a, hh⟩ := hand_inv (rpc_steps e h0 m1)
    have hreq : (Pipe.requests c 0 a).length = a := by simp [Pipe.requests]
    rcases hh.phase with ⟨g1, _, g2⟩ | ⟨g1, _, _, ⟨_, g2⟩ | ⟨_, g2⟩ | ⟨_, g2⟩⟩
    all_goals
      have g2 := congrArg List.length g2
      rw [List.length_map, List.length_range] at g2
      rw [g1] at hN
      simp only [List.length_append, Props.seq_length, hreq, List.length_cons, List.length_nil] at hN
      omega
  obtain ⟨m2, hm2, hlen⟩ := hwr m1
  have hrecv : ∀ n, ∃ (T : List Msg) (N' : Nat), ((okReplies (e.trace n)).map (·.2)) <+: T ∧ (e.run n).msgs.map key = T.take N' ∧ (∃ d, (e.run n).rcv = .running d) ∧
      ∀ j, j ≤ T.length → ((T.take j).map (Props.packOf k)).flatten.length ≤ (reads (e.trace n)).flatten.length → j ≤ N' := by
    intro n
    have hs := rpc_steps e h0 n
    obtain ⟨E, bu, hc⟩ := car_inv C hs
    obtain ⟨_, hw⟩ := begun_range C hs hc
    have hp := parts hs
    have hE : E = none := by
      cases E with
      | none => rfl
      | some p =>
        have := hc.sub.length_le
        rw [← hall n] at this
        simp at this
        omega
    subst hE
    have hwire := C.wire hc.inv
    have key1 : ∃ T : List Msg, ((okReplies (e.trace n)).map (·.2)) <+: T ∧ (∀ m ∈ T, m.2.length < 2 ^ 32 - 8) ∧ written (e.trace n) <+: (T.map (Props.packOf k)).flatten := by
      have small : ∀ p ∈ settledReplies (e.trace n) ++ busySettled bu, ∀ rep, p.2 = some rep → rep.2.length < 2 ^ 32 - 8 := by
        intro p hp rep e'
        obtain ⟨m, hx, hm⟩ := hw p hp
        obtain ⟨rep', e'', hl⟩ := hf p.1 (key m) (hu n m (List.mem_of_getElem? hx))
        rw [hm, e'] at e''; cases e''; exact hl
      have sm1 : ∀ p ∈ okReplies (e.trace n), p.2.2.length < 2 ^ 32 - 8 := fun p hp => small (asSettled p) (List.mem_append_left _ (hall n ▸ List.mem_map_of_mem hp)) p.2 rfl
      cases bu with
      | none =>
        refine ⟨(okReplies (e.trace n)).map (·.2), List.prefix_rfl, fun m hm => ?_, ?_⟩
        · obtain ⟨p, hp, rfl⟩ := List.mem_map.1 hm; exact sm1 p hp
        · rw [List.map_map]
          have hwire' : written (e.trace n) <+: ((okReplies (e.trace n)).map fun p => packed k p.2).flatten := by simpa [last] using hwire
          exact hwire'
      | some q =>
        refine ⟨(okReplies (e.trace n)).map (·.2) ++ [q.2.2], List.prefix_append _ _, fun m hm => ?_, ?_⟩
        · rcases List.mem_append.1 hm with hm | hm
          · obtain ⟨p, hp, rfl⟩ := List.mem_map.1 hm; exact sm1 p hp
          · rw [List.mem_singleton] at hm; subst hm; exact small (q.2.1, some q.2.2) (List.mem_append_right _ (by simp [busySettled])) _ rfl
        · rw [List.map_append, List.map_map, List.flatten_append]
          have hwire' : written (e.trace n) <+: ((okReplies (e.trace n)).map fun p => packed k p.2).flatten ++ [packed k q.2.2].flatten := by simpa [last] using hwire
          exact hwire'
    obtain ⟨T, t1, t2, t3⟩ := key1
    obtain ⟨N', g1, g2, g3⟩ := Props.recv_prefix hk T t2 (reads (e.trace n)) (.trans (hp.flight ▸ List.prefix_append _ _) t3)
    rw [hp.rcv] at g1 g2
    exact ⟨T, N', t1, g1, g2, g3⟩
  obtain ⟨m3, hm3, hread⟩ := client_read e h0 (fun n => let ⟨_, _, _, _, h, _⟩ := hrecv n; h) hrd _ m2 hlen
  refine ⟨m3, by omega, ?_⟩
  obtain ⟨T, N', t1, g1, _, g3⟩ := hrecv m3
  obtain ⟨y, hy⟩ := e.trace_prefix (show m1 ≤ m3 by omega)
  have hpre : (okReplies (e.trace m1)).map (·.2) <+: T := by
    refine List.IsPrefix.trans ?_ t1
    rw [← hy, ok_append, List.map_append]; exact List.prefix_append _ _
  have hle := hpre.length_le
  rw [List.length_map] at hle
  have := g3 (okReplies (e.trace m1)).length hle (by
    obtain ⟨z, hz⟩ := hpre
    rw [← hz, List.take_append_of_le_length (by simp), List.take_of_length_le (by simp), List.map_map]
    exact hread)
  have hl := congrArg List.length g1
  rw [List.length_map, List.length_take] at hl
  omega

end

/-- Requests received are of those written. -/
theorem up_small {ls : List (Label x)} {s : State x} (h : Steps (Step x k b wid cap c f) (init x k) ls s) (hk : k ≠ .htlv) (reqs : List Msg) (hr : ∀ m ∈ reqs, m.2.length < 2 ^ 32 - 8)
    (hw : (Pipe.sendTr (upTr ls)).flatMap x.wr <+: (reqs.map (Props.packOf k)).flatten) : ∀ m ∈ s.up.msgs, (key m).2.length < 2 ^ 32 - 8 := by
  have hi := Pipe.inv (parts h).up
  have h2 : s.up.msgs.map key <+: reqs := by
    obtain ⟨n, h1, _, _⟩ := Props.recv_prefix hk reqs hr (Pipe.readsOf (upTr ls)) (.trans (hi.flight ▸ List.prefix_append _ _) hw)
    rw [hi.rcv] at h1
    show s.up.msgs.map Props.keyOf <+: _
    rw [h1]; exact List.take_prefix _ _
  exact fun m hm => hr _ (h2.subset (List.mem_map_of_mem hm))

theorem written_snd (hc : ∀ w m, x.wr (x.call w m) = []) (ls : List (Label x)) : (sndTr k ls).flatMap x.wr = written ls := by
  induction ls with
  | nil => rfl
  | cons l ls ih => cases l <;> simp [sndTr, written, hc] at ih ⊢ <;> exact ih

theorem one_length (msgs : List Msg) : (Props.oneByOne msgs).length = 2 * msgs.length := by
  induction msgs with
  | nil => rfl
  | cons m ms ih => simp only [Props.oneByOne, List.flatMap_cons, List.length_append, List.length_cons, List.length_nil] at ih ⊢; omega

/-- What is queued by the sender is what handlers have sent. -/
theorem queued_ok (C : Carrier x) (q : x.L → List Bytes) (hq1 : ∀ {s t oks e w i m l}, C.I s (some (i, m)) oks e w → x.st s l t → x.ret i l = true → x.ok l = true → q l = [m])
    (hq2 : ∀ l, x.ok l = false → q l = []) (hq3 : ∀ i m, q (x.call i m) = []) (hq4 : ∀ l, (∀ i, x.ret i l = false) → q l = []) {ls : List (Label x)} {s : State x} (h : Steps (Step x k b wid cap c f) (init x k) ls s) :
    (sndTr k ls).flatMap q = (okReplies ls).map fun p => packed k p.2 := by
  refine (h.invariant_trace (P := fun ls s => Steps (Step x k b wid cap c f) (init x k) ls s ∧ (sndTr k ls).flatMap q = (okReplies ls).map fun p => packed k p.2) ?_ ⟨.nil _, rfl⟩).2
  intro ls s l t ⟨h0, ih⟩ hs
  refine ⟨h0.snoc hs, ?_⟩
  have e1 : sndTr k (ls ++ [l]) = sndTr k ls ++ sndTr k [l] := List.filterMap_append
  rw [e1, List.flatMap_append, ih, ok_append, List.map_append]
  congr 1
  cases hs with
  | call w j m rep t' hh hm hf hs => simpa [sndTr, okReplies] using hq3 w (packed k rep)
  | down l t' hc hl hs => simpa [sndTr, okReplies] using hq4 l hl
  | ret w j rep l t' hh hl hs =>
    cases hok : x.ok l with
    | false => simpa [sndTr, okReplies, hok] using hq2 l hok
    | true =>
      obtain ⟨E, bu, hc⟩ := car_inv C h0
      have hb := (hc.busy w j rep).1 hh
      subst hb
      simpa [sndTr, okReplies, hok] using hq1 hc.inv hs hl hok
  | _ => rfl

end Zinx.RpcAny
