import Verif.Model.RpcAny
import Verif.Props.Rpc
import Verif.Props.PipeWs

/-!
# C148: requests and replies on WebSocket and KCP connections
-/

namespace Zinx.RpcAny

open Rpc (Bytes Msg packed Hand key)
open Props (asSettled)

variable {x : Sender} {k : Decoder.Kind} {b : Bool} {wid : Nat → Nat} {cap c : Nat} {f : Nat → Msg → Option Msg}

/-- The part of the requests. -/
def upTr (ls : List (Label x)) : List (Pipe.Label x.L) := ls.filterMap fun | .up l => some l | _ => none

/-- The bytes the server writes. -/
def written (ls : List (Label x)) : Bytes := ls.flatMap fun | .ret _ _ _ l => x.wr l | .down l => x.wr l | _ => []

/-- The client's reads. -/
def reads (ls : List (Label x)) : List Bytes := ls.filterMap fun | .read y => some y | _ => none

/-- The replies whose sending returned nil, with the number of the request. -/
def okReplies (ls : List (Label x)) : List (Nat × Msg) := ls.filterMap fun | .ret _ j rep l => if x.ok l then some (j, rep) else none | _ => none

/-- All replies whose sending returned, and those the handler did not want to send (`none`). -/
def settledReplies (ls : List (Label x)) : List (Nat × Option Msg) := ls.filterMap fun | .ret _ j rep _ => some (j, some rep) | .skip _ j => some (j, none) | _ => none

structure Parts (x : Sender) (k : Decoder.Kind) (b : Bool) (wid : Nat → Nat) (cap c : Nat) (ls : List (Label x)) (s : State x) : Prop where
  up : Steps (Pipe.Step x.st x.wr k b wid cap c) (Pipe.init x.s0 k) (upTr ls) s.up
  flight : (reads ls).flatten ++ s.flight = written ls
  rcv : Decoder.receiveNew k (reads ls) = (s.msgs, s.rcv)

theorem parts {ls : List (Label x)} {s : State x} (h : Steps (Step x k b wid cap c f) (init x k) ls s) : Parts x k b wid cap c ls s := by
  refine h.invariant_trace (P := fun ls s => Parts x k b wid cap c ls s) ?_ ⟨.nil _, rfl, rfl⟩
  intro ls s l t ⟨h1, h3, h4⟩ hs
  cases hs with
  | read y z d ms sta hy hf hd hr =>
    refine ⟨?_, ?_, ?_⟩
    · simpa [upTr, List.filterMap_append] using h1
    · have e : written (ls ++ [.read y]) = written ls := by simp [written]
      rw [e, ← h3, hf]; simp [reads, List.filterMap_append]
    · rw [hd] at h4
      have e : reads (ls ++ [.read y]) = reads ls ++ [y] := by simp [reads, List.filterMap_append]
      rw [e]
      exact Pipe.receive_snoc _ _ _ _ _ _ _ h4 hr
  | _ =>
    refine ⟨?_, ?_, ?_⟩
    · simp only [upTr, List.filterMap_append, List.filterMap_cons, List.filterMap_nil, List.append_nil] at *
      first
        | exact h1
        | (rename_i hs _; exact h1.snoc hs)
        | (rename_i hs; exact h1.snoc hs)
    · have e : ∀ l : Label x, written (ls ++ [l]) = written ls ++ written [l] := fun l => List.flatMap_append
      rw [e, ← h3]; simp [reads, List.filterMap_append, written]
    · simpa [reads, List.filterMap_append] using h4

/-! ## Handlers -/

/-- The handling events of the connection at the server. -/
def handled (c : Nat) (ls : List (Label x)) : List Worker.HEv := Worker.handlingOf c (Pipe.workTr c (upTr ls))

/-- What the handler of request `j` wants to send. -/
def wants (f : Nat → Msg → Option Msg) (s : State x) (j : Nat) (o : Option Msg) : Prop := ∃ m, s.up.msgs[j]? = some m ∧ f j (key m) = o

structure HandInv (f : Nat → Msg → Option Msg) (c : Nat) (ls : List (Label x)) (s : State x) (a : Nat) : Prop where
  settled : ∀ p ∈ settledReplies ls, wants f s p.1 p.2
  phase : handled c ls = Worker.sequential (Pipe.requests c 0 a) ∧ (∀ w, s.h w = .idle) ∧ (settledReplies ls).map (·.1) = List.range a ∨
    handled c ls = Worker.sequential (Pipe.requests c 0 a) ++ [.begins ⟨some c, a, .message⟩] ∧ ∃ w0, (∀ w, w ≠ w0 → s.h w = .idle) ∧
      (s.h w0 = .got a ∧ (settledReplies ls).map (·.1) = List.range a ∨ (∃ rep, s.h w0 = .called a rep ∧ wants f s a (some rep)) ∧ (settledReplies ls).map (·.1) = List.range a ∨
        s.h w0 = .done ∧ (settledReplies ls).map (·.1) = List.range (a + 1))

theorem settled_append (a b : List (Label x)) : settledReplies (a ++ b) = settledReplies a ++ settledReplies b := List.filterMap_append

theorem ok_append (a b : List (Label x)) : okReplies (a ++ b) = okReplies a ++ okReplies b := List.filterMap_append

theorem written_append (a b : List (Label x)) : written (a ++ b) = written a ++ written b := List.flatMap_append

theorem handled_append (c : Nat) (a b : List (Label x)) : handled c (a ++ b) = handled c a ++ handled c b := by
  simp [handled, upTr, Pipe.workTr, Worker.handlingOf, List.filterMap_append]

theorem handled_other {c : Nat} {l : Pipe.Label x.L} (h : handles c l = false) : handled (x := x) c [.up l] = [] := by
  cases l with
  | send => rfl
  | read => rfl
  | work a =>
    cases a with
    | arrive => rfl
    | submit => rfl
    | start w r =>
      have : ¬ r.conn = some c := by simpa [handles] using h
      simp [handled, upTr, Pipe.workTr, Worker.handlingOf, this]
    | finish w r o =>
      have : ¬ r.conn = some c := by simpa [handles] using h
      simp [handled, upTr, Pipe.workTr, Worker.handlingOf, this]

theorem msgs_grow {st : Pipe.State x.S} {l : Pipe.Label x.L} {t : Pipe.State x.S} (h : Pipe.Step x.st x.wr k b wid cap c st l t) {j : Nat} {m : Pack.Message × Option Decoder.Resp}
    (hm : st.msgs[j]? = some m) : t.msgs[j]? = some m := by
  cases h with
  | send => exact hm
  | work => exact hm
  | read => exact List.getElem?_append_left (List.getElem?_eq_some_iff.1 hm).1 |>.trans hm

theorem hand_inv {ls : List (Label x)} {s : State x} (h : Steps (Step x k b wid cap c f) (init x k) ls s) : ∃ a, HandInv f c ls s a := by
  have := h.invariant_trace (P := fun ls s => Steps (Step x k b wid cap c f) (init x k) ls s ∧ ∃ a, HandInv f c ls s a) ?_ ⟨.nil _, 0, nofun, .inl ⟨rfl, fun _ => rfl, rfl⟩⟩
  · exact this.2
  intro ls s l t ⟨h0, a, h1, h2⟩ hs
  have h0' := h0.snoc hs
  refine ⟨h0', ?_⟩
  have hp : ∃ n, handled c (ls ++ [l]) <+: Worker.sequential (Pipe.requests c 0 n) := by
    have hi := Pipe.inv (parts h0').up
    have hf := Props.C27_fifo_one_at_a_time (fun _ _ h => by cases h) hi.wk c
    rw [hi.arrived, List.nil_append] at hf
    exact ⟨_, hf⟩
  obtain ⟨n, hp⟩ := hp
  rw [handled_append] at hp
  have hw : ∀ j o, wants f s j o → wants f t j o := by
    intro j o ⟨m, hm, hf⟩
    cases hs with
    | up l t' hs _ => exact ⟨m, msgs_grow hs hm, hf⟩
    | start w r t' _ hs => exact ⟨m, msgs_grow hs hm, hf⟩
    | finish w r o t' _ _ hs => exact ⟨m, msgs_grow hs hm, hf⟩
    | _ => exact ⟨m, hm, hf⟩
  -- steps that change nothing here
  have same : t.h = s.h → handled c [l] = [] → settledReplies [l] = [] → ∃ a, HandInv f c (ls ++ [l]) t a := by
    intro e1 e2 e3
    refine ⟨a, ?_, ?_⟩
    · rw [settled_append, e3, List.append_nil]; exact fun p hp => hw _ _ (h1 p hp)
    · rw [settled_append, e3, List.append_nil, handled_append, e2, List.append_nil, e1]
      rcases h2 with h2 | ⟨g1, w0, g2, g3⟩
      · exact .inl h2
      · refine .inr ⟨g1, w0, g2, ?_⟩
        rcases g3 with g3 | ⟨⟨rep, g3, g4⟩, g5⟩ | g3
        · exact .inl g3
        · exact .inr (.inl ⟨⟨rep, g3, hw _ _ g4⟩, g5⟩)
        · exact .inr (.inr g3)
  cases hs with
  | up l t' hs hl => exact same rfl (handled_other hl) rfl
  | down => exact same rfl rfl rfl
  | read => exact same rfl rfl rfl
  | start w r t' hr hs =>
    have e1 : handled (x := x) c [.up (.work (.start w r))] = [.begins r] := by simp [handled, upTr, Pipe.workTr, Worker.handlingOf, hr]
    rw [e1] at hp
    rcases h2 with ⟨g1, g2, g3⟩ | ⟨g1, _⟩
    · rw [g1] at hp
      obtain ⟨_, e⟩ := Props.seq_begin hp
      cases e
      refine ⟨a, ?_, .inr ⟨by rw [handled_append, e1, g1], w, fun w' hw' => by simp [Rpc.set, hw', g2], .inl ⟨by simp [Rpc.set], ?_⟩⟩⟩
      · rw [settled_append]; exact fun p hp => hw _ _ (h1 p (by simpa [settledReplies] using hp))
      · rw [settled_append]; simpa [settledReplies] using g3
    · rw [g1] at hp
      cases Props.seq_end hp
  | finish w r o t' hr hh hs =>
    have e1 : handled (x := x) c [.up (.work (.finish w r o))] = [.ends r] := by simp [handled, upTr, Pipe.workTr, Worker.handlingOf, hr]
    rw [e1] at hp
    rcases h2 with ⟨g1, g2, g3⟩ | ⟨g1, w0, g2, g3⟩
    · rw [g2] at hh; cases hh
    · rw [g1] at hp
      cases Props.seq_end hp
      have hw0 : w = w0 := Classical.byContradiction fun hne => by rw [g2 w hne] at hh; cases hh
      subst hw0
      rw [hh] at g3
      have g4 : (settledReplies ls).map (·.1) = List.range (a + 1) := by
        rcases g3 with ⟨g, _⟩ | ⟨⟨_, g, _⟩, _⟩ | ⟨_, g⟩
        · cases g
        · cases g
        · exact g
      refine ⟨a + 1, ?_, .inl ⟨by rw [handled_append, e1, g1, Props.seq_succ], fun w' => ?_, ?_⟩⟩
      · rw [settled_append]; exact fun p hp => hw _ _ (h1 p (by simpa [settledReplies] using hp))
      · by_cases e : w' = w
        · simp [Rpc.set, e]
        · simp [Rpc.set, e, g2 w' e]
      · rw [settled_append]; simpa [settledReplies] using g4
  | call w j m rep t' hh hm hf hs =>
    rcases h2 with ⟨g1, g2, g3⟩ | ⟨g1, w0, g2, g3⟩
    · rw [g2] at hh; cases hh
    · have hw0 : w = w0 := Classical.byContradiction fun hne => by rw [g2 w hne] at hh; cases hh
      subst hw0
      rw [hh] at g3
      obtain ⟨rfl, g4⟩ : j = a ∧ (settledReplies ls).map (·.1) = List.range a := by
        rcases g3 with ⟨g, g'⟩ | ⟨⟨_, g, _⟩, _⟩ | ⟨g, _⟩
        · cases g; exact ⟨rfl, g'⟩
        · cases g
        · cases g
      refine ⟨j, ?_, .inr ⟨by rw [handled_append, g1]; simp [handled, upTr, Pipe.workTr, Worker.handlingOf], w, fun w' hw' => by simp [Rpc.set, hw', g2 w' hw'],
        .inr (.inl ⟨⟨rep, by simp [Rpc.set], m, hm, hf⟩, ?_⟩)⟩⟩
      · rw [settled_append]; exact fun p hp => hw _ _ (h1 p (by simpa [settledReplies] using hp))
      · rw [settled_append]; simpa [settledReplies] using g4
  | skip w j m hh hm hf =>
    rcases h2 with ⟨g1, g2, g3⟩ | ⟨g1, w0, g2, g3⟩
    · rw [g2] at hh; cases hh
    · have hw0 : w = w0 := Classical.byContradiction fun hne => by rw [g2 w hne] at hh; cases hh
      subst hw0
      rw [hh] at g3
      obtain ⟨rfl, g4⟩ : j = a ∧ (settledReplies ls).map (·.1) = List.range a := by
        rcases g3 with ⟨g, g'⟩ | ⟨⟨_, g, _⟩, _⟩ | ⟨g, _⟩
        · cases g; exact ⟨rfl, g'⟩
        · cases g
        · cases g
      refine ⟨j, ?_, .inr ⟨by rw [handled_append, g1]; simp [handled, upTr, Pipe.workTr, Worker.handlingOf], w, fun w' hw' => by simp [Rpc.set, hw', g2 w' hw'], .inr (.inr ⟨by simp [Rpc.set], ?_⟩)⟩⟩
      · rw [settled_append]
        intro p hp
        rcases List.mem_append.1 hp with hp | hp
        · exact hw _ _ (h1 p hp)
        · simp [settledReplies] at hp; subst hp; exact ⟨m, hm, hf⟩
      · rw [settled_append, List.map_append, g4, List.range_succ]; simp [settledReplies]
  | ret w j rep l t' hh hl hs =>
    rcases h2 with ⟨g1, g2, g3⟩ | ⟨g1, w0, g2, g3⟩
    · rw [g2] at hh; cases hh
    · have hw0 : w = w0 := Classical.byContradiction fun hne => by rw [g2 w hne] at hh; cases hh
      subst hw0
      rw [hh] at g3
      obtain ⟨rfl, g4, g5⟩ : j = a ∧ (settledReplies ls).map (·.1) = List.range a ∧ wants f s a (some rep) := by
        rcases g3 with ⟨g, g'⟩ | ⟨⟨_, g, g''⟩, g'⟩ | ⟨g, _⟩
        · cases g
        · cases g; exact ⟨rfl, g', g''⟩
        · cases g
      refine ⟨j, ?_, .inr ⟨by rw [handled_append, g1]; simp [handled, upTr, Pipe.workTr, Worker.handlingOf], w, fun w' hw' => by simp [Rpc.set, hw', g2 w' hw'], .inr (.inr ⟨by simp [Rpc.set], ?_⟩)⟩⟩
      · rw [settled_append]
        intro p hp
        rcases List.mem_append.1 hp with hp | hp
        · exact hw _ _ (h1 p hp)
        · simp [settledReplies] at hp; subst hp; exact g5
      · rw [settled_append, List.map_append, g4, List.range_succ]; simp [settledReplies]

/-! ## Sending replies, one at a time -/

/-- The message that may have gone out in part: the one remembered (`e`), or else the one being sent (`bu`). -/
def last (e : Option Bytes) (bu : Option (Nat × Bytes)) : List Bytes := match e with
  | some m => [m]
  | none => (bu.map (·.2)).toList

/-- What is used of a way of sending if there is only one send at a time. `I s bu oks e w`: in state `s` the sender `bu` is in a send; `oks` have been sent, and perhaps a piece of `e`; `w` has been written. -/
structure Carrier (x : Sender) where
  I : x.S → Option (Nat × Bytes) → List Bytes → Option Bytes → Bytes → Prop
  init : I x.s0 none [] none []
  call : ∀ {s t oks e w i m}, I s none oks e w → x.st s (x.call i m) t → I t (some (i, m)) oks e w
  retOk : ∀ {s t oks e w i m l}, I s (some (i, m)) oks e w → x.st s l t → x.ret i l = true → x.ok l = true → e = none ∧ I t none (oks ++ [m]) none (w ++ x.wr l)
  retErr : ∀ {s t oks e w i m l}, I s (some (i, m)) oks e w → x.st s l t → x.ret i l = true → x.ok l = false → ∃ e', (e' = e ∨ e = none ∧ e' = some m) ∧ I t none oks e' (w ++ x.wr l)
  other : ∀ {s t bu oks e w l}, I s bu oks e w → x.st s l t → x.isCall l = false → (∀ i, x.ret i l = false) → I t bu oks e (w ++ x.wr l)
  wire : ∀ {s bu oks e w}, I s bu oks e w → w <+: (oks ++ last e bu).flatten

/-- The send that is going on: worker, number of the request, reply. -/
abbrev Busy := Option (Nat × Nat × Msg)

structure CarInv (C : Carrier x) (k : Decoder.Kind) (ls : List (Label x)) (s : State x) (E : Option (Nat × Msg)) (bu : Busy) : Prop where
  busy : ∀ w j rep, s.h w = .called j rep ↔ bu = some (w, j, rep)
  inv : C.I s.snd (bu.map fun p => (p.1, packed k p.2.2)) ((okReplies ls).map fun p => packed k p.2) (E.map fun p => packed k p.2) (written ls)
  sub : ((okReplies ls ++ E.toList).map asSettled).Sublist (settledReplies ls)

theorem car_inv (C : Carrier x) {ls : List (Label x)} {s : State x} (h : Steps (Step x k b wid cap c f) (init x k) ls s) : ∃ E bu, CarInv C k ls s E bu := by
  have := h.invariant_trace (P := fun ls s => Steps (Step x k b wid cap c f) (init x k) ls s ∧ ∃ E bu, CarInv C k ls s E bu) ?_ ⟨.nil _, none, none, ⟨(by intro w j rep; constructor <;> intro h <;> cases h), C.init, .slnil⟩⟩
  · exact this.2
  intro ls s l t ⟨h0, E, bu, h1, h2, h3⟩ hs
  refine ⟨h0.snoc hs, ?_⟩
  obtain ⟨a, _, hph⟩ := hand_inv h0
  have other : t.snd = s.snd → (∀ w j rep, t.h w = .called j rep ↔ s.h w = .called j rep) → written [l] = [] → okReplies [l] = [] → ∃ E bu, CarInv C k (ls ++ [l]) t E bu := by
    intro e1 e2 e3 e4
    refine ⟨E, bu, fun w j rep => (e2 w j rep).trans (h1 w j rep), ?_, ?_⟩
    · rw [e1, ok_append, e4, List.append_nil, written_append, e3, List.append_nil]; exact h2
    · rw [ok_append, e4, List.append_nil, settled_append]; exact h3.trans (List.sublist_append_left _ _)
  have hset : ∀ (w : Nat) (v : Hand), (∀ j rep, v ≠ .called j rep) → (∀ j rep, s.h w ≠ .called j rep) → ∀ w' j rep, Rpc.set s.h w v w' = .called j rep ↔ s.h w' = .called j rep := by
    intro w v hv hw w' j rep
    unfold Rpc.set
    split
    · rename_i e; subst e; exact ⟨fun h => absurd h (hv j rep), fun h => absurd h (hw j rep)⟩
    · exact Iff.rfl
  cases hs with
  | up => exact other rfl (fun _ _ _ => Iff.rfl) rfl rfl
  | read => exact other rfl (fun _ _ _ => Iff.rfl) rfl rfl
  | start w r t' hr hs =>
    refine other rfl (hset _ _ nofun fun j rep hc => ?_) rfl rfl
    -- the worker is free
    obtain ⟨a', _, hph'⟩ := hand_inv (h0.snoc (.start s w r t' hr hs))
    have e1 : handled (x := x) c [.up (.work (.start w r))] = [.begins r] := by simp [handled, upTr, Pipe.workTr, Worker.handlingOf, hr]
    rw [handled_append, e1] at hph'
    have hl : (handled c ls).length + 1 = 2 * a' + 1 := by
      rcases hph' with ⟨_, g2, _⟩ | ⟨g1, _⟩
      · have := g2 w; simp [Rpc.set] at this
      · have := congrArg List.length g1
        simpa [Props.seq_length, Pipe.requests] using this
    rcases hph with ⟨_, g2, _⟩ | ⟨g1, _⟩
    · rw [g2] at hc; cases hc
    · have := congrArg List.length g1
      simp [Props.seq_length, Pipe.requests] at this
      omega
  | finish w r o t' hr hh hs => exact other rfl (hset _ _ nofun fun j rep hc => by rw [hh] at hc; cases hc) rfl rfl
  | skip w j m hh hm hf => exact other rfl (hset _ _ nofun fun j rep hc => by rw [hh] at hc; cases hc) rfl rfl
  | call w j m rep t' hh hm hf hs =>
    have hno : ∀ w' j' rep', s.h w' ≠ .called j' rep' := by
      intro w' j' rep' hc
      rcases hph with ⟨_, g2, _⟩ | ⟨_, w0, g2, _⟩
      · rw [g2] at hc; cases hc
      · by_cases e : w' = w0
        · have e2 : w = w0 := Classical.byContradiction fun hne => by rw [g2 w hne] at hh; cases hh
          rw [e, ← e2, hh] at hc; cases hc
        · rw [g2 w' e] at hc; cases hc
    have hb : bu = none := by
      cases bu with
      | none => rfl
      | some p => exact absurd ((h1 p.1 p.2.1 p.2.2).2 rfl) (hno _ _ _)
    subst hb
    refine ⟨E, some (w, j, rep), fun w' j' rep' => ?_, ?_, ?_⟩
    · simp only [Rpc.set]
      split
      · rename_i e; subst e
        constructor
        · intro h; cases h; rfl
        · intro h; cases h; rfl
      · rename_i e
        exact ⟨fun h => absurd h (hno _ _ _), fun h => by cases h; exact absurd rfl e⟩
    · have e1 : okReplies (ls ++ [.call w j rep]) = okReplies ls := by rw [ok_append]; simp [okReplies]
      have e2 : written (ls ++ [.call w j rep]) = written ls := by rw [written_append]; simp [written]
      rw [e1, e2]
      exact C.call h2 hs
    · have e1 : okReplies (ls ++ [.call w j rep]) = okReplies ls := by rw [ok_append]; simp [okReplies]
      rw [e1, settled_append]; exact h3.trans (List.sublist_append_left _ _)
  | down l t' hc hl hs =>
    have e1 : okReplies (ls ++ [.down l]) = okReplies ls := by rw [ok_append]; simp [okReplies]
    have e2 : written (ls ++ [.down l]) = written ls ++ x.wr l := by rw [written_append]; simp [written]
    refine ⟨E, bu, h1, ?_, ?_⟩
    · rw [e1, e2]; exact C.other h2 hs hc hl
    · rw [e1, settled_append]; exact h3.trans (List.sublist_append_left _ _)
  | ret w j rep l t' hh hl hs =>
    have hb := (h1 w j rep).1 hh
    subst hb
    have e2 : written (ls ++ [.ret w j rep l]) = written ls ++ x.wr l := by rw [written_append]; simp [written]
    have e3 : settledReplies (ls ++ [.ret w j rep l]) = settledReplies ls ++ [asSettled (j, rep)] := by rw [settled_append]; rfl
    have hfree : ∀ w' j' rep', Rpc.set s.h w .done w' = .called j' rep' ↔ (none : Busy) = some (w', j', rep') := by
      intro w' j' rep'
      simp only [Rpc.set]
      split
      · exact ⟨nofun, nofun⟩
      · rename_i e
        exact ⟨fun h => by cases (h1 w' j' rep').1 h; exact absurd rfl e, nofun⟩
    cases hok : x.ok l with
    | true =>
      have e1 : okReplies (ls ++ [.ret w j rep l]) = okReplies ls ++ [(j, rep)] := by rw [ok_append]; simp [okReplies, hok]
      obtain ⟨g1, g2⟩ := C.retOk h2 hs hl hok
      have hE : E = none := by cases E with
        | none => rfl
        | some => cases g1
      subst hE
      refine ⟨none, none, hfree, ?_, ?_⟩
      · rw [e1, e2, List.map_append]; exact g2
      · rw [e1, e3, Option.toList_none, List.append_nil, List.map_append]
        rw [Option.toList_none, List.append_nil] at h3
        exact h3.append (List.Sublist.refl _)
    | false =>
      have e1 : okReplies (ls ++ [.ret w j rep l]) = okReplies ls := by rw [ok_append]; simp [okReplies, hok]
      obtain ⟨e', g1, g2⟩ := C.retErr h2 hs hl hok
      rcases g1 with rfl | ⟨g1, rfl⟩
      · refine ⟨E, none, hfree, ?_, ?_⟩
        · rw [e1, e2]; exact g2
        · rw [e1, e3]; exact h3.trans (List.sublist_append_left _ _)
      · have hE : E = none := by cases E with
          | none => rfl
          | some => cases g1
        subst hE
        refine ⟨some (j, rep), none, hfree, ?_, ?_⟩
        · rw [e1, e2]; exact g2
        · rw [e1, e3, List.map_append]
          rw [Option.toList_none, List.append_nil] at h3
          exact h3.append (List.Sublist.refl _)

/-- The reply that is being sent, as settled. -/
def busySettled (bu : Busy) : List (Nat × Option Msg) := (bu.map fun p => (p.2.1, some p.2.2)).toList

/-- Numbers of the replies settled and being sent. -/
theorem begun_range (C : Carrier x) {ls : List (Label x)} {s : State x} {E : Option (Nat × Msg)} {bu : Busy} (h : Steps (Step x k b wid cap c f) (init x k) ls s) (hc : CarInv C k ls s E bu) :
    (∃ n, (settledReplies ls ++ busySettled bu).map (·.1) = List.range n) ∧ ∀ p ∈ settledReplies ls ++ busySettled bu, wants f s p.1 p.2 := by
  obtain ⟨a, h1, h2⟩ := hand_inv h
  cases bu with
  | none =>
    simp only [busySettled, Option.map_none, Option.toList_none, List.append_nil]
    refine ⟨?_, h1⟩
    rcases h2 with ⟨_, _, h⟩ | ⟨_, _, _, ⟨_, h⟩ | ⟨_, h⟩ | ⟨_, h⟩⟩ <;> exact ⟨_, h⟩
  | some p =>
    obtain ⟨w, j, rep⟩ := p
    have hh := (hc.busy w j rep).2 rfl
    simp only [busySettled, Option.map_some, Option.toList_some]
    rcases h2 with ⟨_, g2, _⟩ | ⟨_, w0, g2, g3⟩
    · rw [g2] at hh; cases hh
    · have hw0 : w = w0 := Classical.byContradiction fun hne => by rw [g2 w hne] at hh; cases hh
      subst hw0
      rw [hh] at g3
      rcases g3 with ⟨g, _⟩ | ⟨⟨rep', g, g'⟩, g''⟩ | ⟨g, _⟩
      · cases g
      · cases g
        refine ⟨⟨_ + 1, by rw [List.map_append, g'', List.range_succ]; rfl⟩, fun p hp => ?_⟩
        rcases List.mem_append.1 hp with hp | hp
        · exact h1 p hp
        · rw [List.mem_singleton] at hp; subst hp; exact g'
      · cases g

/-- The replies on their way: those whose send returned nil, perhaps one more that failed or is being sent. -/
theorem down_msgs (C : Carrier x) {ls : List (Label x)} {s : State x} (h : Steps (Step x k b wid cap c f) (init x k) ls s) (hk : k ≠ .htlv)
    (hf : ∀ j m rep, m.2.length < 2 ^ 32 - 8 → f j m = some rep → rep.2.length < 2 ^ 32 - 8) (hu : ∀ m ∈ s.up.msgs, (key m).2.length < 2 ^ 32 - 8) :
    ∃ T : List (Nat × Msg), (T.map (·.1)).Pairwise (· < ·) ∧ (∀ p ∈ T, wants f s p.1 (some p.2)) ∧ okReplies ls <+: T ∧ T.length ≤ (okReplies ls).length + 1 ∧ s.msgs.map key <+: T.map (·.2) ∧
      ∃ B, B.length ≤ 1 ∧ (T.map asSettled).Sublist (settledReplies ls ++ B) ∧ ∃ n, (settledReplies ls ++ B).map (·.1) = List.range n := by
  obtain ⟨E, bu, hc⟩ := car_inv C h
  obtain ⟨⟨n, hn⟩, hw⟩ := begun_range C h hc
  have hp := parts h
  have fin : ∀ T : List (Nat × Msg), (T.map asSettled).Sublist (settledReplies ls ++ busySettled bu) → written ls <+: (T.map fun p => packed k p.2).flatten →
      (T.map (·.1)).Pairwise (· < ·) ∧ (∀ p ∈ T, wants f s p.1 (some p.2)) ∧ s.msgs.map key <+: T.map (·.2) ∧
        ∃ B, B.length ≤ 1 ∧ (T.map asSettled).Sublist (settledReplies ls ++ B) ∧ ∃ n, (settledReplies ls ++ B).map (·.1) = List.range n := by
    intro T hT hwr
    have hwant : ∀ p ∈ T, wants f s p.1 (some p.2) := fun p hp => hw _ (hT.subset (List.mem_map_of_mem hp))
    refine ⟨?_, hwant, ?_, busySettled bu, by cases bu <;> simp [busySettled], hT, n, hn⟩
    · have hs := hT.map (fun p : Nat × Option Msg => p.1)
      rw [List.map_map, hn] at hs
      exact List.pairwise_lt_range.sublist hs
    · obtain ⟨n, h1, _, _⟩ := Props.recv_prefix hk (T.map (·.2)) (fun m hm => by
        obtain ⟨p, hp, rfl⟩ := List.mem_map.1 hm
        obtain ⟨q, hm, hq⟩ := hwant p hp
        exact hf _ _ _ (hu q (List.mem_of_getElem? hm)) hq) (reads ls) (.trans (hp.flight ▸ List.prefix_append _ _) (by rw [List.map_map]; exact hwr))
      rw [hp.rcv] at h1
      show s.msgs.map Props.keyOf <+: _
      rw [h1]; exact List.take_prefix _ _
  have hwire := C.wire hc.inv
  cases E with
  | some e =>
    obtain ⟨g1, g2, g3⟩ := fin (okReplies ls ++ [e]) (hc.sub.trans (List.sublist_append_left _ _)) (by simpa [last] using hwire)
    exact ⟨_, g1, g2, List.prefix_append _ _, by simp, g3⟩
  | none =>
    cases bu with
    | none =>
      obtain ⟨g1, g2, g3⟩ := fin (okReplies ls) (by simpa [busySettled] using hc.sub) (by simpa [last] using hwire)
      exact ⟨_, g1, g2, List.prefix_rfl, by omega, g3⟩
    | some p =>
      obtain ⟨g1, g2, g3⟩ := fin (okReplies ls ++ [p.2]) (by
        have := hc.sub
        rw [Option.toList_none, List.append_nil] at this
        rw [List.map_append]
        exact this.append (List.Sublist.refl _)) (by simpa [last] using hwire)
      exact ⟨_, g1, g2, List.prefix_append _ _, by simp, g3⟩

/-- The claim of C148 for any way of sending. -/
theorem replies (C : Carrier x) {ls : List (Label x)} {s : State x} (h : Steps (Step x k b wid cap c f) (init x k) ls s) (hk : k ≠ .htlv)
    (hf : ∀ j m rep, m.2.length < 2 ^ 32 - 8 → f j m = some rep → rep.2.length < 2 ^ 32 - 8) (reqs : List Msg) (hr : ∀ m ∈ reqs, m.2.length < 2 ^ 32 - 8)
    (hw : (Pipe.sendTr (upTr ls)).flatMap x.wr <+: (reqs.map (Props.packOf k)).flatten) :
    ∃ T : List (Nat × Msg), (T.map (·.1)).Pairwise (· < ·) ∧ (∀ p ∈ T, ∃ q, reqs[p.1]? = some q ∧ f p.1 q = some p.2) ∧
      okReplies ls <+: T ∧ T.length ≤ (okReplies ls).length + 1 ∧ s.msgs.map key <+: T.map (·.2) := by
  have hi := Pipe.inv (parts h).up
  have h2 : s.up.msgs.map key <+: reqs := by
    obtain ⟨n, h1, _, _⟩ := Props.recv_prefix hk reqs hr (Pipe.readsOf (upTr ls)) (.trans (hi.flight ▸ List.prefix_append _ _) hw)
    rw [hi.rcv] at h1
    show s.up.msgs.map Props.keyOf <+: _
    rw [h1]; exact List.take_prefix _ _
  obtain ⟨T, h3, h4, h5, h6, h7, _⟩ := down_msgs C h hk hf fun m hm => hr _ (h2.subset (List.mem_map_of_mem hm))
  refine ⟨T, h3, fun p hp => ?_, h5, h6, h7⟩
  obtain ⟨m, hm, hq⟩ := h4 p hp
  refine ⟨key m, ?_, hq⟩
  have : (s.up.msgs.map key)[p.1]? = some (key m) := by rw [List.getElem?_map, hm]; rfl
  obtain ⟨r, hr⟩ := h2
  rw [← hr, List.getElem?_append_left (List.getElem?_eq_some_iff.1 this).1]
  exact this

theorem all_ok {ls : List (Label x)} (h1 : ∀ p ∈ settledReplies ls, p.2 ≠ none) (h2 : ∀ w j rep l, .ret w j rep l ∈ ls → x.ok l = true) : (okReplies ls).map asSettled = settledReplies ls := by
  induction ls with
  | nil => rfl
  | cons l ls ih =>
    have ih' := fun h => ih h fun w j rep l hl => h2 w j rep l (.tail _ hl)
    cases l with
    | ret w j rep l =>
      have e := h2 w j rep l (.head _)
      simp only [okReplies, settledReplies, List.filterMap_cons, e, if_true, List.map_cons] at h1 ih' ⊢
      rw [ih' fun p hp => h1 p (.tail _ hp)]
      rfl
    | skip w j => exact absurd rfl (h1 (j, none) (.head _))
    | _ => exact ih' h1

/-- The claim of C148 for any way of sending, in step. -/
theorem in_step (C : Carrier x) {ls : List (Label x)} {s : State x} (h : Steps (Step x k b wid cap c f) (init x k) ls s) (hk : k ≠ .htlv)
    (hf : ∀ j m, m.2.length < 2 ^ 32 - 8 → ∃ rep, f j m = some rep ∧ rep.2.length < 2 ^ 32 - 8) (hok : ∀ w j rep l, .ret w j rep l ∈ ls → x.ok l = true) (reqs : List Msg)
    (hr : ∀ m ∈ reqs, m.2.length < 2 ^ 32 - 8) (hw : (Pipe.sendTr (upTr ls)).flatMap x.wr <+: (reqs.map (Props.packOf k)).flatten) :
    ∀ i, i < s.msgs.length → ∃ q, reqs[i]? = some q ∧ s.msgs[i]?.map key = f i q := by
  have hf' : ∀ j m rep, m.2.length < 2 ^ 32 - 8 → f j m = some rep → rep.2.length < 2 ^ 32 - 8 := by
    intro j m rep hl e
    obtain ⟨rep', e', hl⟩ := hf j m hl
    rw [e] at e'; cases e'; exact hl
  have hi := Pipe.inv (parts h).up
  have h2 : s.up.msgs.map key <+: reqs := by
    obtain ⟨n, h1, _, _⟩ := Props.recv_prefix hk reqs hr (Pipe.readsOf (upTr ls)) (.trans (hi.flight ▸ List.prefix_append _ _) hw)
    rw [hi.rcv] at h1
    show s.up.msgs.map Props.keyOf <+: _
    rw [h1]; exact List.take_prefix _ _
  have hu : ∀ m ∈ s.up.msgs, (key m).2.length < 2 ^ 32 - 8 := fun m hm => hr _ (h2.subset (List.mem_map_of_mem hm))
  obtain ⟨T, h3, h4, h5, h6, h7, B, hB, hsub, n, hn⟩ := down_msgs C h hk hf' hu
  obtain ⟨a, hh⟩ := hand_inv h
  have hall : (okReplies ls).map asSettled = settledReplies ls := all_ok (fun p hp e => by
    obtain ⟨m, hx, hm⟩ := hh.settled p hp
    obtain ⟨rep, e', _⟩ := hf p.1 (key m) (hu m (List.mem_of_getElem? hx))
    rw [hm, e] at e'; cases e') hok
  -- the numbers of the replies are 0, 1, 2, …
  have hpre : T.map asSettled <+: settledReplies ls ++ B := by
    by_cases hl : T.length = (okReplies ls).length
    · have : T = okReplies ls := (h5.eq_of_length_le (by omega)).symm
      rw [this, hall]; exact List.prefix_append _ _
    · have h5l := h5.length_le
      have hlen : (settledReplies ls).length = (okReplies ls).length := by rw [← hall, List.length_map]
      exact hsub.eq_of_length_le (by rw [List.length_append, List.length_map]; omega) ▸ List.prefix_rfl
  have hnum : ∀ (i : Nat) p, T[i]? = some p → p.1 = i := by
    intro i p hp
    have g1 : (settledReplies ls ++ B)[i]? = some (asSettled p) := by
      obtain ⟨r, hr⟩ := hpre
      have : (T.map asSettled)[i]? = some (asSettled p) := by rw [List.getElem?_map, hp]; rfl
      rw [← hr, List.getElem?_append_left (List.getElem?_eq_some_iff.1 this).1]
      exact this
    have g2 : ((settledReplies ls ++ B).map (·.1))[i]? = some p.1 := by rw [List.getElem?_map, g1]; rfl
    rw [hn] at g2
    have := List.getElem?_eq_some_iff.1 g2
    obtain ⟨_, this⟩ := this
    simpa using this.symm
  intro i hlt
  obtain ⟨r, hr'⟩ := h7
  have hlt' : i < (s.msgs.map key).length := by simpa using hlt
  have e1 : (T.map (·.2))[i]? = (s.msgs[i]?).map key := by rw [← hr', List.getElem?_append_left hlt', List.getElem?_map]
  have hltT : i < T.length := by
    have : (s.msgs.map key).length ≤ (T.map (·.2)).length := by rw [← hr']; simp
    simp at this; omega
  obtain ⟨m, hm, hq⟩ := h4 T[i] (List.getElem_mem _)
  rw [hnum i T[i] (List.getElem?_eq_getElem hltT)] at hm hq
  refine ⟨key m, ?_, ?_⟩
  · have : (s.up.msgs.map key)[i]? = some (key m) := by rw [List.getElem?_map, hm]; rfl
    obtain ⟨r, hr⟩ := h2
    rw [← hr, List.getElem?_append_left (List.getElem?_eq_some_iff.1 this).1]
    exact this
  · rw [← e1, hq, List.getElem?_map, List.getElem?_eq_getElem hltT]; rfl

end Zinx.RpcAny
