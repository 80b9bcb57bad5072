import Verif.Model.Rpc
import Verif.Props.Pipe

/-!
# C105: every request gets at most one reply, and replies come in the order of the requests
-/

namespace Zinx.Props

open Zinx Zinx.Rpc

variable {cc bc : Nat} {k : Decoder.Kind} {b : Bool} {wid : Nat → Nat} {cap c : Nat} {direct : Bool} {f : Nat → Msg → Option Msg}

/-- The part of the requests. -/
def upTr (ls : List Rpc.Label) : List (Pipe.Label Send.Label) := ls.filterMap fun | .up l => some l | _ => none

/-- What the server does to send. -/
def downTr (ls : List Rpc.Label) : List Send.Label := ls.filterMap fun | .call _ _ _ l => some l | .ret _ _ _ l => some l | .down l => some l | _ => none

/-- The client's reads. -/
def clientReads (ls : List Rpc.Label) : List Bytes := ls.filterMap fun | .read x => some x | _ => none

/-- The send succeeded. -/
def sentOk : Send.Label → Bool
  | .enq _ _ => true
  | .dwrite _ _ w => w
  | _ => false

/-- The replies whose sending returned nil, with the number of the request. -/
def okReplies (ls : List Rpc.Label) : List (Nat × Msg) := ls.filterMap fun | .ret _ j rep l => if sentOk l then some (j, rep) else none | _ => none

/-- All replies whose sending returned, and those the handler did not want to send (`none`). -/
def settledReplies (ls : List Rpc.Label) : List (Nat × Option Msg) := ls.filterMap fun | .ret _ j rep _ => some (j, some rep) | .skip _ j => some (j, none) | _ => none

structure RpcInv (cc bc : Nat) (k : Decoder.Kind) (b : Bool) (wid : Nat → Nat) (cap c : Nat) (ls : List Rpc.Label) (s : Rpc.State) : Prop where
  up : Steps (Pipe.Step (Send.Step cc bc) Pipe.tcpWritten k b wid cap c) (Pipe.init {} k) (upTr ls) s.up
  snd : Steps (Send.Step cc bc) {} (downTr ls) s.snd
  flight : (clientReads ls).flatten ++ s.flight = (downTr ls).flatMap Pipe.tcpWritten
  rcv : Decoder.receiveNew k (clientReads ls) = (s.msgs, s.rcv)

theorem rpc_inv {ls : List Rpc.Label} {s : Rpc.State} (h : Steps (Rpc.Step cc bc k b wid cap c direct f) (Rpc.init k) ls s) : RpcInv cc bc k b wid cap c ls s := by
  refine h.invariant_trace (P := fun ls s => RpcInv cc bc k b wid cap c ls s) ?_ ⟨.nil _, .nil _, rfl, rfl⟩
  intro ls s l t ⟨h1, h2, h3, h4⟩ hs
  cases hs <;> refine ⟨?_, ?_, ?_, ?_⟩ <;> simp only [upTr, downTr, clientReads, List.filterMap_append, List.filterMap_cons, List.filterMap_nil, List.append_nil] at *
  all_goals first
    | assumption
    | (rename_i hs; exact h1.snoc hs)
    | (rename_i hs _; exact h1.snoc hs)
    | (rename_i hs; exact h2.snoc hs)
    | (rw [List.flatMap_append, ← h3, List.append_assoc]; simp)
    | skip
  · -- call writes nothing
    unfold callLabel
    split <;> rfl
  · rename_i hf _ _
    rw [← h3, hf, List.flatten_append]; simp
  · rename_i hd hr
    rw [hd] at h4
    exact Pipe.receive_snoc _ _ _ _ _ _ _ h4 hr

/-! ## Handlers -/

theorem seq_append (a b : List Worker.Req) : Worker.sequential (a ++ b) = Worker.sequential a ++ Worker.sequential b := List.flatMap_append

theorem seq_length (l : List Worker.Req) : (Worker.sequential l).length = 2 * l.length := by
  induction l with
  | nil => rfl
  | cons r l ih => show ([_, _] ++ Worker.sequential l).length = _; simp [ih]; omega

/-- After the events of the first `a` requests, the next one is the begin of request `a`. -/
theorem seq_begin {c a n : Nat} {e : Worker.HEv} (h : Worker.sequential (Pipe.requests c 0 a) ++ [e] <+: Worker.sequential (Pipe.requests c 0 n)) : a < n ∧ e = .begins ⟨some c, a, .message⟩ := by
  have hl := h.length_le
  simp only [List.length_append, seq_length, Pipe.requests, List.length_map, List.length_range, List.length_singleton] at hl
  obtain ⟨d, rfl⟩ : ∃ d, n = a + (d + 1) := ⟨n - a - 1, by omega⟩
  rw [Pipe.requests_append, seq_append, List.prefix_append_right_inj] at h
  have e2 : Worker.sequential (Pipe.requests c (0 + a) (d + 1)) = [.begins ⟨some c, a, .message⟩] ++ (.ends ⟨some c, a, .message⟩ :: Worker.sequential (Pipe.requests c (a + 1) d)) := by
    rw [Nat.add_comm d 1, Pipe.requests_append, seq_append]
    simp [Pipe.requests, Worker.sequential]
  rw [e2] at h
  have := List.prefix_of_prefix_length_le h (List.prefix_append _ _) (by simp)
  exact ⟨by omega, by simpa using this⟩

/-- And after that, its end. -/
theorem seq_end {c a n : Nat} {e : Worker.HEv} (h : Worker.sequential (Pipe.requests c 0 a) ++ [.begins ⟨some c, a, .message⟩] ++ [e] <+: Worker.sequential (Pipe.requests c 0 n)) :
    e = .ends ⟨some c, a, .message⟩ := by
  obtain ⟨hlt, _⟩ := seq_begin (.trans (List.prefix_append _ _) h)
  obtain ⟨d, rfl⟩ : ∃ d, n = a + (d + 1) := ⟨n - a - 1, by omega⟩
  rw [Pipe.requests_append, seq_append, List.append_assoc, List.prefix_append_right_inj] at h
  have e2 : Worker.sequential (Pipe.requests c (0 + a) (d + 1)) = [.begins ⟨some c, a, .message⟩, .ends ⟨some c, a, .message⟩] ++ Worker.sequential (Pipe.requests c (a + 1) d) := by
    rw [Nat.add_comm d 1, Pipe.requests_append, seq_append]
    simp [Pipe.requests, Worker.sequential]
  rw [e2] at h
  have := List.prefix_of_prefix_length_le h (List.prefix_append _ _) (by simp)
  simpa using this

theorem seq_succ (c a : Nat) : Worker.sequential (Pipe.requests c 0 (a + 1)) = Worker.sequential (Pipe.requests c 0 a) ++ [.begins ⟨some c, a, .message⟩] ++ [.ends ⟨some c, a, .message⟩] := by
  rw [Pipe.requests_append, seq_append, List.append_assoc]
  simp [Pipe.requests, Worker.sequential]

/-- The handling events of the connection at the server. -/
def handled (c : Nat) (ls : List Rpc.Label) : List Worker.HEv := Worker.handlingOf c (Pipe.workTr c (upTr ls))

/-- What the handler of request `j` wants to send. -/
def wants (f : Nat → Msg → Option Msg) (s : Rpc.State) (j : Nat) (o : Option Msg) : Prop := ∃ m, s.up.msgs[j]? = some m ∧ f j (key m) = o

structure HandInv (f : Nat → Msg → Option Msg) (c : Nat) (ls : List Rpc.Label) (s : Rpc.State) (a : Nat) : Prop where
  settled : ∀ p ∈ settledReplies ls, wants f s p.1 p.2
  phase : handled c ls = Worker.sequential (Pipe.requests c 0 a) ∧ (∀ w, s.h w = .idle) ∧ (settledReplies ls).map (·.1) = List.range a ∨
    handled c ls = Worker.sequential (Pipe.requests c 0 a) ++ [.begins ⟨some c, a, .message⟩] ∧ ∃ w0, (∀ w, w ≠ w0 → s.h w = .idle) ∧
      (s.h w0 = .got a ∧ (settledReplies ls).map (·.1) = List.range a ∨ (∃ rep, s.h w0 = .called a rep ∧ wants f s a (some rep)) ∧ (settledReplies ls).map (·.1) = List.range a ∨
        s.h w0 = .done ∧ (settledReplies ls).map (·.1) = List.range (a + 1))

theorem settled_append (a b : List Rpc.Label) : settledReplies (a ++ b) = settledReplies a ++ settledReplies b := List.filterMap_append

theorem handled_append (c : Nat) (a b : List Rpc.Label) : handled c (a ++ b) = handled c a ++ handled c b := by
  simp [handled, upTr, Pipe.workTr, Worker.handlingOf, List.filterMap_append]

theorem handled_other {c : Nat} {l : Pipe.Label Send.Label} (h : handles c l = false) : handled c [.up l] = [] := by
  cases l with
  | send => rfl
  | read => rfl
  | work a =>
    cases a with
    | arrive => rfl
    | submit => rfl
    | start w r =>
      have : ¬ r.conn = some c := by simpa [handles] using h
      simp [handled, upTr, Pipe.workTr, Worker.handlingOf, this]
    | finish w r o =>
      have : ¬ r.conn = some c := by simpa [handles] using h
      simp [handled, upTr, Pipe.workTr, Worker.handlingOf, this]

theorem msgs_grow {st : Pipe.State Send.State} {l : Pipe.Label Send.Label} {t : Pipe.State Send.State} (h : Pipe.Step (Send.Step cc bc) Pipe.tcpWritten k b wid cap c st l t) {j : Nat} {m : Pack.Message × Option Decoder.Resp}
    (hm : st.msgs[j]? = some m) : t.msgs[j]? = some m := by
  cases h with
  | send => exact hm
  | work => exact hm
  | read => exact List.getElem?_append_left (List.getElem?_eq_some_iff.1 hm).1 |>.trans hm

theorem hand_inv {ls : List Rpc.Label} {s : Rpc.State} (h : Steps (Rpc.Step cc bc k b wid cap c direct f) (Rpc.init k) ls s) : ∃ a, HandInv f c ls s a := by
  have := h.invariant_trace (P := fun ls s => Steps (Rpc.Step cc bc k b wid cap c direct f) (Rpc.init k) ls s ∧ ∃ a, HandInv f c ls s a) ?_ ⟨.nil _, 0, nofun, .inl ⟨rfl, fun _ => rfl, rfl⟩⟩
  · exact this.2
  intro ls s l t ⟨h0, a, h1, h2⟩ hs
  have h0' := h0.snoc hs
  refine ⟨h0', ?_⟩
  have hp : ∃ n, handled c (ls ++ [l]) <+: Worker.sequential (Pipe.requests c 0 n) := by
    have hi := Pipe.inv (rpc_inv h0').up
    have hf := C27_fifo_one_at_a_time (fun _ _ h => by cases h) hi.wk c
    rw [hi.arrived, List.nil_append] at hf
    exact ⟨_, hf⟩
  obtain ⟨n, hp⟩ := hp
  rw [handled_append] at hp
  have hw : ∀ j o, wants f s j o → wants f t j o := by
    intro j o ⟨m, hm, hf⟩
    cases hs with
    | up l t' hs _ => exact ⟨m, msgs_grow hs hm, hf⟩
    | start w r t' _ hs => exact ⟨m, msgs_grow hs hm, hf⟩
    | finish w r o t' _ _ hs => exact ⟨m, msgs_grow hs hm, hf⟩
    | _ => exact ⟨m, hm, hf⟩
  -- steps that change nothing here
  have same : t.h = s.h → handled c [l] = [] → settledReplies [l] = [] → ∃ a, HandInv f c (ls ++ [l]) t a := by
    intro e1 e2 e3
    refine ⟨a, ?_, ?_⟩
    · rw [settled_append, e3, List.append_nil]; exact fun p hp => hw _ _ (h1 p hp)
    · rw [settled_append, e3, List.append_nil, handled_append, e2, List.append_nil, e1]
      rcases h2 with h2 | ⟨g1, w0, g2, g3⟩
      · exact .inl h2
      · refine .inr ⟨g1, w0, g2, ?_⟩
        rcases g3 with g3 | ⟨⟨rep, g3, g4⟩, g5⟩ | g3
        · exact .inl g3
        · exact .inr (.inl ⟨⟨rep, g3, hw _ _ g4⟩, g5⟩)
        · exact .inr (.inr g3)
  cases hs with
  | up l t' hs hl => exact same rfl (handled_other hl) rfl
  | down => exact same rfl rfl rfl
  | read => exact same rfl rfl rfl
  | begins => exact same rfl rfl rfl
  | ends => exact same rfl rfl rfl
  | start w r t' hr hs =>
    have e1 : handled c [.up (.work (.start w r))] = [.begins r] := by simp [handled, upTr, Pipe.workTr, Worker.handlingOf, hr]
    rw [e1] at hp
    rcases h2 with ⟨g1, g2, g3⟩ | ⟨g1, _⟩
    · rw [g1] at hp
      obtain ⟨_, e⟩ := seq_begin hp
      cases e
      refine ⟨a, ?_, .inr ⟨by rw [handled_append, e1, g1], w, fun w' hw' => by simp [Rpc.set, hw', g2], .inl ⟨by simp [Rpc.set], ?_⟩⟩⟩
      · rw [settled_append]; exact fun p hp => hw _ _ (h1 p (by simpa [settledReplies] using hp))
      · rw [settled_append]; simpa [settledReplies] using g3
    · rw [g1] at hp
      cases seq_end hp
  | finish w r o t' hr hh hs =>
    have e1 : handled c [.up (.work (.finish w r o))] = [.ends r] := by simp [handled, upTr, Pipe.workTr, Worker.handlingOf, hr]
    rw [e1] at hp
    rcases h2 with ⟨g1, g2, g3⟩ | ⟨g1, w0, g2, g3⟩
    · rw [g2] at hh; cases hh
    · rw [g1] at hp
      cases seq_end hp
      have hw0 : w = w0 := Classical.byContradiction fun hne => by rw [g2 w hne] at hh; cases hh
      subst hw0
      rw [hh] at g3
      have g4 : (settledReplies ls).map (·.1) = List.range (a + 1) := by
        rcases g3 with ⟨g, _⟩ | ⟨⟨_, g, _⟩, _⟩ | ⟨_, g⟩
        · cases g
        · cases g
        · exact g
      refine ⟨a + 1, ?_, .inl ⟨by rw [handled_append, e1, g1, seq_succ], fun w' => ?_, ?_⟩⟩
      · rw [settled_append]; exact fun p hp => hw _ _ (h1 p (by simpa [settledReplies] using hp))
      · by_cases e : w' = w
        · simp [Rpc.set, e]
        · simp [Rpc.set, e, g2 w' e]
      · rw [settled_append]; simpa [settledReplies] using g4
  | call w j m rep t' hh hm hf hs =>
    rcases h2 with ⟨g1, g2, g3⟩ | ⟨g1, w0, g2, g3⟩
    · rw [g2] at hh; cases hh
    · have hw0 : w = w0 := Classical.byContradiction fun hne => by rw [g2 w hne] at hh; cases hh
      subst hw0
      rw [hh] at g3
      obtain ⟨rfl, g4⟩ : j = a ∧ (settledReplies ls).map (·.1) = List.range a := by
        rcases g3 with ⟨g, g'⟩ | ⟨⟨_, g, _⟩, _⟩ | ⟨g, _⟩
        · cases g; exact ⟨rfl, g'⟩
        · cases g
        · cases g
      refine ⟨j, ?_, .inr ⟨by rw [handled_append, g1]; simp [handled, upTr, Pipe.workTr, Worker.handlingOf], w, fun w' hw' => by simp [Rpc.set, hw', g2 w' hw'],
        .inr (.inl ⟨⟨rep, by simp [Rpc.set], m, hm, hf⟩, ?_⟩)⟩⟩
      · rw [settled_append]; exact fun p hp => hw _ _ (h1 p (by simpa [settledReplies] using hp))
      · rw [settled_append]; simpa [settledReplies] using g4
  | skip w j m hh hm hf =>
    rcases h2 with ⟨g1, g2, g3⟩ | ⟨g1, w0, g2, g3⟩
    · rw [g2] at hh; cases hh
    · have hw0 : w = w0 := Classical.byContradiction fun hne => by rw [g2 w hne] at hh; cases hh
      subst hw0
      rw [hh] at g3
      obtain ⟨rfl, g4⟩ : j = a ∧ (settledReplies ls).map (·.1) = List.range a := by
        rcases g3 with ⟨g, g'⟩ | ⟨⟨_, g, _⟩, _⟩ | ⟨g, _⟩
        · cases g; exact ⟨rfl, g'⟩
        · cases g
        · cases g
      refine ⟨j, ?_, .inr ⟨by rw [handled_append, g1]; simp [handled, upTr, Pipe.workTr, Worker.handlingOf], w, fun w' hw' => by simp [Rpc.set, hw', g2 w' hw'], .inr (.inr ⟨by simp [Rpc.set], ?_⟩)⟩⟩
      · rw [settled_append]
        intro p hp
        rcases List.mem_append.1 hp with hp | hp
        · exact hw _ _ (h1 p hp)
        · simp [settledReplies] at hp; subst hp; exact ⟨m, hm, hf⟩
      · rw [settled_append, List.map_append, g4, List.range_succ]; simp [settledReplies]
  | ret w j rep l t' hh hl hs =>
    rcases h2 with ⟨g1, g2, g3⟩ | ⟨g1, w0, g2, g3⟩
    · rw [g2] at hh; cases hh
    · have hw0 : w = w0 := Classical.byContradiction fun hne => by rw [g2 w hne] at hh; cases hh
      subst hw0
      rw [hh] at g3
      obtain ⟨rfl, g4, g5⟩ : j = a ∧ (settledReplies ls).map (·.1) = List.range a ∧ wants f s a (some rep) := by
        rcases g3 with ⟨g, g'⟩ | ⟨⟨_, g, g''⟩, g'⟩ | ⟨g, _⟩
        · cases g
        · cases g; exact ⟨rfl, g', g''⟩
        · cases g
      refine ⟨j, ?_, .inr ⟨by rw [handled_append, g1]; simp [handled, upTr, Pipe.workTr, Worker.handlingOf], w, fun w' hw' => by simp [Rpc.set, hw', g2 w' hw'], .inr (.inr ⟨by simp [Rpc.set], ?_⟩)⟩⟩
      · rw [settled_append]
        intro p hp
        rcases List.mem_append.1 hp with hp | hp
        · exact hw _ _ (h1 p hp)
        · simp [settledReplies] at hp; subst hp; exact g5
      · rw [settled_append, List.map_append, g4, List.range_succ]; simp [settledReplies]

/-! ## Sending replies -/

/-- In `SendToQueue` with `m`. -/
def busyWith (m : Bytes) : Send.BPc → Prop
  | .idle => False
  | .test m' | .cas m' | .make m' | .check m' | .sel m' _ => m' = m
  | .closing => True

theorem ok_append (a b : List Rpc.Label) : okReplies (a ++ b) = okReplies a ++ okReplies b := List.filterMap_append

theorem down_append (a b : List Rpc.Label) : downTr (a ++ b) = downTr a ++ downTr b := List.filterMap_append

structure QueueInv (k : Decoder.Kind) (ls : List Rpc.Label) (s : Rpc.State) : Prop where
  busy : ∀ w j rep, s.h w = .called j rep → busyWith (packed k rep) (s.snd.b w)
  quiet : ∀ w, s.snd.d w = .idle
  none : ∀ i x w, .dwrite i x w ∉ downTr ls
  enq : Send.enqOf (downTr ls) = (okReplies ls).map fun p => packed k p.2

theorem queue_inv {ls : List Rpc.Label} {s : Rpc.State} (h : Steps (Rpc.Step cc bc k b wid cap c false f) (Rpc.init k) ls s) : QueueInv k ls s := by
  refine h.invariant_trace (P := fun ls s => QueueInv k ls s) ?_ ⟨nofun, fun _ => rfl, nofun, rfl⟩
  intro ls s l t ⟨h1, h2, h3, h4⟩ hs
  have other : t.snd = s.snd → (∀ w j rep, t.h w = .called j rep → s.h w = .called j rep) → downTr [l] = [] → okReplies [l] = [] → QueueInv k (ls ++ [l]) t := by
    intro e1 e2 e3 e4
    refine ⟨fun w j rep hh => e1 ▸ h1 w j rep (e2 w j rep hh), e1 ▸ h2, ?_, ?_⟩
    · rw [down_append, e3, List.append_nil]; exact h3
    · rw [down_append, e3, List.append_nil, ok_append, e4, List.append_nil]; exact h4
  have hset : ∀ (w : Nat) (v : Rpc.Hand), (∀ j rep, v ≠ .called j rep) → ∀ w' j rep, Rpc.set s.h w v w' = .called j rep → s.h w' = .called j rep := by
    intro w v hv w' j rep hh
    unfold Rpc.set at hh
    split at hh
    · exact absurd hh (hv j rep)
    · exact hh
  cases hs with
  | up => exact other rfl (fun _ _ _ h => h) rfl rfl
  | start => exact other rfl (hset _ _ nofun) rfl rfl
  | finish => exact other rfl (hset _ _ nofun) rfl rfl
  | skip => exact other rfl (hset _ _ nofun) rfl rfl
  | read => exact other rfl (fun _ _ _ h => h) rfl rfl
  | begins => exact other rfl (fun _ _ _ h => h) rfl rfl
  | ends => exact other rfl (fun _ _ _ h => h) rfl rfl
  | call w j m rep t' hh hm hf hs =>
    simp only [callLabel, Bool.false_eq_true, if_false] at hs ⊢
    cases hs with
    | call _ _ hi =>
      refine ⟨fun w' j' rep' hh' => ?_, h2, ?_, ?_⟩
      · simp only [Rpc.set, Send.set] at hh' ⊢
        split at hh'
        · rename_i e; cases hh'; simp [e, busyWith]
        · rename_i e; simp only [e, if_false]; exact h1 w' j' rep' hh'
      · rw [down_append]; intro i x w' hm'; simp [downTr] at hm'; exact h3 i x w' (by simpa [downTr] using hm')
      · rw [down_append, ok_append, Send.enqOf_append, h4]; simp [downTr, okReplies, Send.enqOf]
  | down l t' hc hl hs =>
    have hb : ∀ w m, busyWith m (s.snd.b w) → busyWith m (t'.b w) := by
      intro w m hw
      have := hl w
      cases hs <;> simp only [isRet, isCall, Send.set, Bool.true_eq_false, decide_eq_false_iff_not] at * <;> grind [busyWith]
    have hd : ∀ w, t'.d w = .idle := by
      intro w
      cases hs <;> simp only [isCall, Send.set, Bool.true_eq_false] at * <;> grind
    have hnd : ∀ i x w, l ≠ .dwrite i x w := by
      rintro i x w rfl
      cases hs <;> grind
    have hne : Send.enqOf [l] = [] := by
      cases l with
      | enq i m => have := hl i; simp [isRet] at this
      | _ => rfl
    refine ⟨fun w j rep hh => hb w _ (h1 w j rep hh), hd, ?_, ?_⟩
    · rw [down_append]
      intro i x w hm
      rcases List.mem_append.1 hm with hm | hm
      · exact h3 i x w hm
      · simp [downTr] at hm; exact hnd i x w hm.symm
    · rw [down_append, ok_append, Send.enqOf_append, h4]
      show _ ++ Send.enqOf [l] = List.map _ (_ ++ [])
      rw [hne, List.append_nil, List.append_nil]
  | ret w j rep l t' hh hl hs =>
    have hw := h1 w j rep hh
    have hb : ∀ w' m, w' ≠ w → busyWith m (s.snd.b w') → busyWith m (t'.b w') := by
      intro w' m hne hw'
      cases hs <;> simp only [isRet, Send.set, Bool.false_eq_true, decide_eq_true_eq] at * <;> grind
    have hd : ∀ w, t'.d w = .idle := by
      intro w
      cases hs <;> simp only [isRet, Send.set, Bool.false_eq_true, decide_eq_true_eq] at * <;> grind
    have hnd : ∀ i x w, l ≠ .dwrite i x w := by
      rintro i x w rfl
      cases hs <;> grind
    have he : Send.enqOf [l] = (okReplies [.ret w j rep l]).map fun p => packed k p.2 := by
      cases hs <;> simp only [isRet, Bool.false_eq_true, decide_eq_true_eq] at hl <;> subst hl <;> first | rfl | skip
      · rename_i m c hsel _ _ _
        rw [hsel] at hw
        simp only [busyWith] at hw
        subst hw
        rfl
      all_goals exact absurd rfl (hnd _ _ _)
    refine ⟨fun w' j' rep' hh' => ?_, hd, ?_, ?_⟩
    · simp only [Rpc.set] at hh'
      split at hh'
      · cases hh'
      · rename_i e; exact hb w' _ e (h1 w' j' rep' hh')
    · rw [down_append]
      intro i x w hm
      rcases List.mem_append.1 hm with hm | hm
      · exact h3 i x w hm
      · simp [downTr] at hm; exact hnd i x w hm.symm
    · rw [down_append, ok_append, Send.enqOf_append, h4, List.map_append, ← he]; rfl

/-- A reply as settled. -/
def asSettled (p : Nat × Msg) : Nat × Option Msg := (p.1, some p.2)

theorem ok_settled (ls : List Rpc.Label) : ((okReplies ls).map asSettled).Sublist (settledReplies ls) := by
  induction ls with
  | nil => exact .slnil
  | cons l ls ih =>
    cases l with
    | ret w j rep l =>
      simp only [okReplies, settledReplies, List.filterMap_cons] at ih ⊢
      by_cases e : sentOk l = true
      · simp only [e, if_true]; exact .cons_cons _ ih
      · simp only [e]; exact .cons _ ih
    | skip w j =>
      simp only [okReplies, settledReplies, List.filterMap_cons] at ih ⊢
      exact .cons _ ih
    | _ => exact ih

structure DirectInv (k : Decoder.Kind) (ls : List Rpc.Label) (s : Rpc.State) (T : List (Nat × Msg)) : Prop where
  busy : ∀ w j rep, s.h w = .called j rep → s.snd.d w = .check (packed k rep) ∨ s.snd.d w = .write (packed k rep)
  quiet : ∀ w, s.snd.b w = .idle
  none : ∀ i x, .enq i x ∉ downTr ls
  sub : (T.map asSettled).Sublist (settledReplies ls)
  ok : okReplies ls <+: T
  len : T.length ≤ (okReplies ls).length + 1
  bytes : (directs (downTr ls)).flatten <+: (T.map fun p => packed k p.2).flatten
  whole : s.snd.broken = false → T = okReplies ls ∧ (directs (downTr ls)).flatten = (T.map fun p => packed k p.2).flatten

theorem direct_inv {ls : List Rpc.Label} {s : Rpc.State} (h : Steps (Rpc.Step cc bc k b wid cap c true f) (Rpc.init k) ls s) : ∃ T, DirectInv k ls s T := by
  refine h.invariant_trace (P := fun ls s => ∃ T, DirectInv k ls s T) ?_ ⟨[], nofun, fun _ => rfl, nofun, .slnil, List.prefix_rfl, by simp, List.prefix_rfl, fun _ => ⟨rfl, rfl⟩⟩
  intro ls s l t ⟨T, h1, h2, h3, h4, h5, h6, h7, h8⟩ hs
  have other : t.snd = s.snd → (∀ w j rep, t.h w = .called j rep → s.h w = .called j rep) → downTr [l] = [] → okReplies [l] = [] → ∃ T, DirectInv k (ls ++ [l]) t T := by
    intro e1 e2 e3 e4
    refine ⟨T, fun w j rep hh => e1 ▸ h1 w j rep (e2 w j rep hh), e1 ▸ h2, ?_, ?_, ?_, ?_, ?_, ?_⟩
    · rw [down_append, e3, List.append_nil]; exact h3
    · rw [settled_append]; exact h4.trans (List.sublist_append_left _ _)
    · rw [ok_append, e4, List.append_nil]; exact h5
    · rw [ok_append, e4, List.append_nil]; exact h6
    · rw [down_append, e3, List.append_nil]; exact h7
    · rw [down_append, e3, List.append_nil, ok_append, e4, List.append_nil, e1]; exact h8
  have hset : ∀ (w : Nat) (v : Rpc.Hand), (∀ j rep, v ≠ .called j rep) → ∀ w' j rep, Rpc.set s.h w v w' = .called j rep → s.h w' = .called j rep := by
    intro w v hv w' j rep hh
    unfold Rpc.set at hh
    split at hh
    · exact absurd hh (hv j rep)
    · exact hh
  cases hs with
  | up => exact other rfl (fun _ _ _ h => h) rfl rfl
  | start => exact other rfl (hset _ _ nofun) rfl rfl
  | finish => exact other rfl (hset _ _ nofun) rfl rfl
  | skip => exact other rfl (hset _ _ nofun) rfl rfl
  | read => exact other rfl (fun _ _ _ h => h) rfl rfl
  | begins => exact other rfl (fun _ _ _ h => h) rfl rfl
  | ends => exact other rfl (fun _ _ _ h => h) rfl rfl
  | call w j m rep t' hh hm hf hs =>
    simp only [callLabel, if_true] at hs ⊢
    cases hs with
    | dcall _ _ hi =>
      have e1 : okReplies [.call w j rep (.dcall w (packed k rep))] = [] := rfl
      have e2 : downTr [.call w j rep (.dcall w (packed k rep))] = [.dcall w (packed k rep)] := rfl
      refine ⟨T, fun w' j' rep' hh' => ?_, h2, ?_, by rw [settled_append]; exact h4.trans (List.sublist_append_left _ _), ?_, ?_, ?_, ?_⟩
      · simp only [Rpc.set, Send.set] at hh' ⊢
        split at hh'
        · rename_i e; cases hh'; simp [e]
        · rename_i e; simp only [e, if_false]; exact h1 w' j' rep' hh'
      · rw [down_append]; intro i x hm'; rcases List.mem_append.1 hm' with hm' | hm'
        · exact h3 i x hm'
        · simp [downTr] at hm'
      · rw [ok_append, e1, List.append_nil]; exact h5
      · rw [ok_append, e1, List.append_nil]; exact h6
      · rw [down_append, e2, directs_append]; simpa [directs] using h7
      · rw [down_append, e2, directs_append, ok_append, e1]; simpa [directs] using h8
  | down l t' hc hl hs =>
    have e1 : okReplies [.down l] = [] := rfl
    have e2 : downTr [.down l] = [l] := rfl
    have hd : ∀ w m, s.snd.d w = .check m ∨ s.snd.d w = .write m → t'.d w = .check m ∨ t'.d w = .write m := by
      intro w m hw
      have := hl w
      cases hs <;> simp only [isRet, isCall, Send.set, Bool.true_eq_false, decide_eq_false_iff_not] at * <;> grind
    have hb : ∀ w, t'.b w = .idle := by
      intro w
      cases hs <;> simp only [isCall, Send.set, Bool.true_eq_false] at * <;> grind
    have hne : ∀ i x, l ≠ .enq i x := by
      rintro i x rfl
      have := hl i; simp [isRet] at this
    have hnd : directs [l] = [] := by
      cases l with
      | dwrite i x w => have := hl i; simp [isRet] at this
      | _ => rfl
    have hbr : t'.broken = false → s.snd.broken = false := by
      intro hx
      cases hs <;> simp_all
    refine ⟨T, fun w j rep hh => hd w _ (h1 w j rep hh), hb, ?_, by rw [settled_append]; exact h4.trans (List.sublist_append_left _ _), ?_, ?_, ?_, ?_⟩
    · rw [down_append]; intro i x hm'; rcases List.mem_append.1 hm' with hm' | hm'
      · exact h3 i x hm'
      · simp [downTr] at hm'; exact hne i x hm'.symm
    · rw [ok_append, e1, List.append_nil]; exact h5
    · rw [ok_append, e1, List.append_nil]; exact h6
    · rw [down_append, e2, directs_append, hnd, List.append_nil]; exact h7
    · rw [down_append, e2, directs_append, hnd, List.append_nil, ok_append, e1, List.append_nil]; exact fun hx => h8 (hbr hx)
  | ret w j rep l t' hh hl hs =>
    have hw := h1 w j rep hh
    have e2 : downTr [.ret w j rep l] = [l] := rfl
    have e3 : settledReplies [.ret w j rep l] = [asSettled (j, rep)] := rfl
    have hd : ∀ w' m, w' ≠ w → s.snd.d w' = .check m ∨ s.snd.d w' = .write m → t'.d w' = .check m ∨ t'.d w' = .write m := by
      intro w' m hne hw'
      cases hs <;> simp only [isRet, Send.set, Bool.false_eq_true, decide_eq_true_eq] at * <;> grind
    have hb : ∀ w, t'.b w = .idle := by
      intro w
      cases hs <;> simp only [isRet, Send.set, Bool.false_eq_true, decide_eq_true_eq] at * <;> grind
    have hne : ∀ i x, l ≠ .enq i x := by
      rintro i x rfl
      cases hs; grind
    have hnone : ∀ i x, Send.Label.enq i x ∉ downTr (ls ++ [.ret w j rep l]) := by
      rw [down_append]; intro i x hm'; rcases List.mem_append.1 hm' with hm' | hm'
      · exact h3 i x hm'
      · simp [downTr] at hm'; exact hne i x hm'.symm
    have hbusy : ∀ w' j' rep', Rpc.set s.h w .done w' = .called j' rep' → t'.d w' = .check (packed k rep') ∨ t'.d w' = .write (packed k rep') := by
      intro w' j' rep' hh'
      simp only [Rpc.set] at hh'
      split at hh'
      · cases hh'
      · rename_i e; exact hd w' _ e (h1 w' j' rep' hh')
    have fail : directs [l] = [] → sentOk l = false → (t'.broken = false → s.snd.broken = false) →
        ∃ T, DirectInv k (ls ++ [.ret w j rep l]) { s with snd := t', flight := s.flight ++ Pipe.tcpWritten l, h := Rpc.set s.h w .done } T := by
      intro e4 e5 e6
      have e1 : okReplies [.ret w j rep l] = [] := by simp [okReplies, e5]
      refine ⟨T, hbusy, hb, hnone, by rw [settled_append]; exact h4.trans (List.sublist_append_left _ _), ?_, ?_, ?_, ?_⟩
      · rw [ok_append, e1, List.append_nil]; exact h5
      · rw [ok_append, e1, List.append_nil]; exact h6
      · rw [down_append, e2, directs_append, e4, List.append_nil]; exact h7
      · rw [down_append, e2, directs_append, e4, List.append_nil, ok_append, e1, List.append_nil]; exact fun hx => h8 (e6 hx)
    cases hs with
    | dwrite i m hm hbr =>
      simp only [isRet, decide_eq_true_eq] at hl
      subst hl
      rw [hm] at hw
      have hm' : m = packed k rep := by rcases hw with hw | hw <;> cases hw; rfl
      obtain ⟨g1, g2⟩ := h8 hbr
      have e1 : okReplies [.ret i j rep (.dwrite i m true)] = [(j, rep)] := rfl
      have e4 : (directs (downTr (ls ++ [.ret i j rep (.dwrite i m true)]))).flatten = ((T ++ [(j, rep)]).map fun p => packed k p.2).flatten := by
        rw [down_append, e2, directs_append, List.flatten_append, g2]; simp [directs, hm']
      refine ⟨T ++ [(j, rep)], hbusy, hb, hnone, ?_, ?_, ?_, ?_, ?_⟩
      · rw [settled_append, e3, List.map_append]; exact h4.append (List.Sublist.refl _)
      · rw [ok_append, e1, g1]; exact List.prefix_rfl
      · rw [ok_append, e1, g1]; simp
      · rw [e4]; exact List.prefix_rfl
      · exact fun _ => ⟨by rw [ok_append, e1, g1], e4⟩
    | dwritePart i m x hm hbr hx =>
      simp only [isRet, decide_eq_true_eq] at hl
      subst hl
      rw [hm] at hw
      have hm' : m = packed k rep := by rcases hw with hw | hw <;> cases hw; rfl
      obtain ⟨g1, g2⟩ := h8 hbr
      have e1 : okReplies [.ret i j rep (.dwrite i x false)] = [] := rfl
      refine ⟨T ++ [(j, rep)], hbusy, hb, hnone, ?_, ?_, ?_, ?_, ?_⟩
      · rw [settled_append, e3, List.map_append]; exact h4.append (List.Sublist.refl _)
      · rw [ok_append, e1, List.append_nil, g1]; exact List.prefix_append _ _
      · rw [ok_append, e1, List.append_nil, g1]; simp
      · rw [down_append, e2, directs_append, List.flatten_append, g2, List.map_append, List.flatten_append, List.prefix_append_right_inj]
        simpa [directs, hm'] using hm' ▸ hx
      · intro hx; cases hx
    | dcheckClosed => exact fail rfl rfl fun h => h
    | dwriteFail => exact fail rfl rfl fun h => h
    | _ => first
      | (simp only [isRet, Bool.false_eq_true] at hl; done)
      | exact fail rfl rfl fun h => h
      | exact absurd rfl (hne _ _)
      | exact absurd hl (by simp [isRet])

/-! ## C105 -/

/-- The client's sends are all buffered, or all direct; each has fewer than 2^32-8 bytes of data, in the common format. -/
def GoodClient (k : Decoder.Kind) (buffered : Bool) (ls : List (Pipe.Label Send.Label)) : Prop :=
  if buffered then GoodCalls k ls ∧ OnlyBuffered ls else GoodDirect k ls ∧ OnlyDirect ls

/-- `reqs` are the messages the client sent: those whose send returned nil, in order; with direct sends there may be one more at the end, whose send failed. -/
def Sent (k : Decoder.Kind) (buffered : Bool) (ls : List (Pipe.Label Send.Label)) (reqs : List Msg) : Prop :=
  if buffered then Send.enqOf (Pipe.sendTr ls) = reqs.map (packOf k)
  else wholeOf (Pipe.sendTr ls) <+: reqs.map (packOf k) ∧ reqs.length ≤ (wholeOf (Pipe.sendTr ls)).length + 1

theorem up_msgs {buffered : Bool} {ls : List (Pipe.Label Send.Label)} {s : Pipe.State Send.State} (h : Steps (Pipe.Step (Send.Step cc bc) Pipe.tcpWritten k b wid cap c) (Pipe.init {} k) ls s)
    (hk : k ≠ .htlv) (hg : GoodClient k buffered ls) : ∃ reqs, Sent k buffered ls reqs ∧ s.msgs.map key <+: reqs ∧ ∀ m ∈ reqs, m.2.length < 2 ^ 32 - 8 := by
  have hi := Pipe.inv h
  have fin : ∀ msgs : List Msg, (∀ m ∈ msgs, m.2.length < 2 ^ 32 - 8) → (Pipe.sendTr ls).flatMap Pipe.tcpWritten <+: (msgs.map (packOf k)).flatten → s.msgs.map key <+: msgs := by
    intro msgs hm hw
    obtain ⟨n, h1, _, _⟩ := recv_prefix hk msgs hm (Pipe.readsOf ls) (.trans (hi.flight ▸ List.prefix_append _ _) hw)
    rw [hi.rcv] at h1
    show s.msgs.map keyOf <+: _
    rw [h1]; exact List.take_prefix _ _
  cases buffered with
  | true =>
    obtain ⟨hg, ho⟩ := hg
    obtain ⟨msgs, h1, h2⟩ := unpack_list _ (pipe_queued hi hg)
    refine ⟨msgs, h1, fin msgs h2 ?_, h2⟩
    rw [tcp_wire, pipe_wire hi ho, ← h1]
    exact (Send.stream_steps hi.snd).pre
  | false =>
    obtain ⟨hg, ho⟩ := hg
    obtain ⟨L, h1, h2, h3, h4⟩ := direct_stream hi.snd
    obtain ⟨msgs, e1, e2⟩ := unpack_list (k := k) L fun m hm => let ⟨i, hi⟩ := h1 m hm; hg i m (mem_sendTr.1 hi)
    refine ⟨msgs, ⟨e1 ▸ h3, by rw [e1, List.length_map] at h4; exact h4⟩, fin msgs e2 ?_, e2⟩
    rw [← e1, tcp_wire, (C38_partial cc bc _ _ hi.snd).2 fun i m hm => ho i m (mem_sendTr.1 ((enq_called hi.snd).2 i m hm))]
    exact h2

theorem settled_range {ls : List Rpc.Label} {s : Rpc.State} (h : Steps (Rpc.Step cc bc k b wid cap c direct f) (Rpc.init k) ls s) : ∃ n, (settledReplies ls).map (·.1) = List.range n := by
  obtain ⟨a, hh⟩ := hand_inv h
  rcases hh.phase with ⟨_, _, h⟩ | ⟨_, _, _, ⟨_, h⟩ | ⟨_, h⟩ | ⟨_, h⟩⟩
  · exact ⟨_, h⟩
  · exact ⟨_, h⟩
  · exact ⟨_, h⟩
  · exact ⟨_, h⟩

/-- The replies on their way: those whose send returned nil, with direct sends perhaps one more that was cut off. -/
theorem down_msgs {ls : List Rpc.Label} {s : Rpc.State} (h : Steps (Rpc.Step cc bc k b wid cap c direct f) (Rpc.init k) ls s) (hk : k ≠ .htlv)
    (hf : ∀ j m rep, m.2.length < 2 ^ 32 - 8 → f j m = some rep → rep.2.length < 2 ^ 32 - 8) (hu : ∀ m ∈ s.up.msgs, (key m).2.length < 2 ^ 32 - 8) :
    ∃ T, (T.map asSettled).Sublist (settledReplies ls) ∧ okReplies ls <+: T ∧ T.length ≤ (okReplies ls).length + 1 ∧ s.msgs.map key <+: T.map (·.2) := by
  have hi := rpc_inv h
  obtain ⟨a, hh⟩ := hand_inv h
  have fin : ∀ T : List (Nat × Msg), (T.map asSettled).Sublist (settledReplies ls) → (downTr ls).flatMap Pipe.tcpWritten <+: (T.map fun p => packed k p.2).flatten → s.msgs.map key <+: T.map (·.2) := by
    intro T hT hw
    obtain ⟨n, h1, _, _⟩ := recv_prefix hk (T.map (·.2)) (fun m hm => by
      obtain ⟨p, hp, rfl⟩ := List.mem_map.1 hm
      obtain ⟨q, hm, hq⟩ := hh.settled _ (hT.subset (List.mem_map_of_mem hp))
      exact hf _ _ _ (hu q (List.mem_of_getElem? hm)) hq) (clientReads ls) (.trans (hi.flight ▸ List.prefix_append _ _) (by rw [List.map_map]; exact hw))
    rw [hi.rcv] at h1
    show s.msgs.map keyOf <+: _
    rw [h1]; exact List.take_prefix _ _
  cases direct with
  | false =>
    have hq := queue_inv h
    refine ⟨okReplies ls, ok_settled ls, List.prefix_rfl, by omega, fin _ (ok_settled ls) ?_⟩
    rw [tcp_wire, wire_buffered _ hq.none, ← hq.enq]
    exact (Send.stream_steps hi.snd).pre
  | true =>
    obtain ⟨T, hT⟩ := direct_inv h
    refine ⟨T, hT.sub, hT.ok, hT.len, fin T hT.sub ?_⟩
    rw [tcp_wire, (C38_partial cc bc _ _ hi.snd).2 hT.none]
    exact hT.bytes

/-- **C105.** Whatever the schedule, the sizes of reads, the other work of the server, failures of the network and of sends: the client receives replies `T` (or a beginning of them), each of which is what the handler
made of the request with that number; the numbers are increasing, so each request has at most one reply and replies come in the order of the requests. Every reply whose send returned nil is among `T`, and at most one other,
at the end. -/
theorem C105_replies {buffered : Bool} {ls : List Rpc.Label} {s : Rpc.State} (h : Steps (Rpc.Step cc bc k b wid cap c direct f) (Rpc.init k) ls s) (hk : k ≠ .htlv) (hg : GoodClient k buffered (upTr ls))
    (hf : ∀ j m rep, m.2.length < 2 ^ 32 - 8 → f j m = some rep → rep.2.length < 2 ^ 32 - 8) :
    ∃ reqs : List Msg, Sent k buffered (upTr ls) reqs ∧ ∃ T : List (Nat × Msg), (T.map (·.1)).Pairwise (· < ·) ∧ (∀ p ∈ T, ∃ q, reqs[p.1]? = some q ∧ f p.1 q = some p.2) ∧
      okReplies ls <+: T ∧ T.length ≤ (okReplies ls).length + 1 ∧ s.msgs.map key <+: T.map (·.2) := by
  obtain ⟨reqs, h1, h2, hlen⟩ := up_msgs (rpc_inv h).up hk hg
  obtain ⟨T, h3, h4, h5, h6⟩ := down_msgs h hk hf fun m hm => hlen _ (h2.subset (List.mem_map_of_mem hm))
  obtain ⟨a, hh⟩ := hand_inv h
  refine ⟨reqs, h1, T, ?_, ?_, h4, h5, h6⟩
  · have hr := settled_range h
    obtain ⟨n, hn⟩ := hr
    have hs := h3.map (fun p : Nat × Option Msg => p.1)
    rw [List.map_map, hn] at hs
    exact List.pairwise_lt_range.sublist hs
  · intro p hp
    obtain ⟨m, hm, hq⟩ := hh.settled _ (h3.subset (List.mem_map_of_mem hp))
    refine ⟨key m, ?_, hq⟩
    have : (s.up.msgs.map key)[p.1]? = some (key m) := by rw [List.getElem?_map]; simp only [asSettled] at hm; rw [hm]; rfl
    obtain ⟨r, hr⟩ := h2
    rw [← hr, List.getElem?_append_left (List.getElem?_eq_some_iff.1 this).1]
    exact this

theorem all_ok {ls : List Rpc.Label} (h1 : ∀ p ∈ settledReplies ls, p.2 ≠ none) (h2 : ∀ w j rep l, .ret w j rep l ∈ ls → sentOk l = true) : (okReplies ls).map asSettled = settledReplies ls := by
  induction ls with
  | nil => rfl
  | cons l ls ih =>
    have ih' := fun h => ih h fun w j rep l hl => h2 w j rep l (.tail _ hl)
    cases l with
    | ret w j rep l =>
      have e := h2 w j rep l (.head _)
      simp only [okReplies, settledReplies, List.filterMap_cons, e, if_true, List.map_cons] at h1 ih' ⊢
      rw [ih' fun p hp => h1 p (.tail _ hp)]
      rfl
    | skip w j => exact absurd rfl (h1 (j, none) (.head _))
    | _ => exact ih' h1

/-- **C105**, in step: as long as every handler replies and no send of a reply has failed, the `i`-th message the client receives is the reply to the `i`-th message it sent. -/
theorem C105_in_step {buffered : Bool} {ls : List Rpc.Label} {s : Rpc.State} (h : Steps (Rpc.Step cc bc k b wid cap c direct f) (Rpc.init k) ls s) (hk : k ≠ .htlv) (hg : GoodClient k buffered (upTr ls))
    (hf : ∀ j m, m.2.length < 2 ^ 32 - 8 → ∃ rep, f j m = some rep ∧ rep.2.length < 2 ^ 32 - 8) (hok : ∀ w j rep l, .ret w j rep l ∈ ls → sentOk l = true) :
    ∃ reqs : List Msg, Sent k buffered (upTr ls) reqs ∧ s.msgs.length ≤ reqs.length ∧ ∀ (i : Nat) (q : Msg), i < s.msgs.length → reqs[i]? = some q → s.msgs[i]?.map key = f i q := by
  have hf' : ∀ j m rep, m.2.length < 2 ^ 32 - 8 → f j m = some rep → rep.2.length < 2 ^ 32 - 8 := by
    intro j m rep hl e
    obtain ⟨rep', e', hl⟩ := hf j m hl
    rw [e] at e'; cases e'; exact hl
  obtain ⟨reqs, h1, h2, hlen⟩ := up_msgs (rpc_inv h).up hk hg
  have hu : ∀ m ∈ s.up.msgs, (key m).2.length < 2 ^ 32 - 8 := fun m hm => hlen _ (h2.subset (List.mem_map_of_mem hm))
  obtain ⟨T, h3, h4, h5, h6⟩ := down_msgs h hk hf' hu
  obtain ⟨a, hh⟩ := hand_inv h
  obtain ⟨n, hn⟩ := settled_range h
  have hall : (okReplies ls).map asSettled = settledReplies ls := all_ok (fun p hp e => by
    obtain ⟨m, hx, hm⟩ := hh.settled p hp
    obtain ⟨rep, e', _⟩ := hf p.1 (key m) (hu m (List.mem_of_getElem? hx))
    rw [hm, e] at e'; cases e') hok
  have hT : T = okReplies ls := by
    have hl := h3.length_le
    rw [← hall, List.length_map, List.length_map] at hl
    exact (h4.eq_of_length_le hl).symm
  subst hT
  have hnum : (okReplies ls).map (·.1) = List.range n := by rw [← hn, ← hall, List.map_map]; rfl
  have hget : ∀ i, i < s.msgs.length → ∃ rep m, (s.msgs[i]?).map key = some rep ∧ s.up.msgs[i]? = some m ∧ f i (key m) = some rep := by
    intro i hi
    obtain ⟨r, hr⟩ := h6
    have hlt : i < (s.msgs.map key).length := by simpa using hi
    have e1 : ((okReplies ls).map (·.2))[i]? = (s.msgs[i]?).map key := by rw [← hr, List.getElem?_append_left hlt, List.getElem?_map]
    have hlt2 : i < (okReplies ls).length := by
      have : (s.msgs.map key).length ≤ ((okReplies ls).map (·.2)).length := by rw [← hr]; simp
      simp at this; omega
    have e2 : (okReplies ls)[i].1 = i := by
      have : ((okReplies ls).map (·.1))[i]? = some (okReplies ls)[i].1 := by rw [List.getElem?_map, List.getElem?_eq_getElem hlt2]; rfl
      have hn' : i < n := by
        have := congrArg List.length hnum
        simp at this; omega
      rw [hnum, List.getElem?_range hn'] at this
      exact (Option.some.inj this).symm
    obtain ⟨m, hm, hq⟩ := hh.settled (asSettled (okReplies ls)[i]) (by rw [← hall]; exact List.mem_map_of_mem (List.getElem_mem _))
    simp only [asSettled, e2] at hm hq
    exact ⟨(okReplies ls)[i].2, m, by rw [← e1, List.getElem?_map, List.getElem?_eq_getElem hlt2]; rfl, hm, hq⟩
  have hreq : ∀ (i : Nat) m, s.up.msgs[i]? = some m → reqs[i]? = some (key m) := by
    intro i m hm
    obtain ⟨r, hr⟩ := h2
    have : (s.up.msgs.map key)[i]? = some (key m) := by rw [List.getElem?_map, hm]; rfl
    rw [← hr, List.getElem?_append_left (List.getElem?_eq_some_iff.1 this).1]
    exact this
  refine ⟨reqs, h1, ?_, ?_⟩
  · apply Classical.byContradiction
    intro hlt
    obtain ⟨_, m, _, hm, _⟩ := hget reqs.length (by omega)
    have := hreq _ _ hm
    simp at this
  · intro i q hi hq
    obtain ⟨rep, m, e1, e2, e3⟩ := hget i hi
    have := hreq _ _ e2
    rw [hq] at this; cases this
    rw [e1, e3]

/-! ### Examples -/

/-- A handler that sends back what it got. -/
def echo : Nat → Msg → Option Msg := fun _ m => some m

def rpcOne : Bytes := [0, 0, 0, 5, 0, 0, 0, 1, 7]
def rpcTwo : Bytes := [0, 0, 0, 5, 0, 0, 0, 1, 8]
def rpcReq (j : Nat) : Worker.Req := ⟨some 3, j, .message⟩

/-- The client sends two messages with `SendMsg`; the server reads both at once; its worker begins with the first. -/
def rpcAsk : List Rpc.Label := [.up (.send (.dcall 0 rpcOne)), .up (.send (.dinside 0)), .up (.send (.dwrite 0 rpcOne true)), .up (.send (.dcall 0 rpcTwo)), .up (.send (.dinside 0)), .up (.send (.dwrite 0 rpcTwo true)),
  .up (.read (rpcOne ++ rpcTwo) [rpcReq 0, rpcReq 1]), .up (.work (.submit 1 (rpcReq 0))), .up (.work (.submit 1 (rpcReq 1))), .up (.work (.start 1 (rpcReq 0)))]

/-- Both are answered with `SendMsg`. -/
def rpcAnswer : List Rpc.Label := [.call 1 0 (5, [7]) (.dcall 1 rpcOne), .down (.dinside 1), .ret 1 0 (5, [7]) (.dwrite 1 rpcOne true), .up (.work (.finish 1 (rpcReq 0) .returned)), .up (.work (.start 1 (rpcReq 1))),
  .call 1 1 (5, [8]) (.dcall 1 rpcTwo), .down (.dinside 1), .ret 1 1 (5, [8]) (.dwrite 1 rpcTwo true), .up (.work (.finish 1 (rpcReq 1) .returned)), .read (rpcOne ++ rpcTwo)]

/-- The first is answered with `SendBuffMsg`, which times out; the second as well, which works. -/
def rpcTimeout : List Rpc.Label := [.call 1 0 (5, [7]) (.call 1 rpcOne), .down (.inside 1), .down (.inside 1), .down (.inside 1), .down (.inside 1), .ret 1 0 (5, [7]) (.retErr 1), .up (.work (.finish 1 (rpcReq 0) .returned)),
  .up (.work (.start 1 (rpcReq 1))), .call 1 1 (5, [8]) (.call 1 rpcTwo), .down (.inside 1), .down (.inside 1), .ret 1 1 (5, [8]) (.enq 1 rpcTwo), .up (.work (.finish 1 (rpcReq 1) .returned)), .down .recv, .down .winside,
  .down .winside, .down .tick, .down .winside, .down (.wwrite rpcTwo), .read rpcTwo]

def rpcGot (x : UInt8) : Pack.Message × Option Decoder.Resp := ({ Pack.newMsgPackage 5 [x] with rawData := [0, 0, 0, 5, 0, 0, 0, 1, x] }, some (.tlv 5 1 [x]))

theorem rpc_read_both : Decoder.receive .tlv (Frame.newFrameDecoder (Decoder.lengthField .tlv)) [rpcOne ++ rpcTwo] = ([rpcGot 7, rpcGot 8], .running (Frame.newFrameDecoder (Decoder.lengthField .tlv))) := by decide +kernel

theorem rpc_read_two : Decoder.receive .tlv (Frame.newFrameDecoder (Decoder.lengthField .tlv)) [rpcTwo] = ([rpcGot 8], .running (Frame.newFrameDecoder (Decoder.lengthField .tlv))) := by decide +kernel

/-- **C105**: the client handles the messages it receives in goroutines of their own, so it may handle the second reply, from begin to end, before it begins with the first. -/
theorem C105_handling_refuted : ∃ s, Steps (Rpc.Step 1 16 .tlv false (fun c => c % 2) 2 3 true echo) (Rpc.init .tlv) (rpcAsk ++ rpcAnswer ++ [.begins 1, .ends 1, .begins 0]) s ∧ s.msgs.map key = [(5, [7]), (5, [8])] :=
  ⟨_, .cons (.up _ _ _ (.send _ _ _ (.dcall _ 0 rpcOne rfl)) rfl)
    (.cons (.up _ _ _ (.send _ _ _ (.dcheckOpen _ 0 rpcOne rfl rfl)) rfl)
    (.cons (.up _ _ _ (.send _ _ _ (.dwrite _ 0 rpcOne rfl rfl)) rfl)
    (.cons (.up _ _ _ (.send _ _ _ (.dcall _ 0 rpcTwo rfl)) rfl)
    (.cons (.up _ _ _ (.send _ _ _ (.dcheckOpen _ 0 rpcTwo rfl rfl)) rfl)
    (.cons (.up _ _ _ (.send _ _ _ (.dwrite _ 0 rpcTwo rfl rfl)) rfl)
    (.cons (.up _ _ _ (.read _ (rpcOne ++ rpcTwo) [] _ _ _ (by decide) rfl rfl rpc_read_both _ (.arrive _ 3 _ rfl (by decide))) rfl)
    (.cons (.up _ _ _ (.work _ _ (by intro _ h; cases h) _ (.deliver _ 3 (rpcReq 0) [rpcReq 1] rfl (by decide))) rfl)
    (.cons (.up _ _ _ (.work _ _ (by intro _ h; cases h) _ (.deliver _ 3 (rpcReq 1) [] rfl (by decide))) rfl)
    (.cons (.start _ 1 (rpcReq 0) _ rfl (.work _ _ (by intro _ h; cases h) _ (.take _ 1 (rpcReq 0) [rpcReq 1] rfl rfl)))
    (.cons (.call _ 1 0 (rpcGot 7) (5, [7]) _ rfl rfl rfl (.dcall _ 1 rpcOne rfl))
    (.cons (.down _ _ _ rfl (by intro w; rfl) (.dcheckOpen _ 1 rpcOne rfl rfl))
    (.cons (.ret _ 1 0 (5, [7]) _ _ rfl rfl (.dwrite _ 1 rpcOne rfl rfl))
    (.cons (.finish _ 1 (rpcReq 0) .returned _ rfl rfl (.work _ _ (by intro _ h; cases h) _ (.finish _ 1 (rpcReq 0) .returned rfl)))
    (.cons (.start _ 1 (rpcReq 1) _ rfl (.work _ _ (by intro _ h; cases h) _ (.take _ 1 (rpcReq 1) [] rfl rfl)))
    (.cons (.call _ 1 1 (rpcGot 8) (5, [8]) _ rfl rfl rfl (.dcall _ 1 rpcTwo rfl))
    (.cons (.down _ _ _ rfl (by intro w; rfl) (.dcheckOpen _ 1 rpcTwo rfl rfl))
    (.cons (.ret _ 1 1 (5, [8]) _ _ rfl rfl (.dwrite _ 1 rpcTwo rfl rfl))
    (.cons (.finish _ 1 (rpcReq 1) .returned _ rfl rfl (.work _ _ (by intro _ h; cases h) _ (.finish _ 1 (rpcReq 1) .returned rfl)))
    (.cons (.read _ (rpcOne ++ rpcTwo) [] _ _ _ (by decide) rfl rfl rpc_read_both)
    (.cons (.begins _ 1 (by decide))
    (.cons (.ends _ 1 (by decide))
    (.cons (.begins _ 0 (by decide))
    (.nil _))))))))))))))))))))))), rfl⟩

/-- **C105**: a reply can be lost on a connection that works and stays open (`SendBuffMsg` gives up after five milliseconds), so that the first message the client receives is the reply to the second request. -/
theorem C105_in_step_refuted : ∃ s, Steps (Rpc.Step 1 16 .tlv false (fun c => c % 2) 2 3 false echo) (Rpc.init .tlv) (rpcAsk ++ rpcTimeout) s ∧ s.msgs.map key = [(5, [8])] ∧
    (s.snd.closed = false ∧ s.snd.broken = false ∧ s.up.snd.closed = false ∧ s.up.snd.broken = false) ∧ s.up.msgs.map key = [(5, [7]), (5, [8])] :=
  ⟨_, .cons (.up _ _ _ (.send _ _ _ (.dcall _ 0 rpcOne rfl)) rfl)
    (.cons (.up _ _ _ (.send _ _ _ (.dcheckOpen _ 0 rpcOne rfl rfl)) rfl)
    (.cons (.up _ _ _ (.send _ _ _ (.dwrite _ 0 rpcOne rfl rfl)) rfl)
    (.cons (.up _ _ _ (.send _ _ _ (.dcall _ 0 rpcTwo rfl)) rfl)
    (.cons (.up _ _ _ (.send _ _ _ (.dcheckOpen _ 0 rpcTwo rfl rfl)) rfl)
    (.cons (.up _ _ _ (.send _ _ _ (.dwrite _ 0 rpcTwo rfl rfl)) rfl)
    (.cons (.up _ _ _ (.read _ (rpcOne ++ rpcTwo) [] _ _ _ (by decide) rfl rfl rpc_read_both _ (.arrive _ 3 _ rfl (by decide))) rfl)
    (.cons (.up _ _ _ (.work _ _ (by intro _ h; cases h) _ (.deliver _ 3 (rpcReq 0) [rpcReq 1] rfl (by decide))) rfl)
    (.cons (.up _ _ _ (.work _ _ (by intro _ h; cases h) _ (.deliver _ 3 (rpcReq 1) [] rfl (by decide))) rfl)
    (.cons (.start _ 1 (rpcReq 0) _ rfl (.work _ _ (by intro _ h; cases h) _ (.take _ 1 (rpcReq 0) [rpcReq 1] rfl rfl)))
    (.cons (.call _ 1 0 (rpcGot 7) (5, [7]) _ rfl rfl rfl (.call _ 1 rpcOne rfl))
    (.cons (.down _ _ _ rfl (by intro w; rfl) (.testNil _ 1 rpcOne rfl rfl))
    (.cons (.down _ _ _ rfl (by intro w; rfl) (.casWin _ 1 rpcOne rfl rfl))
    (.cons (.down _ _ _ rfl (by intro w; rfl) (.make _ 1 rpcOne rfl))
    (.cons (.down _ _ _ rfl (by intro w; rfl) (.checkOpen _ 1 rpcOne rfl rfl))
    (.cons (.ret _ 1 0 (5, [7]) _ _ rfl rfl (.timeout _ 1 rpcOne true rfl))
    (.cons (.finish _ 1 (rpcReq 0) .returned _ rfl rfl (.work _ _ (by intro _ h; cases h) _ (.finish _ 1 (rpcReq 0) .returned rfl)))
    (.cons (.start _ 1 (rpcReq 1) _ rfl (.work _ _ (by intro _ h; cases h) _ (.take _ 1 (rpcReq 1) [] rfl rfl)))
    (.cons (.call _ 1 1 (rpcGot 8) (5, [8]) _ rfl rfl rfl (.call _ 1 rpcTwo rfl))
    (.cons (.down _ _ _ rfl (by intro w; rfl) (.testSome _ 1 rpcTwo rfl (by decide)))
    (.cons (.down _ _ _ rfl (by intro w; rfl) (.checkOpen _ 1 rpcTwo rfl rfl))
    (.cons (.ret _ 1 1 (5, [8]) _ _ rfl rfl (.enq _ 1 rpcTwo _ rfl rfl rfl (by decide)))
    (.cons (.finish _ 1 (rpcReq 1) .returned _ rfl rfl (.work _ _ (by intro _ h; cases h) _ (.finish _ 1 (rpcReq 1) .returned rfl)))
    (.cons (.down _ _ _ rfl (by intro w; rfl) (.recv _ rpcTwo [] false rfl rfl))
    (.cons (.down _ _ _ rfl (by intro w; rfl) (.gotOpen _ rpcTwo rfl rfl))
    (.cons (.down _ _ _ rfl (by intro w; rfl) (.putRest _ rpcTwo rfl rfl (by decide)))
    (.cons (.down _ _ _ rfl (by intro w; rfl) (.tick _ rfl))
    (.cons (.down _ _ _ rfl (by intro w; rfl) (.flushOpen _ rfl rfl))
    (.cons (.down _ _ _ rfl (by intro w; rfl) (.flushWrite _ rfl rfl (by decide) rfl))
    (.cons (.read _ rpcTwo [] _ _ _ (by decide) rfl rfl rpc_read_two)
    (.nil _)))))))))))))))))))))))))))))), rfl, ⟨rfl, rfl, rfl, rfl⟩, rfl⟩

theorem rpc_good (a : List Rpc.Label) (h : ∀ l, .up (.send l) ∉ a) : GoodClient .tlv false (upTr (rpcAsk ++ a)) := by
  have e : ∀ l, Pipe.Label.send l ∈ upTr (rpcAsk ++ a) → .up (.send l) ∈ rpcAsk := by
    intro l hl
    obtain ⟨x, hx, e⟩ := List.mem_filterMap.1 hl
    cases x <;> simp at e
    subst e
    rcases List.mem_append.1 hx with hx | hx
    · exact hx
    · exact absurd hx (h l)
  refine ⟨fun i m hm => ?_, fun i m hm => ?_⟩
  · have := e _ hm
    simp [rpcAsk] at this
    rcases this with ⟨_, rfl⟩ | ⟨_, rfl⟩
    · exact ⟨(5, [7]), by decide, by decide +kernel⟩
    · exact ⟨(5, [8]), by decide, by decide +kernel⟩
  · have := e _ hm
    simp [rpcAsk] at this

/-- The first of these meets the hypotheses of `C105_replies` and `C105_in_step`. -/
example : GoodClient .tlv false (upTr (rpcAsk ++ rpcAnswer)) ∧ (∀ j m, m.2.length < 2 ^ 32 - 8 → ∃ rep, echo j m = some rep ∧ rep.2.length < 2 ^ 32 - 8) ∧
    (∀ w j rep l, .ret w j rep l ∈ rpcAsk ++ rpcAnswer → sentOk l = true) ∧ okReplies (rpcAsk ++ rpcAnswer) = [(0, (5, [7])), (1, (5, [8]))] := by
  refine ⟨rpc_good _ (by simp [rpcAnswer]), fun j m h => ⟨m, rfl, h⟩, fun w j rep l h => ?_, by decide +kernel⟩
  simp [rpcAsk, rpcAnswer] at h
  rcases h with ⟨_, _, _, rfl⟩ | ⟨_, _, _, rfl⟩ <;> rfl

end Zinx.Props
