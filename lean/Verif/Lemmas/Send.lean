import Verif.Model.Send

/-! Lemmas about sending on a TCP connection. -/

namespace Zinx.Send

theorem set_same {α : Type} (f : Nat → α) (i : Nat) (v : α) : set f i v i = v := by simp [set]
theorem set_ne {α : Type} (f : Nat → α) {i j : Nat} (v : α) (h : j ≠ i) : set f i v j = f j := by simp [set, h]

/-! ## After the stop -/

/-- Goroutine `i` is in no send, or in one that has not passed the check of `isClosed`; the connection is stopped. -/
def BLate (i : Nat) (s : State) : Prop := s.closed = true ∧ s.b i ≠ .closing ∧ ∀ m h, s.b i ≠ .sel m h

def DLate (i : Nat) (s : State) : Prop := s.closed = true ∧ ∀ m, s.d i ≠ .write m

theorem bLate_step {cc bc i s l t} (h : BLate i s) (hs : Step cc bc s l t) : BLate i t ∧ l ≠ .panic i ∧ ∀ m, l ≠ .enq i m := by
  obtain ⟨h1, h2, h3⟩ := h
  cases hs <;> simp_all [BLate, set, -Bool.forall_bool] <;> grind

theorem dLate_step {cc bc i s l t} (h : DLate i s) (hs : Step cc bc s l t) : DLate i t ∧ ∀ x w, l ≠ .dwrite i x w := by
  obtain ⟨h1, h2⟩ := h
  cases hs <;> simp_all [DLate, set] <;> grind

/-! ## What the labels tell -/

/-- The messages queued, in the order in which they were queued. -/
def enqOf : List Label → List Bytes
  | [] => []
  | .enq _ m :: ls => m :: enqOf ls
  | _ :: ls => enqOf ls

/-- The bytes written by the writer. -/
def wbytes : List Label → Bytes
  | [] => []
  | .wwrite x :: ls => x ++ wbytes ls
  | _ :: ls => wbytes ls

theorem enqOf_append (a b : List Label) : enqOf (a ++ b) = enqOf a ++ enqOf b := by
  induction a with
  | nil => rfl
  | cons l a ih => cases l <;> simp [enqOf, ih]

theorem wbytes_append (a b : List Label) : wbytes (a ++ b) = wbytes a ++ wbytes b := by
  induction a with
  | nil => rfl
  | cons l a ih => cases l <;> simp [wbytes, ih]

/-! ## The stream of the writer -/

/-- The messages in the channel. -/
def State.items (s : State) : List Bytes := match s.chan with
  | none => []
  | some c => c.items

/-- What the writer holds that is not in the buffer yet. -/
def WPc.pend : WPc → Bytes
  | .got m => m
  | .put p => p
  | _ => []

def WPc.alive : WPc → Bool
  | .exiting | .gone => false
  | _ => true

/-- The bytes of the queued messages are, in order: those written, those in the buffer, those the writer holds, those in the channel. After the writer has given up, what was written, with the buffer, is
a prefix. -/
structure Stream (ls : List Label) (s : State) : Prop where
  alive : s.writer.alive = true → s.err = false ∧ (enqOf ls).flatten = wbytes ls ++ s.buf ++ s.writer.pend ++ s.items.flatten
  exiting : s.err = false → wbytes ls ++ s.buf <+: (enqOf ls).flatten
  pre : wbytes ls <+: (enqOf ls).flatten
  nochan : s.chan = none → s.writer = .none ∧ s.buf = []

/-- Only the winner of the compare-and-swap makes the channel. -/
structure Make (s : State) : Prop where
  one : ∀ i m j m', s.b i = .make m → s.b j = .make m' → i = j
  flag : ∀ i m, s.b i = .make m → s.flag = true ∧ s.chan = none
  none : s.flag = false → s.chan = none

theorem make_step {cc bc s l t} (h : Make s) (hs : Step cc bc s l t) : Make t := by
  obtain ⟨h1, h2, h3⟩ := h
  cases hs <;> (constructor <;> (simp [set] at * <;> grind))

theorem stream_step {cc bc ls s l t} (hm : Make s) (h : Stream ls s) (hs : Step cc bc s l t) : Stream (ls ++ [l]) t := by
  obtain ⟨h1, h2, h3, h4⟩ := h
  have h5 := hm.flag
  clear hm
  cases hs
  case putFill p h h6 h7 h8 h9 =>
    have e : (enqOf ls).flatten = wbytes ls ++ s.buf ++ (p.take (bc - s.buf.length) ++ p.drop (bc - s.buf.length)) ++ s.items.flatten := by
      rw [List.take_append_drop]
      have := (h1 (by rw [h]; rfl)).2
      rw [h] at this
      exact this
    constructor
    · intro _
      refine ⟨h6, ?_⟩
      simp only [enqOf_append, wbytes_append, enqOf, wbytes, List.append_nil, e, WPc.pend]
      simp [State.items]
    · intro _
      simp only [enqOf_append, wbytes_append, enqOf, wbytes, List.append_nil, e]
      exact ⟨p.drop (bc - s.buf.length) ++ s.items.flatten, by simp only [List.append_assoc]⟩
    · simp only [enqOf_append, wbytes_append, enqOf, wbytes, List.append_nil, e]
      exact ⟨p.drop (bc - s.buf.length) ++ s.items.flatten, by simp only [List.append_assoc]⟩
    · intro hn
      exact absurd (h4 hn).2 h8
  all_goals
    (constructor <;> (simp [List.IsPrefix, enqOf_append, wbytes_append, enqOf, wbytes, WPc.pend, WPc.alive, State.items] at * <;> grind))

theorem init_make : Make ({} : State) := ⟨nofun, nofun, fun _ => rfl⟩

theorem init_stream : Stream [] ({} : State) :=
  ⟨fun _ => ⟨rfl, rfl⟩, fun _ => ⟨[], rfl⟩, ⟨[], rfl⟩, fun _ => ⟨rfl, rfl⟩⟩

theorem make_steps {cc bc ls t} (h : Steps (Step cc bc) {} ls t) : Make t :=
  h.invariant (P := Make) (fun _ _ _ h hs => make_step h hs) init_make

theorem stream_steps {cc bc ls t} (h : Steps (Step cc bc) {} ls t) : Stream ls t :=
  (h.invariant_trace (P := fun ls s => Make s ∧ Stream ls s) (fun _ _ _ _ h hs => ⟨make_step h.1 hs, stream_step h.1 h.2 hs⟩) ⟨init_make, init_stream⟩).2

/-- How many messages the writer has received. -/
def recvs : List Label → Nat
  | [] => 0
  | .recv :: ls => recvs ls + 1
  | _ :: ls => recvs ls

theorem recvs_append (a b : List Label) : recvs (a ++ b) = recvs a + recvs b := by
  induction a with
  | nil => simp [recvs]
  | cons l a ih => cases l <;> simp [recvs, ih] <;> omega

/-- The messages received are the first ones queued; those in the channel are the others. -/
structure Recv (ls : List Label) (s : State) : Prop where
  items : (enqOf ls).drop (recvs ls) = s.items
  le : recvs ls ≤ (enqOf ls).length
  nowr : s.writer = .none → s.chan = none

theorem recv_step {cc bc ls s l t} (hm : Make s) (h : Recv ls s) (hs : Step cc bc s l t) : Recv (ls ++ [l]) t := by
  obtain ⟨h1, h2, h3⟩ := h
  have h5 := hm.flag
  clear hm
  cases hs
  case recv m ms c hw hc =>
    have e : (enqOf ls).drop (recvs ls) = m :: ms := by rw [h1]; simp [State.items, hc]
    refine ⟨?_, ?_, nofun⟩
    · simp only [enqOf_append, recvs_append, enqOf, recvs, List.append_nil]
      rw [← List.drop_drop, e]
      rfl
    · simp only [enqOf_append, recvs_append, enqOf, recvs, List.append_nil]
      have := congrArg List.length e
      simp only [List.length_drop, List.length_cons] at this
      omega
  case enq i m c hb hc hcl hl =>
    have e : (enqOf ls).drop (recvs ls) = c.items := by rw [h1]; simp [State.items, hc]
    refine ⟨?_, ?_, ?_⟩
    · simp only [enqOf_append, recvs_append, enqOf, recvs, Nat.add_zero]
      rw [List.drop_append_of_le_length h2, e]
      rfl
    · simp only [enqOf_append, recvs_append, enqOf, recvs, List.length_append]
      omega
    · intro hw
      rw [h3 hw] at hc
      cases hc
  case make i m hb =>
    refine ⟨?_, ?_, nofun⟩
    · simp only [enqOf_append, recvs_append, enqOf, recvs, Nat.add_zero, List.append_nil]
      rw [h1]
      simp [State.items, (h5 i m hb).2]
    · simpa [enqOf_append, recvs_append, enqOf, recvs] using h2
  all_goals
    (constructor <;> (simp [enqOf_append, recvs_append, enqOf, recvs, State.items] at * <;> grind))

theorem recv_steps {cc bc ls t} (h : Steps (Step cc bc) {} ls t) : Recv ls t :=
  (h.invariant_trace (P := fun ls s => Make s ∧ Recv ls s) (fun _ _ _ _ h hs => ⟨make_step h.1 hs, recv_step h.1 h.2 hs⟩) ⟨init_make, ⟨rfl, Nat.le_refl _, fun _ => rfl⟩⟩).2

/-! ## While nothing goes wrong -/

/-- While the connection is not stopped and the network works, nobody closes the channel and the writer does not give up. -/
structure Quiet (s : State) : Prop where
  closing : s.closed = false → ∀ i, s.b i ≠ .closing
  chan : s.closed = false → ∀ c, s.chan = some c → c.closed = false
  writer : s.closed = false → s.broken = false → s.err = false ∧ s.writer.alive = true

theorem quiet_step {cc bc s l t} (h : Quiet s) (hs : Step cc bc s l t) : Quiet t := by
  obtain ⟨h1, h2, h3⟩ := h
  cases hs <;> (constructor <;> (simp [set, WPc.alive] at * <;> grind))

theorem quiet_steps {cc bc ls t} (h : Steps (Step cc bc) {} ls t) : Quiet t :=
  h.invariant (P := Quiet) (fun _ _ _ h hs => quiet_step h hs) ⟨nofun, nofun, fun _ _ => ⟨rfl, rfl⟩⟩

theorem closed_step {cc bc s l t} (hl : l ≠ .stop) (h : s.closed = false) (hs : Step cc bc s l t) : t.closed = false := by
  cases hs <;> simp_all

theorem quiet_panic {cc bc s l t} (h : Quiet s) (hc : s.closed = false) (hs : Step cc bc s l t) (i : Nat) : l ≠ .panic i := by
  obtain ⟨h1, h2, h3⟩ := h
  cases hs <;> simp_all <;> grind

def BPc.isMake : BPc → Bool
  | .make _ => true
  | _ => false

/-- Buffered sends by one goroutine only. -/
structure One (i : Nat) (s : State) : Prop where
  idle : ∀ j, j ≠ i → s.b j = .idle
  start : ∀ m, s.b i = .cas m → s.chan = none ∧ s.flag = false
  chan : ∀ m, s.b i = .check m → s.chan ≠ none
  sel : ∀ m h, s.b i = .sel m h → h = true ∧ s.chan ≠ none
  closing : s.b i = .closing → s.closed = true ∧ s.chan ≠ none
  closed : ∀ c, s.chan = some c → c.closed = true → s.closed = true ∧ s.b i ≠ .closing ∧ ∀ m h, s.b i ≠ .sel m h
  flag : s.chan = none → s.flag = true → (s.b i).isMake = true

set_option maxHeartbeats 1000000 in
theorem one_step {cc bc i s l t} (h : One i s) (hl : ∀ j m, l = .call j m → j = i) (hs : Step cc bc s l t) : One i t := by
  obtain ⟨h1, h2, h3, h4, h5, h6, h7⟩ := h
  cases hs
  case checkOpen j m hb hc =>
    have e : j = i := Classical.byContradiction fun hne => by rw [h1 j hne] at hb; cases hb
    subst e
    have hch := h3 m hb
    have hsome : s.chan.isSome = true := by cases hx : s.chan with
      | none => exact absurd hx hch
      | some _ => rfl
    refine ⟨fun k hk => ?_, fun k hk => ?_, fun k hk => ?_, fun k b hk => ?_, fun hk => ?_, fun c h8 h9 => ?_, fun h8 => absurd h8 hch⟩ <;> dsimp only at *
    · rw [set_ne _ _ hk]; exact h1 k hk
    · rw [set_same] at hk; cases hk
    · rw [set_same] at hk; cases hk
    · rw [set_same] at hk; cases hk; exact ⟨hsome, hch⟩
    · rw [set_same] at hk; cases hk
    · rw [(h6 c h8 h9).1] at hc; cases hc
  all_goals (constructor <;> (simp [set, BPc.isMake, -Bool.forall_bool] at * <;> grind))

theorem one_panic {cc bc i s l t} (h : One i s) (hs : Step cc bc s l t) (j : Nat) : l ≠ .panic j := by
  obtain ⟨h1, h2, h3, h4, h5, h6, h7⟩ := h
  cases hs <;> simp [-Bool.forall_bool] at * <;> grind

/-- After the stop, with the writer neither at `Flush` nor in `Write`, the writer writes nothing any more. -/
def Late (s : State) : Prop := s.closed = true ∧ s.writer ≠ .flush ∧ s.writer ≠ .none ∧ s.chan ≠ none ∧ (∀ i m, s.b i ≠ .make m) ∧ ∀ p, s.writer ≠ .put p

theorem late_step {cc bc s l t} (hf : s.flag = true) (h : Late s) (hs : Step cc bc s l t) : t.flag = true ∧ Late t ∧ ∀ x, l ≠ .wwrite x := by
  obtain ⟨h1, h2, h3, h4, h5, h6⟩ := h
  cases hs <;> simp_all [Late, set] <;> grind

end Zinx.Send
