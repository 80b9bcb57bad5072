import Verif.Lemmas.SendLive

/-! # C37-C40: sending on a TCP connection -/

namespace Zinx.Props
open Zinx Zinx.Send

/-! ## C37 -/

/-- **C37**, direct sends. Once the connection is stopped, a send begun afterwards (goroutine `i` is in no send) writes nothing, so it returns an error: the action by which a direct send returns nil is a
write. -/
theorem C37_tcp_direct_partial (cc bc i : Nat) (s t : State) (ls : List Label) (hc : s.closed = true) (hi : s.d i = .idle) (h : Steps (Step cc bc) s ls t) (x : Bytes) (w : Bool) :
    .dwrite i x w ∉ ls := by
  have gen : ∀ {s t ls}, Steps (Step cc bc) s ls t → DLate i s → .dwrite i x w ∉ ls := by
    intro s t ls h
    induction h with
    | nil => intro _ hm; cases hm
    | cons hs _ ih =>
      intro hl hm
      obtain ⟨h1, h2⟩ := dLate_step hl hs
      cases hm with
      | head => exact h2 x w rfl
      | tail _ hm => exact ih h1 hm
  exact gen h ⟨hc, fun m hm => by rw [hi] at hm; cases hm⟩

/-- **C37**, buffered sends: such a send is not queued, so it does not return nil; it does not panic either. -/
theorem C37_tcp_buffered_partial (cc bc i : Nat) (s t : State) (ls : List Label) (hc : s.closed = true) (hi : s.b i = .idle) (h : Steps (Step cc bc) s ls t) (m : Bytes) :
    .enq i m ∉ ls ∧ .panic i ∉ ls := by
  have gen : ∀ {s t ls}, Steps (Step cc bc) s ls t → BLate i s → .enq i m ∉ ls ∧ .panic i ∉ ls := by
    intro s t ls h
    induction h with
    | nil => intro _; exact ⟨nofun, nofun⟩
    | cons hs _ ih =>
      intro hl
      obtain ⟨h1, h2, h3⟩ := bLate_step hl hs
      obtain ⟨h4, h5⟩ := ih h1
      constructor
      · intro hm
        cases hm with
        | head => exact h3 m rfl
        | tail _ hm => exact h4 hm
      · intro hm
        cases hm with
        | head => exact h2 rfl
        | tail _ hm => exact h5 hm
  exact gen h ⟨hc, by rw [hi]; nofun, fun m h hm => by rw [hi] at hm; cases hm⟩

/-- A stopped connection, with two sends begun afterwards; both return an error. -/
example : ∃ t, Steps (Step 2 4) {} [.stop, .dcall 0 [1], .dretErr 0, .call 1 [2], .inside 1, .inside 1, .inside 1, .retErr 1] t :=
  ⟨_, .cons (.stop _) (.cons (.dcall _ 0 [1] rfl) (.cons (.dcheckClosed _ 0 [1] rfl rfl) (.cons (.call _ 1 [2] rfl) (.cons (.testNil _ 1 [2] rfl rfl) (.cons (.casWin _ 1 [2] rfl rfl)
    (.cons (.make _ 1 [2] rfl) (.cons (.checkClosed _ 1 [2] rfl rfl) (.nil _))))))))⟩

/-! ## C38 -/

/-- Everything written to the socket, in order. -/
def wire : List Label → Bytes
  | [] => []
  | .wwrite x :: ls => x ++ wire ls
  | .dwrite _ x _ :: ls => x ++ wire ls
  | _ :: ls => wire ls

/-- The direct messages written. -/
def directs : List Label → List Bytes
  | [] => []
  | .dwrite _ x _ :: ls => x :: directs ls
  | _ :: ls => directs ls

/-- **C38**, order of buffered messages: whatever direct sends go on, the bytes written by the writer are a prefix of the messages queued, in the order in which they were queued. -/
theorem C38_order (cc bc : Nat) (t : State) (ls : List Label) (h : Steps (Step cc bc) {} ls t) : wbytes ls <+: (enqOf ls).flatten :=
  (stream_steps h).pre

/-- **C38**, after a flush (the writer waits and its buffer is empty) the writer has written exactly the messages it received, whole. -/
theorem C38_flushed (cc bc : Nat) (t : State) (ls : List Label) (h : Steps (Step cc bc) {} ls t) (hw : t.writer = .select) (hb : t.buf = []) :
    ∃ k, k + t.items.length = (enqOf ls).length ∧ wbytes ls = ((enqOf ls).take k).flatten := by
  have hst := (stream_steps h).alive (by rw [hw]; rfl)
  have hrec := recv_steps h
  refine ⟨recvs ls, ?_, ?_⟩
  · rw [← hrec.items, List.length_drop]
    have := hrec.le
    omega
  · rw [hw, hb, ← hrec.items] at hst
    have h2 := hst.2
    rw [← List.take_append_drop (recvs ls) (enqOf ls)] at h2
    rw [List.flatten_append] at h2
    simp only [WPc.pend, List.append_nil, List.take_append_drop] at h2
    exact (List.append_cancel_right h2).symm

theorem dcalled {cc bc : Nat} {s t : State} {ls : List Label} (h : Steps (Step cc bc) s ls t) (hs : ∀ i, s.d i = .idle) :
    (∀ i m, (t.d i = .check m ∨ t.d i = .write m) → .dcall i m ∈ ls) ∧ ∀ i m, .dwrite i m true ∈ ls → .dcall i m ∈ ls := by
  refine h.invariant_trace (P := fun ls t => (∀ i m, (t.d i = .check m ∨ t.d i = .write m) → .dcall i m ∈ ls) ∧ ∀ i m, .dwrite i m true ∈ ls → .dcall i m ∈ ls) ?_
    ⟨fun i m h => (by rw [hs i] at h; rcases h with h | h <;> cases h), nofun⟩
  intro ls s l t ⟨h1, h2⟩ hs
  refine ⟨?_, ?_⟩
  · intro i m hx
    rw [List.mem_append]
    cases hs
    case dcall j m' hj =>
      by_cases e : i = j
      · subst e
        dsimp only at hx
        rw [set_same] at hx
        rcases hx with hx | hx <;> cases hx
        exact .inr (.head _)
      · dsimp only at hx
        rw [set_ne _ _ e] at hx
        exact .inl (h1 i m hx)
    case dcheckOpen j m' hj hc =>
      by_cases e : i = j
      · subst e
        dsimp only at hx
        rw [set_same] at hx
        rcases hx with hx | hx <;> cases hx
        exact .inl (h1 _ _ (.inl hj))
      · dsimp only at hx
        rw [set_ne _ _ e] at hx
        exact .inl (h1 i m hx)
    all_goals first
      | exact .inl (h1 i m hx)
      | (refine .inl (h1 i m ?_)
         simp only [Send.set] at hx
         split at hx
         · rcases hx with hx | hx <;> cases hx
         · exact hx)
  · intro i m hx
    rw [List.mem_append] at hx ⊢
    rcases hx with hx | hx
    · exact .inl (h2 i m hx)
    · cases hs <;> simp at hx
      case dwrite j m' hj hb =>
        obtain ⟨rfl, rfl⟩ := hx
        exact .inl (h1 _ _ (.inr hj))

/-- **C38**, direct messages: a direct send that returns nil has written its message in one piece. -/
theorem C38_direct_whole (cc bc : Nat) (t : State) (ls : List Label) (h : Steps (Step cc bc) {} ls t) (i : Nat) (m : Bytes) (hm : .dwrite i m true ∈ ls) : .dcall i m ∈ ls :=
  (dcalled h (fun _ => rfl)).2 i m hm

theorem wire_buffered (ls : List Label) (h : ∀ i x w, Label.dwrite i x w ∉ ls) : wire ls = wbytes ls := by
  induction ls with
  | nil => rfl
  | cons l ls ih =>
    have h' : ∀ i x w, Label.dwrite i x w ∉ ls := fun i x w hm => h i x w (.tail _ hm)
    cases l <;> simp only [wire, wbytes, ih h']
    exact absurd (.head _) (h _ _ _)

theorem wire_direct (ls : List Label) (h : ∀ x, Label.wwrite x ∉ ls) : wire ls = (directs ls).flatten := by
  induction ls with
  | nil => rfl
  | cons l ls ih =>
    have h' : ∀ x, Label.wwrite x ∉ ls := fun x hm => h x (.tail _ hm)
    cases l <;> simp only [wire, directs, ih h', List.flatten_cons]
    exact absurd (.head _) (h _)

theorem wwrite_nil {ls : List Label} (h : wbytes ls = []) : wire ls = (directs ls).flatten := by
  induction ls with
  | nil => rfl
  | cons l ls ih =>
    cases l <;> simp only [wbytes, List.append_eq_nil_iff] at h <;> simp only [wire, directs, List.flatten_cons]
    case wwrite x => rw [h.1, List.nil_append]; exact ih h.2
    all_goals first | exact ih h | rw [ih h]

theorem enqOf_nil {ls : List Label} (h : ∀ i m, Label.enq i m ∉ ls) : enqOf ls = [] := by
  induction ls with
  | nil => rfl
  | cons l ls ih =>
    have h' : ∀ i m, Label.enq i m ∉ ls := fun i m hm => h i m (.tail _ hm)
    cases l <;> simp only [enqOf, ih h']
    exact absurd (.head _) (h _ _)

/-- **C38**, in part: if only buffered sends are used, what is on the wire is a prefix of the messages queued, in order; if only direct sends are used, it is the concatenation of the messages written,
each the whole message of a call if the send returned nil. Both kinds together: see `C38_refuted`. -/
theorem C38_partial (cc bc : Nat) (t : State) (ls : List Label) (h : Steps (Step cc bc) {} ls t) :
    ((∀ i x w, Label.dwrite i x w ∉ ls) → wire ls <+: (enqOf ls).flatten) ∧
      ((∀ i m, Label.enq i m ∉ ls) → wire ls = (directs ls).flatten) := by
  refine ⟨fun hd => by rw [wire_buffered ls hd]; exact (stream_steps h).pre, fun he => ?_⟩
  have := (stream_steps h).pre
  rw [enqOf_nil he] at this
  exact wwrite_nil (List.prefix_nil.mp this)

/-- The message of `C38_refuted`: as long as the buffer. -/
def big : Bytes := List.replicate 16384 2

theorem big_length : big.length = 16384 := List.length_replicate

attribute [irreducible] big

/-- Two buffered messages, the second does not fit into the buffer any more; a direct send comes between its two parts. -/
def mixed : List Label :=
  [.call 0 [1], .inside 0, .inside 0, .inside 0, .inside 0, .enq 0 [1], .recv, .winside, .winside, .call 0 big, .inside 0, .inside 0, .enq 0 big, .recv, .winside,
    .wwrite ([1] ++ big.take 16383), .dcall 1 [3], .dinside 1, .dwrite 1 [3] true, .winside, .tick, .winside, .wwrite (big.drop 16383)]

theorem mixed_steps : ∃ t, Steps (Step 1024 16384) {} mixed t ∧ t.broken = false ∧ t.closed = false := by
  refine ⟨_, .cons (.call _ 0 [1] rfl) (.cons (.testNil _ 0 [1] rfl rfl) (.cons (.casWin _ 0 [1] rfl rfl) (.cons (.make _ 0 [1] rfl) (.cons (.checkOpen _ 0 [1] rfl rfl)
    (.cons (.enq _ 0 [1] ⟨[], false⟩ rfl rfl rfl (by decide)) (.cons (.recv _ [1] [] false rfl rfl) (.cons (.gotOpen _ [1] rfl rfl) (.cons (.putRest _ [1] rfl rfl (by decide))
    (.cons (.call _ 0 big rfl) (.cons (.testSome _ 0 big rfl nofun) (.cons (.checkOpen _ 0 big rfl rfl) (.cons (.enq _ 0 big ⟨[], false⟩ rfl rfl rfl (by decide))
    (.cons (.recv _ big [] false rfl rfl) (.cons (.gotOpen _ big rfl rfl) (.cons (.putFill _ big rfl rfl ?_ nofun rfl)
    (.cons (.dcall _ 1 [3] rfl) (.cons (.dcheckOpen _ 1 [3] rfl rfl) (.cons (.dwrite _ 1 [3] rfl rfl) (.cons (.putRest _ (big.drop 16383) rfl rfl ?_) (.cons (.tick _ rfl)
    (.cons (.flushOpen _ rfl rfl) (.cons (.flushWrite _ rfl rfl ?_ rfl) (.nil _))))))))))))))))))))))), rfl, rfl⟩
  · show 16384 - 1 < big.length
    rw [big_length]; decide
  · show (big.drop 16383).length ≤ 16384
    rw [List.length_drop, big_length]; decide
  · show big.drop 16383 ≠ []
    intro h
    have := congrArg List.length h
    rw [List.length_drop, big_length] at this
    exact absurd this (by decide)

/-- `n + 2` twos in a row cannot be found in a string with only `n + 2` of them and a three before the last. -/
theorem not_contig (n : Nat) (a b : Bytes) (h : a ++ List.replicate (n + 2) 2 ++ b = [1] ++ List.replicate (n + 1) 2 ++ [3] ++ [2]) : False := by
  have hc := congrArg (List.count 2) h
  simp [List.count_append] at hc
  have ha : List.count 2 a = 0 := by omega
  have hb : List.count 2 b = 0 := by omega
  have hl := congrArg List.length h
  simp at hl
  -- `b` is empty: the last byte is a two
  have hbn : b = [] := by
    cases hx : b.reverse with
    | nil => simpa using hx
    | cons x xs =>
      exfalso
      have hr := congrArg List.reverse h
      simp only [List.reverse_append, hx] at hr
      simp at hr
      have : (2 : UInt8) ∈ b := by
        rw [← List.mem_reverse, hx, hr.1]
        exact .head _
      exact absurd (List.count_pos_iff.mpr this) (by omega)
  subst hbn
  simp only [List.length_nil] at hl
  have h2 : a[1]? = some 2 := by
    have h3 := congrArg (fun l => l[1]?) h
    simp only [List.append_nil] at h3
    rw [List.getElem?_append_left (by omega)] at h3
    rw [h3]
    rfl
  exact absurd (List.count_pos_iff.mpr (List.mem_of_getElem? h2)) (by omega)

/-- **C38** is false: with a buffered and a direct send at the same time, a message can be torn. The buffer of `bufio.Writer` holds 16384 bytes; a buffered message that does not fit goes out in two
writes, and a direct message can come between them. What is on the wire then is no concatenation, in any order, of the three messages sent. -/
theorem C38_refuted : ∃ ls t, Steps (Step 1024 16384) {} ls t ∧ t.broken = false ∧ t.closed = false ∧
    ¬ ∃ ms : List Bytes, (∀ m, m ∈ ms → m = [1] ∨ m = big ∨ m = [3]) ∧ ms.flatten = wire ls := by
  obtain ⟨t, ht, h1, h2⟩ := mixed_steps
  refine ⟨mixed, t, ht, h1, h2, ?_⟩
  intro ⟨ms, hms, hfl⟩
  have hbig : big = List.replicate (16382 + 2) 2 := by unfold big; rfl
  have hw : wire mixed = [1] ++ List.replicate (16382 + 1) 2 ++ [3] ++ [2] := by
    have e1 : big.take 16383 = List.replicate 16383 2 := by rw [hbig, List.take_replicate]; rfl
    have e2 : big.drop 16383 = [2] := by rw [hbig, List.drop_replicate]; rfl
    simp only [mixed, wire, e1, e2, List.append_nil, List.append_assoc]
  rw [hw] at hfl
  by_cases hm : big ∈ ms
  · obtain ⟨a, b, rfl⟩ := List.append_of_mem hm
    rw [List.flatten_append, List.flatten_cons, hbig, ← List.append_assoc] at hfl
    exact not_contig _ _ _ hfl
  · have hno : (2 : UInt8) ∉ ms.flatten := by
      intro h2
      obtain ⟨m, hm1, hm2⟩ := List.mem_flatten.mp h2
      rcases hms m hm1 with rfl | rfl | rfl
      · exact absurd hm2 (by decide)
      · exact hm hm1
      · exact absurd hm2 (by decide)
    apply hno
    rw [hfl]
    exact List.mem_append_right _ (.head _)

/-- `C38_partial`, `C38_flushed`, `C38_direct_whole`: a buffered message flushed, then a direct one. -/
example : ∃ t, Steps (Step 1 4) {} [.call 0 [1, 2], .inside 0, .inside 0, .inside 0, .inside 0, .enq 0 [1, 2], .recv, .winside, .winside, .tick, .winside, .wwrite [1, 2], .dcall 0 [3], .dinside 0,
    .dwrite 0 [3] true] t ∧ t.writer = .select ∧ t.buf = [] :=
  ⟨_, .cons (.call _ 0 [1, 2] rfl) (.cons (.testNil _ 0 [1, 2] rfl rfl) (.cons (.casWin _ 0 [1, 2] rfl rfl) (.cons (.make _ 0 [1, 2] rfl) (.cons (.checkOpen _ 0 [1, 2] rfl rfl)
    (.cons (.enq _ 0 [1, 2] ⟨[], false⟩ rfl rfl rfl (by decide)) (.cons (.recv _ [1, 2] [] false rfl rfl) (.cons (.gotOpen _ [1, 2] rfl rfl) (.cons (.putRest _ [1, 2] rfl rfl (by decide))
    (.cons (.tick _ rfl) (.cons (.flushOpen _ rfl rfl) (.cons (.flushWrite _ rfl rfl nofun rfl) (.cons (.dcall _ 0 [3] rfl) (.cons (.dcheckOpen _ 0 [3] rfl rfl) (.cons (.dwrite _ 0 [3] rfl rfl)
    (.nil _))))))))))))))), rfl, rfl⟩

/-! ## C39 -/

/-- **C39** is false: two buffered sends that are waiting when the connection is stopped both close the channel; the second one panics. -/
theorem C39_close_twice_refuted : ∃ ls t, Steps (Step 1 16384) {} ls t ∧ .panic 1 ∈ ls :=
  ⟨[.call 0 [1], .inside 0, .inside 0, .inside 0, .inside 0, .call 1 [2], .inside 1, .inside 1, .stop, .inside 0, .inside 1, .retErr 0, .panic 1], _,
    .cons (.call _ 0 [1] rfl) (.cons (.testNil _ 0 [1] rfl rfl) (.cons (.casWin _ 0 [1] rfl rfl) (.cons (.make _ 0 [1] rfl) (.cons (.checkOpen _ 0 [1] rfl rfl)
    (.cons (.call _ 1 [2] rfl) (.cons (.testSome _ 1 [2] rfl nofun) (.cons (.checkOpen _ 1 [2] rfl rfl) (.cons (.stop _) (.cons (.selDone _ 0 [1] true rfl rfl) (.cons (.selDone _ 1 [2] true rfl rfl)
    (.cons (.closeChan _ 0 ⟨[], false⟩ rfl rfl rfl) (.cons (.closePanic _ 1 rfl (.inr ⟨_, rfl, rfl⟩)) (.nil _))))))))))))), by decide⟩

/-- **C39** is false: one closes the channel, the other sends on it. -/
theorem C39_send_closed_refuted : ∃ ls t, Steps (Step 1 16384) {} ls t ∧ .panic 1 ∈ ls :=
  ⟨[.call 0 [1], .inside 0, .inside 0, .inside 0, .inside 0, .call 1 [2], .inside 1, .inside 1, .stop, .inside 0, .retErr 0, .panic 1], _,
    .cons (.call _ 0 [1] rfl) (.cons (.testNil _ 0 [1] rfl rfl) (.cons (.casWin _ 0 [1] rfl rfl) (.cons (.make _ 0 [1] rfl) (.cons (.checkOpen _ 0 [1] rfl rfl)
    (.cons (.call _ 1 [2] rfl) (.cons (.testSome _ 1 [2] rfl nofun) (.cons (.checkOpen _ 1 [2] rfl rfl) (.cons (.stop _) (.cons (.selDone _ 0 [1] true rfl rfl)
    (.cons (.closeChan _ 0 ⟨[], false⟩ rfl rfl rfl) (.cons (.enqPanic _ 1 [2] ⟨[], true⟩ rfl rfl rfl) (.nil _)))))))))))), by decide⟩

/-- **C39** is false: of two first sends, the one that does not make the channel may find none, and closes nil. -/
theorem C39_close_nil_refuted : ∃ ls t, Steps (Step 1 16384) {} ls t ∧ .panic 1 ∈ ls :=
  ⟨[.call 0 [1], .inside 0, .call 1 [2], .inside 1, .inside 0, .inside 1, .inside 1, .stop, .inside 1, .panic 1], _,
    .cons (.call _ 0 [1] rfl) (.cons (.testNil _ 0 [1] rfl rfl) (.cons (.call _ 1 [2] rfl) (.cons (.testNil _ 1 [2] rfl rfl) (.cons (.casWin _ 0 [1] rfl rfl) (.cons (.casLose _ 1 [2] rfl rfl)
    (.cons (.checkOpen _ 1 [2] rfl rfl) (.cons (.stop _) (.cons (.selDone _ 1 [2] false rfl rfl) (.cons (.closePanic _ 1 rfl (.inl rfl)) (.nil _)))))))))), by decide⟩

/-- **C39**, in part: as long as the connection is not stopped, no send panics, however many goroutines send. -/
theorem C39_running_partial (cc bc : Nat) (t : State) (ls : List Label) (h : Steps (Step cc bc) {} ls t) (hn : .stop ∉ ls) (i : Nat) : .panic i ∉ ls := by
  have gen : ∀ {s t ls}, Steps (Step cc bc) s ls t → Quiet s → s.closed = false → .stop ∉ ls → .panic i ∉ ls := by
    intro s t ls h
    induction h with
    | nil => intro _ _ _ hm; cases hm
    | cons hs _ ih =>
      intro hq hc hn hm
      cases hm with
      | head => exact quiet_panic hq hc hs i rfl
      | tail _ hm => exact ih (quiet_step hq hs) (closed_step (fun e => hn (e ▸ .head _)) hc hs) (fun h => hn (.tail _ h)) hm
  exact gen h ⟨nofun, nofun, fun _ _ => ⟨rfl, rfl⟩⟩ rfl hn

/-- **C39**, in part: if only one goroutine uses buffered sends, none panics, whenever the connection is stopped. -/
theorem C39_single_partial (cc bc i : Nat) (t : State) (ls : List Label) (h : Steps (Step cc bc) {} ls t) (hn : ∀ j m, .call j m ∈ ls → j = i) (j : Nat) : .panic j ∉ ls := by
  have gen : ∀ {s t ls}, Steps (Step cc bc) s ls t → One i s → (∀ j m, .call j m ∈ ls → j = i) → .panic j ∉ ls := by
    intro s t ls h
    induction h with
    | nil => intro _ _ hm; cases hm
    | cons hs _ ih =>
      intro hq hn hm
      cases hm with
      | head => exact one_panic hq hs j rfl
      | tail _ hm => exact ih (one_step hq (fun k m e => hn k m (e ▸ .head _)) hs) (fun k m h => hn k m (.tail _ h)) hm
  exact gen h ⟨fun _ _ => rfl, nofun, nofun, nofun, nofun, nofun, nofun⟩ hn

/-- A step of the buffered send of goroutine `i`. -/
def ownStep (i : Nat) : Label → Bool
  | .inside j | .retErr j | .enq j _ | .panic j => j == i
  | _ => false

def stage : BPc → Nat
  | .idle => 0
  | .closing => 1
  | .sel _ _ => 2
  | .check _ => 3
  | .make _ => 4
  | .cas _ => 5
  | .test _ => 6

theorem stage_step {cc bc i s l t} (hs : Step cc bc s l t) (hl : ∀ m, l ≠ .call i m) :
    stage (t.b i) + (if ownStep i l = true then 1 else 0) ≤ stage (s.b i) := by
  cases hs <;> simp_all [ownStep, Send.set] <;> grind [stage]

/-- **C39**, each call ends: a buffered send can always go on (it never waits for ever, because of its timer), and ends after at most 6 steps. -/
theorem C39_returns (cc bc i : Nat) : (∀ s : State, s.b i ≠ .idle → ∃ l t, Step cc bc s l t ∧ ownStep i l = true) ∧
    ∀ s t ls, Steps (Step cc bc) s ls t → (∀ m, .call i m ∉ ls) → ls.countP (ownStep i) ≤ 6 := by
  constructor
  · intro s hi
    cases hb : s.b i with
    | idle => exact absurd hb hi
    | test m =>
      by_cases hc : s.chan = none
      · exact ⟨_, _, .testNil s i m hb hc, by simp [ownStep]⟩
      · exact ⟨_, _, .testSome s i m hb hc, by simp [ownStep]⟩
    | cas m =>
      cases hf : s.flag with
      | false => exact ⟨_, _, .casWin s i m hb hf, by simp [ownStep]⟩
      | true => exact ⟨_, _, .casLose s i m hb hf, by simp [ownStep]⟩
    | make m => exact ⟨_, _, .make s i m hb, by simp [ownStep]⟩
    | check m =>
      cases hc : s.closed with
      | false => exact ⟨_, _, .checkOpen s i m hb hc, by simp [ownStep]⟩
      | true => exact ⟨_, _, .checkClosed s i m hb hc, by simp [ownStep]⟩
    | sel m h => exact ⟨_, _, .timeout s i m h hb, by simp [ownStep]⟩
    | closing =>
      cases hc : s.chan with
      | none => exact ⟨_, _, .closePanic s i hb (.inl hc), by simp [ownStep]⟩
      | some c =>
        cases hcl : c.closed with
        | false => exact ⟨_, _, .closeChan s i c hb hc hcl, by simp [ownStep]⟩
        | true => exact ⟨_, _, .closePanic s i hb (.inr ⟨c, hc, hcl⟩), by simp [ownStep]⟩
  · intro s t ls h hn
    have gen : ∀ {s t ls}, Steps (Step cc bc) s ls t → (∀ m, .call i m ∉ ls) → ls.countP (ownStep i) ≤ stage (s.b i) := by
      intro s t ls h
      induction h with
      | nil => intro _; exact Nat.zero_le _
      | cons hs _ ih =>
        intro hn
        have h1 := stage_step (i := i) hs (fun m e => hn m (e ▸ .head _))
        have h2 := ih (fun m h => hn m (.tail _ h))
        rw [List.countP_cons]
        omega
    refine Nat.le_trans (gen h hn) ?_
    cases s.b i <;> simp [stage]

/-- Two goroutines queue a message each while the connection runs. -/
example : ∃ t, Steps (Step 2 4) {} [.call 0 [1], .inside 0, .inside 0, .inside 0, .inside 0, .enq 0 [1], .call 1 [2], .inside 1, .inside 1, .enq 1 [2]] t :=
  ⟨_, .cons (.call _ 0 [1] rfl) (.cons (.testNil _ 0 [1] rfl rfl) (.cons (.casWin _ 0 [1] rfl rfl) (.cons (.make _ 0 [1] rfl) (.cons (.checkOpen _ 0 [1] rfl rfl)
    (.cons (.enq _ 0 [1] ⟨[], false⟩ rfl rfl rfl (by decide)) (.cons (.call _ 1 [2] rfl) (.cons (.testSome _ 1 [2] rfl nofun) (.cons (.checkOpen _ 1 [2] rfl rfl)
    (.cons (.enq _ 1 [2] ⟨[[1]], false⟩ rfl rfl rfl (by decide)) (.nil _))))))))))⟩

/-- One goroutine sends, and the connection is stopped while it waits: it closes the channel and returns an error. -/
example : ∃ t, Steps (Step 2 4) {} [.call 0 [1], .inside 0, .inside 0, .inside 0, .inside 0, .stop, .inside 0, .retErr 0] t :=
  ⟨_, .cons (.call _ 0 [1] rfl) (.cons (.testNil _ 0 [1] rfl rfl) (.cons (.casWin _ 0 [1] rfl rfl) (.cons (.make _ 0 [1] rfl) (.cons (.checkOpen _ 0 [1] rfl rfl)
    (.cons (.stop _) (.cons (.selDone _ 0 [1] true rfl rfl) (.cons (.closeChan _ 0 ⟨[], false⟩ rfl rfl rfl) (.nil _))))))))⟩

/-! ## C40 -/

/-- **C40**, in part: on a connection that is not stopped and whose network works, a message queued (the send returned nil) is written to the socket, after all messages queued before it. Fairness: the
writer goroutine runs, and its `select` does not for ever ignore a branch that is ready again and again. -/
theorem C40_partial (cc bc : Nat) (e : Exec (Step cc bc)) (h0 : e.run 0 = {}) (hq : ∀ n, (e.run n).closed = false ∧ (e.run n).broken = false)
    (hf : e.WeakFair Inner) (hr : e.StrongFair (fun l => l = .recv)) (ht : e.StrongFair (fun l => l = .tick)) (n i : Nat) (m : Bytes) (ha : e.act n = some (.enq i m)) :
    ∃ k, n < k ∧ (enqOf (e.trace n)).flatten ++ m <+: wbytes (e.trace k) := by
  have hn := e.next n
  rw [ha] at hn
  have hw : (e.run (n + 1)).writer ≠ .none := by
    intro h
    have h1 := (recv_steps (exec_steps e h0 (n + 1))).nowr h
    generalize e.run (n + 1) = t at hn h1
    cases hn
    cases h1
  obtain ⟨k, hk, h⟩ := all_written e h0 hq hf hr ht hw
  refine ⟨k, hk, ?_⟩
  have e1 : enqOf (e.trace (n + 1)) = enqOf (e.trace n) ++ [m] := by
    show enqOf (e.trace n ++ (e.act n).toList) = _
    rw [ha, enqOf_append]
    rfl
  rw [e1] at h
  simpa using h

/-- **C40** is false when the connection is stopped right afterwards: the send returned nil, the network never fails, and whatever happens then the message is not written. -/
theorem C40_refuted : ∃ ls t, Steps (Step 1024 16384) {} ls t ∧ .enq 0 [1] ∈ ls ∧ ∀ ls' u, Steps (Step 1024 16384) t ls' u → wbytes (ls ++ ls') = [] := by
  refine ⟨[.call 0 [1], .inside 0, .inside 0, .inside 0, .inside 0, .enq 0 [1], .stop], _,
    .cons (.call _ 0 [1] rfl) (.cons (.testNil _ 0 [1] rfl rfl) (.cons (.casWin _ 0 [1] rfl rfl) (.cons (.make _ 0 [1] rfl) (.cons (.checkOpen _ 0 [1] rfl rfl)
    (.cons (.enq _ 0 [1] ⟨[], false⟩ rfl rfl rfl (by decide)) (.cons (.stop _) (.nil _))))))), by decide, ?_⟩
  intro ls' u h
  rw [wbytes_append]
  show [] ++ _ = _
  rw [List.nil_append]
  have gen : ∀ {s t ls}, Steps (Step 1024 16384) s ls t → s.flag = true → Late s → wbytes ls = [] := by
    intro s t ls h
    induction h with
    | nil => intro _ _; rfl
    | @cons s t u l ls hs _ ih =>
      intro hf hl
      obtain ⟨h1, h2, h3⟩ := late_step hf hl hs
      have h4 := ih h1 h2
      cases l <;> first | exact h4 | exact absurd rfl (h3 _)
  refine gen h rfl ⟨rfl, nofun, nofun, nofun, ?_, nofun⟩
  intro i m hm
  by_cases e : i = 0 <;> simp [Send.set, e] at hm

/-- An example for `C40_partial`: one message is queued and written, then the writer ticks for ever. The states: -/
def tickState (pc : WPc) (buf : Bytes) (items : List Bytes) : State := { chan := some ⟨items, false⟩, flag := true, writer := pc, buf := buf }

def runEx : Nat → State
  | 0 => {}
  | 1 => { b := Send.set (fun _ => .idle) 0 (.test [1]) }
  | 2 => { b := Send.set (fun _ => .idle) 0 (.cas [1]) }
  | 3 => { flag := true, b := Send.set (fun _ => .idle) 0 (.make [1]) }
  | 4 => { tickState .select [] [] with b := Send.set (fun _ => .idle) 0 (.check [1]) }
  | 5 => { tickState .select [] [] with b := Send.set (fun _ => .idle) 0 (.sel [1] true) }
  | 6 => tickState .select [] [[1]]
  | 7 => tickState (.got [1]) [] []
  | 8 => tickState (.put [1]) [] []
  | 9 => tickState .select [1] []
  | 10 => tickState .flushCheck [1] []
  | 11 => tickState .flush [1] []
  | n + 12 => if n % 3 = 0 then tickState .select [] [] else if n % 3 = 1 then tickState .flushCheck [] [] else tickState .flush [] []

def actEx : Nat → Option Label
  | 0 => some (.call 0 [1])
  | 1 => some (.inside 0)
  | 2 => some (.inside 0)
  | 3 => some (.inside 0)
  | 4 => some (.inside 0)
  | 5 => some (.enq 0 [1])
  | 6 => some .recv
  | 7 => some .winside
  | 8 => some .winside
  | 9 => some .tick
  | 10 => some .winside
  | 11 => some (.wwrite [1])
  | n + 12 => if n % 3 = 0 then some .tick else some .winside

theorem set_set {α : Type} (f : Nat → α) (i : Nat) (a b : α) : Send.set (Send.set f i a) i b = Send.set f i b := by
  funext j
  simp only [Send.set]
  split <;> rfl

theorem set_self {α : Type} (a : α) (i : Nat) : Send.set (fun _ => a) i a = fun _ => a := by
  funext j
  simp only [Send.set, ite_self]

theorem step_eq {cc bc s l t u} (h : Step cc bc s l t) (e : t = u) : Step cc bc s l u := e ▸ h

def exEx : Exec (Step 1024 16384) where
  run := runEx
  act := actEx
  next := by
    intro n
    match n with
    | 0 => exact .call _ 0 [1] rfl
    | 1 => exact step_eq (.testNil _ 0 [1] rfl rfl) (by simp only [runEx, set_set])
    | 2 => exact step_eq (.casWin _ 0 [1] rfl rfl) (by simp only [runEx, set_set])
    | 3 => exact step_eq (.make _ 0 [1] rfl) (by simp only [runEx, tickState, set_set])
    | 4 => exact step_eq (.checkOpen _ 0 [1] rfl rfl) (by simp only [runEx, tickState, set_set, Option.isSome])
    | 5 => exact step_eq (.enq _ 0 [1] ⟨[], false⟩ rfl rfl rfl (by decide)) (by simp only [runEx, tickState, set_set, set_self, List.nil_append])
    | 6 => exact .recv _ [1] [] false rfl rfl
    | 7 => exact .gotOpen _ [1] rfl rfl
    | 8 => exact .putRest _ [1] rfl rfl (by decide)
    | 9 => exact .tick _ rfl
    | 10 => exact .flushOpen _ rfl rfl
    | 11 => exact .flushWrite _ rfl rfl nofun rfl
    | n + 12 =>
      have h : n % 3 = 0 ∨ n % 3 = 1 ∨ n % 3 = 2 := by omega
      rcases h with h | h | h
      · have e1 : actEx (n + 12) = some .tick := by simp [actEx, h]
        have e2 : runEx (n + 12) = tickState .select [] [] := by simp [runEx, h]
        have e3 : runEx (n + 12 + 1) = tickState .flushCheck [] [] := by
          show runEx ((n + 1) + 12) = _
          simp only [runEx]
          rw [if_neg (by omega), if_pos (by omega)]
        rw [e1, e2, e3]
        exact .tick _ rfl
      · have e1 : actEx (n + 12) = some .winside := by simp [actEx, h]
        have e2 : runEx (n + 12) = tickState .flushCheck [] [] := by simp [runEx, h]
        have e3 : runEx (n + 12 + 1) = tickState .flush [] [] := by
          show runEx ((n + 1) + 12) = _
          simp only [runEx]
          rw [if_neg (by omega), if_neg (by omega)]
        rw [e1, e2, e3]
        exact .flushOpen _ rfl rfl
      · have e1 : actEx (n + 12) = some .winside := by simp [actEx, h]
        have e2 : runEx (n + 12) = tickState .flush [] [] := by simp [runEx, h]
        have e3 : runEx (n + 12 + 1) = tickState .select [] [] := by
          show runEx ((n + 1) + 12) = _
          simp only [runEx]
          rw [if_pos (by omega)]
        rw [e1, e2, e3]
        exact .flushEmpty _ rfl rfl rfl

theorem exEx_quiet (n : Nat) : (exEx.run n).closed = false ∧ (exEx.run n).broken = false := by
  show (runEx n).closed = false ∧ (runEx n).broken = false
  unfold runEx
  split <;> first | exact ⟨rfl, rfl⟩ | (split <;> first | exact ⟨rfl, rfl⟩ | (split <;> exact ⟨rfl, rfl⟩))

theorem exEx_end {s t l} (hs : Step 1024 16384 s l t) (h : ∃ pc, s = tickState pc [] []) : l ≠ .recv := by
  obtain ⟨pc, rfl⟩ := h
  intro e
  subst e
  generalize hx : tickState pc [] [] = s at hs
  cases hs
  rename_i h1 h2
  subst hx
  cases h2

theorem exEx_late (n : Nat) : ∃ pc, exEx.run (n + 12) = tickState pc [] [] := by
  show ∃ pc, runEx (n + 12) = _
  simp only [runEx]
  split
  · exact ⟨_, rfl⟩
  · split <;> exact ⟨_, rfl⟩

example : exEx.run 0 = {} ∧ exEx.WeakFair Inner ∧ exEx.StrongFair (fun l => l = .recv) ∧ exEx.StrongFair (fun l => l = .tick) ∧ exEx.act 5 = some (.enq 0 [1]) := by
  refine ⟨rfl, ?_, ?_, ?_, rfl⟩
  · intro n _
    refine ⟨3 * n + 1 + 12, .winside, by omega, ?_, .inl rfl⟩
    show actEx (3 * n + 1 + 12) = _
    simp only [actEx]
    rw [if_neg (by omega)]
  · intro n h
    obtain ⟨k, hk, l, t, hl, hs⟩ := h (n + 12) (by omega)
    obtain ⟨j, rfl⟩ : ∃ j, k = j + 12 := ⟨k - 12, by omega⟩
    exact absurd hl (exEx_end hs (exEx_late j))
  · intro n _
    refine ⟨3 * n + 12, .tick, by omega, ?_, rfl⟩
    show actEx (3 * n + 12) = _
    simp only [actEx]
    rw [if_pos (by omega)]

end Zinx.Props
