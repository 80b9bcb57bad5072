import Verif.Props.PipeBase
import Verif.Props.Send
import Verif.Lemmas.SendLive

namespace Zinx.Props
open Zinx Zinx.Pipe

/-! ## C84 -/

theorem enq_called {cc bc : Nat} {t : Send.State} {ls : List Send.Label} (h : Steps (Send.Step cc bc) {} ls t) :
    (∀ i m x, (t.b i = .test m ∨ t.b i = .cas m ∨ t.b i = .make m ∨ t.b i = .check m ∨ t.b i = .sel m x) → .call i m ∈ ls) ∧ ∀ i m, .enq i m ∈ ls → .call i m ∈ ls := by
  refine h.invariant_trace (P := fun ls t => (∀ i m x, (t.b i = .test m ∨ t.b i = .cas m ∨ t.b i = .make m ∨ t.b i = .check m ∨ t.b i = .sel m x) → .call i m ∈ ls) ∧
    ∀ i m, .enq i m ∈ ls → .call i m ∈ ls) ?_ ⟨fun i m x h => by simp at h, nofun⟩
  intro ls s l t ⟨h1, h2⟩ hs
  constructor
  · intro i m x hx
    have hi := h1 i m
    rw [List.mem_append]
    cases hs <;> (try simp only [Send.set] at hx) <;> grind
  · intro i m hx
    have hi := h1 i m true
    have hi2 := h2 i m
    rw [List.mem_append] at hx ⊢
    cases hs <;> grind

theorem mem_enqOf {ls : List Send.Label} {m : Bytes} (h : m ∈ Send.enqOf ls) : ∃ i, Send.Label.enq i m ∈ ls := by
  induction ls with
  | nil => cases h
  | cons l ls ih =>
    cases l <;> simp only [Send.enqOf] at h
    case enq i m' =>
      rcases List.mem_cons.1 h with rfl | h
      · exact ⟨i, .head _⟩
      · obtain ⟨j, hj⟩ := ih h; exact ⟨j, .tail _ hj⟩
    all_goals obtain ⟨j, hj⟩ := ih h; exact ⟨j, .tail _ hj⟩

/-- All calls of `SendBuffMsg` are with less than 2^32-8 bytes of data, and packed as the receiver expects. -/
def GoodCalls (k : Decoder.Kind) (ls : List (Label Send.Label)) : Prop := ∀ i m, .send (.call i m) ∈ ls → ∃ x : UInt32 × Bytes, x.2.length < 2 ^ 32 - 8 ∧ m = packOf k x

/-- No direct sends. -/
def OnlyBuffered (ls : List (Label Send.Label)) : Prop := ∀ i m, .send (.dcall i m) ∉ ls

/-- All calls of `SendMsg` are with less than 2^32-8 bytes of data, and packed as the receiver expects. -/
def GoodDirect (k : Decoder.Kind) (ls : List (Label Send.Label)) : Prop := ∀ i m, .send (.dcall i m) ∈ ls → ∃ x : UInt32 × Bytes, x.2.length < 2 ^ 32 - 8 ∧ m = packOf k x

/-- No buffered sends. -/
def OnlyDirect (ls : List (Label Send.Label)) : Prop := ∀ i m, .send (.call i m) ∉ ls

theorem pipe_queued {cc bc : Nat} {k : Decoder.Kind} {b : Bool} {wid : Nat → Nat} {cap c : Nat} {ls : List (Label Send.Label)} {s : State Send.State} (hi : Inv (Send.Step cc bc) tcpWritten {} k b wid cap c ls s) (hg : GoodCalls k ls) :
    ∀ m ∈ Send.enqOf (sendTr ls), ∃ x : UInt32 × Bytes, x.2.length < 2 ^ 32 - 8 ∧ m = packOf k x := by
  intro m hm
  obtain ⟨i, hi2⟩ := mem_enqOf hm
  exact hg i m (mem_sendTr.1 ((enq_called hi.snd).2 i m hi2))

theorem tcp_wire (ls : List Send.Label) : ls.flatMap tcpWritten = wire ls := by
  induction ls with
  | nil => rfl
  | cons l ls ih => cases l <;> simp [wire, tcpWritten, ih]

theorem pipe_wire {cc bc : Nat} {k : Decoder.Kind} {b : Bool} {wid : Nat → Nat} {cap c : Nat} {ls : List (Label Send.Label)} {s : State Send.State} (hi : Inv (Send.Step cc bc) tcpWritten {} k b wid cap c ls s) (ho : OnlyBuffered ls) :
    wire (sendTr ls) = Send.wbytes (sendTr ls) := by
  apply wire_buffered
  intro i x w hm
  have : ∃ m, Send.Label.dcall i m ∈ sendTr ls := by
    have := hi.snd.invariant_trace (P := fun ls t => (∀ m, t.d i = .check m ∨ t.d i = .write m → ∃ m, Send.Label.dcall i m ∈ ls) ∧ ∀ x w, Send.Label.dwrite i x w ∈ ls → ∃ m, Send.Label.dcall i m ∈ ls) (by
      intro ls s l t ⟨h1, h2⟩ hs
      refine ⟨?_, ?_⟩
      · intro m hx
        have := h1 m
        cases hs <;> (try simp only [Send.set] at hx) <;> grind
      · intro x w hx
        have := h1
        cases hs <;> grind) ⟨fun m h => (by rcases h with h | h <;> cases h), nofun⟩
    exact this.2 x w hm
  obtain ⟨m, hm⟩ := this
  exact ho i m (mem_sendTr.1 hm)

/-- **C84**, buffered sends. Any number of goroutines send with `SendBuffMsg`; whatever the schedule, the sizes of the pieces in which the bytes arrive, and the other work of the receiver's workers, and also if the
sender is stopped or the network fails: the receiver handles a prefix of the messages queued, unchanged, in the order in which they were queued, each once, one after the other. -/
theorem C84_buffered {cc bc : Nat} {k : Decoder.Kind} {b : Bool} {wid : Nat → Nat} {cap c : Nat} {ls : List (Label Send.Label)} {s : State Send.State} (h : Steps (Pipe.Step (Send.Step cc bc) tcpWritten k b wid cap c) (Pipe.init {} k) ls s)
    (hk : k ≠ .htlv) (hg : GoodCalls k ls) (ho : OnlyBuffered ls) :
    ∃ msgs : List (UInt32 × Bytes), Send.enqOf (sendTr ls) = msgs.map (packOf k) ∧ (Worker.handlingOf c (workTr c ls)).map (seen s.msgs) <+: oneByOne msgs := by
  have hi := Pipe.inv h
  obtain ⟨msgs, h1, h2⟩ := unpack_list _ (pipe_queued hi hg)
  refine ⟨msgs, h1, pipe_handled hi hk msgs h2 ?_⟩
  rw [tcp_wire, pipe_wire hi ho, ← h1]
  exact (Send.stream_steps hi.snd).pre

/-- The messages of direct sends that returned nil. -/
def wholeOf : List Send.Label → List Bytes
  | [] => []
  | .dwrite _ x true :: ls => x :: wholeOf ls
  | _ :: ls => wholeOf ls

theorem wholeOf_append (a b : List Send.Label) : wholeOf (a ++ b) = wholeOf a ++ wholeOf b := by
  induction a with
  | nil => rfl
  | cons l a ih =>
    cases l
    case dwrite i x w => cases w <;> simp [wholeOf, ih]
    all_goals simp [wholeOf, ih]

theorem directs_append (a b : List Send.Label) : directs (a ++ b) = directs a ++ directs b := by
  induction a with
  | nil => rfl
  | cons l a ih => cases l <;> simp [directs, ih]

theorem direct_stream {cc bc : Nat} {t : Send.State} {ls : List Send.Label} (h : Steps (Send.Step cc bc) {} ls t) :
    ∃ L : List Bytes, (∀ m ∈ L, ∃ i, .dcall i m ∈ ls) ∧ (directs ls).flatten <+: L.flatten ∧ wholeOf ls <+: L ∧ L.length ≤ (wholeOf ls).length + 1 := by
  have := h.invariant_trace (P := fun ls t => Steps (Send.Step cc bc) {} ls t ∧ ∃ L : List Bytes, (∀ m ∈ L, ∃ i, .dcall i m ∈ ls) ∧ (directs ls).flatten <+: L.flatten ∧ wholeOf ls <+: L ∧
    L.length ≤ (wholeOf ls).length + 1 ∧ (t.broken = false → (directs ls).flatten = L.flatten ∧ wholeOf ls = L)) ?_ ⟨.nil _, [], nofun, List.prefix_rfl, List.prefix_rfl, by simp, fun _ => ⟨rfl, rfl⟩⟩
  · obtain ⟨_, L, h1, h2, h3, h4, _⟩ := this
    exact ⟨L, h1, h2, h3, h4⟩
  intro ls s l t ⟨h0, L, h1, h2, h3, h4, h5⟩ hs
  refine ⟨h0.snoc hs, ?_⟩
  have other : directs [l] = [] → wholeOf [l] = [] → (t.broken = false → s.broken = false) →
      ∃ L : List Bytes, (∀ m ∈ L, ∃ i, .dcall i m ∈ ls ++ [l]) ∧ (directs (ls ++ [l])).flatten <+: L.flatten ∧ wholeOf (ls ++ [l]) <+: L ∧
        L.length ≤ (wholeOf (ls ++ [l])).length + 1 ∧ (t.broken = false → (directs (ls ++ [l])).flatten = L.flatten ∧ wholeOf (ls ++ [l]) = L) := by
    intro e1 e2 e3
    rw [directs_append, wholeOf_append, e1, e2, List.append_nil, List.append_nil]
    exact ⟨L, fun m hm => let ⟨i, hi⟩ := h1 m hm; ⟨i, List.mem_append_left _ hi⟩, h2, h3, h4, fun h => h5 (e3 h)⟩
  have called := (dcalled h0 (fun _ => rfl)).1
  cases hs
  case dwrite i m hd hb =>
    obtain ⟨e1, e2⟩ := h5 hb
    refine ⟨L ++ [m], ?_, ?_, ?_, ?_, fun _ => ⟨?_, ?_⟩⟩
    · intro m' hm'
      rcases List.mem_append.1 hm' with hm' | hm'
      · obtain ⟨j, hj⟩ := h1 m' hm'; exact ⟨j, List.mem_append_left _ hj⟩
      · rw [List.mem_singleton] at hm'
        subst hm'
        exact ⟨i, List.mem_append_left _ (called i _ (.inr hd))⟩
    all_goals simp [directs_append, wholeOf_append, directs, wholeOf, e1, e2]
  case dwritePart i m x hd hb hx =>
    obtain ⟨e1, e2⟩ := h5 hb
    refine ⟨L ++ [m], ?_, ?_, ?_, ?_, fun h => by cases h⟩
    · intro m' hm'
      rcases List.mem_append.1 hm' with hm' | hm'
      · obtain ⟨j, hj⟩ := h1 m' hm'; exact ⟨j, List.mem_append_left _ hj⟩
      · rw [List.mem_singleton] at hm'
        subst hm'
        exact ⟨i, List.mem_append_left _ (called i _ (.inr hd))⟩
    · simp only [directs_append, directs, List.flatten_append, List.flatten_cons, List.flatten_nil, List.append_nil, e1]
      exact (List.prefix_append_right_inj _).2 hx
    all_goals simp [wholeOf_append, wholeOf, e2]
  all_goals exact other rfl rfl (by intro h; first | exact h | cases h)

/-- **C84**, direct sends. Any number of goroutines send with `SendMsg`; whatever the schedule, pieces, other work, and also if the sender is stopped or the network fails: the receiver handles, unchanged, each once, one
after the other and in the order of writing, messages whose send returned nil, and after them at most one whose write failed in the middle (as far as the sender could tell). -/
theorem C84_direct {cc bc : Nat} {k : Decoder.Kind} {b : Bool} {wid : Nat → Nat} {cap c : Nat} {ls : List (Label Send.Label)} {s : State Send.State} (h : Steps (Pipe.Step (Send.Step cc bc) tcpWritten k b wid cap c) (Pipe.init {} k) ls s)
    (hk : k ≠ .htlv) (hg : GoodDirect k ls) (ho : OnlyDirect ls) :
    ∃ msgs : List (UInt32 × Bytes), wholeOf (sendTr ls) <+: msgs.map (packOf k) ∧ msgs.length ≤ (wholeOf (sendTr ls)).length + 1 ∧ (∀ m ∈ msgs, ∃ i, .send (.dcall i (packOf k m)) ∈ ls) ∧
      (Worker.handlingOf c (workTr c ls)).map (seen s.msgs) <+: oneByOne msgs := by
  have hi := Pipe.inv h
  obtain ⟨L, h1, h2, h3, h4⟩ := direct_stream hi.snd
  obtain ⟨msgs, e1, e2⟩ := unpack_list (k := k) L fun m hm => let ⟨i, hi⟩ := h1 m hm; hg i m (mem_sendTr.1 hi)
  refine ⟨msgs, e1 ▸ h3, by rw [e1, List.length_map] at h4; exact h4, ?_, pipe_handled hi hk msgs e2 ?_⟩
  · intro m hm
    obtain ⟨i, hi⟩ := h1 (packOf k m) (by rw [e1]; exact List.mem_map_of_mem hm)
    exact ⟨i, mem_sendTr.1 hi⟩
  · rw [← e1, tcp_wire, (C38_partial cc bc _ _ hi.snd).2 fun i m hm => ho i m (mem_sendTr.1 ((enq_called hi.snd).2 i m hm))]
    exact h2

theorem enq_writer {cc bc : Nat} {t : Send.State} {ls : List Send.Label} (h : Steps (Send.Step cc bc) {} ls t) : Send.enqOf ls ≠ [] → t.writer ≠ .none := by
  refine (h.invariant_trace (P := fun ls t => Steps (Send.Step cc bc) {} ls t ∧ (Send.enqOf ls ≠ [] → t.writer ≠ .none)) ?_ ⟨.nil _, fun h => absurd rfl h⟩).2
  intro ls s l t ⟨h1, h2⟩ hs
  refine ⟨h1.snoc hs, fun hne => ?_⟩
  by_cases he : Send.enqOf ls = []
  · rw [Send.enqOf_append, he, List.nil_append] at hne
    intro hw
    have := (Send.recv_steps (h1.snoc hs)).nowr hw
    cases hs <;> simp [Send.enqOf] at hne this
  · exact Send.started_step hs (h2 he)

/-! ### Every message arrives -/

section
variable {cc bc : Nat} {k : Decoder.Kind} {b : Bool} {wid : Nat → Nat} {cap c : Nat}

/-- **C84**, every message arrives. On a connection that is not stopped and whose network works, with buffered sends only: everything queued at some point is handled by the receiver, one message after the other in the
order of queuing. Fairness: the sender's writer runs and its `select` does not for ever ignore a branch that is ready again and again; the receiver's reader runs, and is not refused for ever a queue in which
there is room again and again; the worker of the receiving connection runs and user code ends. -/
theorem C84_arrives (e : Exec (Pipe.Step (Send.Step cc bc) tcpWritten k b wid cap c)) (h0 : e.run 0 = Pipe.init {} k) (hk : k ≠ .htlv) (hq : ∀ n, (e.run n).snd.closed = false ∧ (e.run n).snd.broken = false)
    (hg : ∀ n, GoodCalls k (e.trace n)) (ho : ∀ n, OnlyBuffered (e.trace n)) (hf : e.WeakFair (bySender Send.Inner)) (hr : e.StrongFair (bySender fun l => l = .recv))
    (ht : e.StrongFair (bySender fun l => l = .tick)) (hrd : e.WeakFair isRead) (hwk : e.WeakFair (byWorker (workerActs (wid c)))) (hdel : e.StrongFair (byWorker (readerActs c))) (n : Nat) :
    ∃ msgs : List (UInt32 × Bytes), Send.enqOf (sendTr (e.trace n)) = msgs.map (packOf k) ∧
      ∃ m, n ≤ m ∧ oneByOne msgs <+: (Worker.handlingOf c (workTr c (e.trace m))).map (seen (e.run m).msgs) := by
  have hinv : ∀ n, Inv (Send.Step cc bc) tcpWritten {} k b wid cap c (e.trace n) (e.run n) := fun n => Pipe.inv (h0 ▸ e.steps n)
  have hs0 : (sendExec e).run 0 = {} := by show (e.run 0).snd = _; rw [h0]; rfl
  have hw0 : (workExec e).run 0 = Worker.initial fun _ => [] := by show (e.run 0).wk = _; rw [h0]; rfl
  have hown : ∀ c r, r ∈ (fun _ => [] : Nat → List Worker.Req) c → r.conn = some c := fun _ _ h => by cases h
  obtain ⟨msgs, h1, h2⟩ := unpack_list _ (pipe_queued (hinv n) (hg n))
  refine ⟨msgs, h1, ?_⟩
  by_cases hne : Send.enqOf (sendTr (e.trace n)) = []
  · rw [hne] at h1
    have : msgs = [] := by simpa using h1.symm
    subst this
    exact ⟨n, Nat.le_refl _, List.nil_prefix⟩
  -- what is queued later
  have hlater : ∀ m, n ≤ m → ∃ rest : List (UInt32 × Bytes), Send.enqOf (sendTr (e.trace m)) = (msgs ++ rest).map (packOf k) ∧ ∀ x ∈ msgs ++ rest, x.2.length < 2 ^ 32 - 8 := by
    intro m hm
    obtain ⟨x, hx⟩ := e.trace_prefix hm
    have hxe : Send.enqOf (sendTr (e.trace m)) = Send.enqOf (sendTr (e.trace n)) ++ Send.enqOf (sendTr x) := by
      rw [← hx]; unfold sendTr; rw [List.filterMap_append, Send.enqOf_append]
    obtain ⟨rest, g1, g2⟩ := unpack_list (k := k) (Send.enqOf (sendTr x)) fun y hy => pipe_queued (hinv m) (hg m) y (by rw [hxe]; exact List.mem_append_right _ hy)
    refine ⟨rest, by rw [hxe, h1, g1, List.map_append], fun y hy => ?_⟩
    rcases List.mem_append.1 hy with hy | hy
    · exact h2 y hy
    · exact g2 y hy
  refine pipe_arrives e h0 hk msgs (fun m hm => ?_) ?_ hrd hwk hdel
  · obtain ⟨rest, g1, g2⟩ := hlater m hm
    exact ⟨rest, by rw [tcp_wire, pipe_wire (hinv m) (ho m), ← g1]; exact (Send.stream_steps (hinv m).snd).pre, g2⟩
  · obtain ⟨m1, hm1, hwr⟩ := Send.all_written (sendExec e) hs0 hq (sendExec_weak hf) (sendExec_strong hr) (sendExec_strong ht) (n := n) (enq_writer (hinv n).snd hne)
    rw [sendExec_trace, sendExec_trace, ← pipe_wire (hinv m1) (ho m1), h1, ← tcp_wire] at hwr
    exact ⟨m1, hm1, hwr.length_le⟩

end

/-- An example: one buffered message, read in two pieces, goes through a queue to its handler; after that the writer ticks for ever. -/
def pipeMsg : UInt32 × Bytes := (5, [7])

def pipeBytes : Bytes := [0, 0, 0, 5, 0, 0, 0, 1, 7]

def pipeDec (x : Bytes) : Frame.FrameDecoder := { Frame.newFrameDecoder (Decoder.lengthField .tlv) with inBuf := x }

def pipeReq : Worker.Req := ⟨some 3, 0, .message⟩

def pipeRun : List (Label Send.Label) := [.send (.call 0 pipeBytes), .send (.inside 0), .send (.inside 0), .send (.inside 0), .send (.inside 0), .send (.enq 0 pipeBytes), .send .recv, .send .winside, .send .winside, .send .tick,
  .send .winside, .send (.wwrite pipeBytes), .read [0, 0, 0, 5, 0] [], .read [0, 0, 1, 7] [pipeReq], .work (.submit 1 pipeReq), .work (.start 1 pipeReq), .work (.finish 1 pipeReq .returned)]

def pipeCyc : List (Label Send.Label) := [.send .tick, .send .winside, .send .winside]

/-- Nothing is on its way. -/
def PipeRest (s : State Send.State) : Prop := (s.snd.closed = false ∧ s.snd.broken = false) ∧ s.flight = [] ∧ s.snd.chan = some ⟨[], false⟩ ∧ (s.wk.queue 1 = [] ∧ s.wk.worker 1 = .idle) ∧ ∀ c, s.wk.todo c = []

theorem pipe_example : ∃ s, StepsAll (Pipe.Step (Send.Step 1 16) tcpWritten .tlv false (fun c => c % 2) 1 3) (fun s => s.snd.closed = false ∧ s.snd.broken = false) (Pipe.init {} .tlv) pipeRun s ∧
    StepsAll (Pipe.Step (Send.Step 1 16) tcpWritten .tlv false (fun c => c % 2) 1 3) PipeRest s pipeCyc s := by
  have r1 : Decoder.receive .tlv (pipeDec []) [[0, 0, 0, 5, 0]] = ([], .running (pipeDec [0, 0, 0, 5, 0])) := by decide +kernel
  have r2 : Decoder.receive .tlv (pipeDec [0, 0, 0, 5, 0]) [[0, 0, 1, 7]] = ([({ Pack.newMsgPackage 5 [7] with rawData := pipeBytes }, some (.tlv 5 1 [7]))], .running (pipeDec [])) := by decide +kernel
  refine ⟨_, .cons ⟨rfl, rfl⟩ (.send _ _ _ (.call _ 0 pipeBytes rfl)) (.cons ⟨rfl, rfl⟩ (.send _ _ _ (.testNil _ 0 pipeBytes rfl rfl)) (.cons ⟨rfl, rfl⟩ (.send _ _ _ (.casWin _ 0 pipeBytes rfl rfl))
    (.cons ⟨rfl, rfl⟩ (.send _ _ _ (.make _ 0 pipeBytes rfl)) (.cons ⟨rfl, rfl⟩ (.send _ _ _ (.checkOpen _ 0 pipeBytes rfl rfl)) (.cons ⟨rfl, rfl⟩ (.send _ _ _ (.enq _ 0 pipeBytes _ rfl rfl rfl (by decide)))
    (.cons ⟨rfl, rfl⟩ (.send _ _ _ (.recv _ pipeBytes [] false rfl rfl)) (.cons ⟨rfl, rfl⟩ (.send _ _ _ (.gotOpen _ pipeBytes rfl rfl)) (.cons ⟨rfl, rfl⟩ (.send _ _ _ (.putRest _ pipeBytes rfl rfl (by decide)))
    (.cons ⟨rfl, rfl⟩ (.send _ _ _ (.tick _ rfl)) (.cons ⟨rfl, rfl⟩ (.send _ _ _ (.flushOpen _ rfl rfl)) (.cons ⟨rfl, rfl⟩ (.send _ _ _ (.flushWrite _ rfl rfl (by decide) rfl))
    (.cons ⟨rfl, rfl⟩ (.read _ [0, 0, 0, 5, 0] [0, 0, 1, 7] (pipeDec []) [] _ (by decide) rfl rfl r1 _ (.arrive _ 3 _ rfl nofun))
    (.cons ⟨rfl, rfl⟩ (.read _ [0, 0, 1, 7] [] (pipeDec [0, 0, 0, 5, 0]) _ _ (by decide) rfl rfl r2 _ (.arrive _ 3 _ rfl (by decide)))
    (.cons ⟨rfl, rfl⟩ (.work _ _ (by intro _ h; cases h) _ (.deliver _ 3 _ [] rfl (by decide))) (.cons ⟨rfl, rfl⟩ (.work _ _ (by intro _ h; cases h) _ (.take _ 1 _ [] rfl rfl)) (.cons ⟨rfl, rfl⟩ (.work _ _ (by intro _ h; cases h) _ (.finish _ 1 _ _ rfl))
    (.nil ⟨rfl, rfl⟩))))))))))))))))), ?_⟩
  have hrest : ∀ s : State Send.State, (s.snd.closed = false ∧ s.snd.broken = false) → s.flight = [] → s.snd.chan = some ⟨[], false⟩ → (s.wk.queue 1 = [] ∧ s.wk.worker 1 = .idle) → (∀ c, s.wk.todo c = []) →
      s.snd.writer = .select → s.snd.err = false → s.snd.buf = [] → StepsAll (Pipe.Step (Send.Step 1 16) tcpWritten .tlv false (fun c => c % 2) 1 3) PipeRest s pipeCyc s := by
    intro ⟨⟨closed, broken, chan, flag, writer, buf, err, b, d⟩, flight, rcv, msgs, wk⟩ h1 h2 h3 h4 h5 h6 h7 h8
    dsimp only at h1 h2 h3 h4 h5 h6 h7 h8
    obtain ⟨rfl, rfl⟩ := h1
    subst h2 h3 h6 h7 h8
    exact .cons ⟨⟨rfl, rfl⟩, rfl, rfl, h4, h5⟩ (.send _ _ _ (.tick _ rfl)) (.cons ⟨⟨rfl, rfl⟩, rfl, rfl, h4, h5⟩ (.send _ _ _ (.flushOpen _ rfl rfl))
      (.cons ⟨⟨rfl, rfl⟩, rfl, rfl, h4, h5⟩ (.send _ _ _ (.flushEmpty _ rfl rfl rfl)) (.nil ⟨⟨rfl, rfl⟩, rfl, rfl, h4, h5⟩)))
  exact hrest _ ⟨rfl, rfl⟩ rfl rfl ⟨rfl, rfl⟩ (fun c => by by_cases h : c = 3 <;> simp [Worker.upd, h, Pipe.init, Worker.initial]) rfl rfl rfl

theorem pipe_example_good : GoodCalls .tlv (pipeRun ++ pipeCyc) ∧ OnlyBuffered (pipeRun ++ pipeCyc) := by
  constructor
  · intro i m h
    simp [pipeRun, pipeCyc] at h
    exact ⟨pipeMsg, by decide, by rw [h.2]; decide +kernel⟩
  · intro i m h
    simp [pipeRun, pipeCyc] at h

/-- The hypotheses of `C84_buffered` hold of it, and it shows a message being handled. -/
example : ∃ s, Steps (Pipe.Step (Send.Step 1 16) tcpWritten .tlv false (fun c => c % 2) 1 3) (Pipe.init {} .tlv) pipeRun s ∧ GoodCalls .tlv pipeRun ∧ OnlyBuffered pipeRun ∧
    Send.enqOf (sendTr pipeRun) = [packOf .tlv pipeMsg] ∧ Worker.handlingOf 3 (workTr 3 pipeRun) = [.begins pipeReq, .ends pipeReq] := by
  obtain ⟨s, h, _⟩ := pipe_example
  exact ⟨s, h.steps, fun i m hm => pipe_example_good.1 i m (List.mem_append_left _ hm), fun i m hm => pipe_example_good.2 i m (List.mem_append_left _ hm), by decide +kernel, by decide +kernel⟩

/-- The hypotheses of `C84_arrives` hold of it. -/
example : ∃ e : Exec (Pipe.Step (Send.Step 1 16) tcpWritten .tlv false (fun c => c % 2) 1 3), e.run 0 = Pipe.init {} .tlv ∧ (∀ n, (e.run n).snd.closed = false ∧ (e.run n).snd.broken = false) ∧
    (∀ n, GoodCalls .tlv (e.trace n)) ∧ (∀ n, OnlyBuffered (e.trace n)) ∧ e.WeakFair (bySender Send.Inner) ∧ e.StrongFair (bySender fun l => l = .recv) ∧ e.StrongFair (bySender fun l => l = .tick) ∧
    e.WeakFair isRead ∧ e.WeakFair (byWorker (workerActs 1)) ∧ e.StrongFair (byWorker (readerActs 3)) ∧ Send.enqOf (sendTr (e.trace 6)) = [packOf .tlv pipeMsg] := by
  obtain ⟨s, h1, h2⟩ := pipe_example
  obtain ⟨e, e1, e2, e3, e4, e5, e6, e7⟩ := Exec.ofLasso h1 h2 (by decide) (fun _ h => h.1)
  refine ⟨e, e1, e3, fun n i m hm => pipe_example_good.1 i m (List.mem_append.2 (e7 n _ hm)), fun n i m hm => pipe_example_good.2 i m (List.mem_append.2 (e7 n _ hm)),
    Exec.weakFair_of_often (e5 (.send .winside) (by simp [pipeCyc])) (.inl rfl), Exec.strongFair_of_never (N := pipeRun.length) (fun n hn => ?_), Exec.strongFair_of_often (e5 (.send .tick) (by simp [pipeCyc])) rfl,
    Exec.weakFair_of_never (N := pipeRun.length) (fun n hn => ?_), Exec.weakFair_of_never (N := pipeRun.length) (fun n hn => ?_), Exec.strongFair_of_never (N := pipeRun.length) (fun n hn => ?_), by rw [e2 6 (by decide)]; decide +kernel⟩
  all_goals
    obtain ⟨⟨_, _⟩, h2, h3, ⟨h4, h5⟩, h6⟩ := e4 n hn
    intro ⟨l, t, hA, hs⟩
    generalize e.run n = s at *
    cases hs <;> simp only [bySender, byWorker, isRead] at hA
  · rename_i h
    subst hA
    cases h
    grind
  · rename_i hx hf _ _ _ _
    rw [h2] at hf
    exact hx (List.append_eq_nil_iff.1 hf.symm).1
  · rename_i h
    cases h <;> grind [workerActs]
  · rename_i h
    cases h <;> grind [readerActs]

def directRun : List (Label Send.Label) := [.send (.dcall 0 pipeBytes), .send (.dcall 1 pipeBytes), .send (.dinside 0), .send (.dinside 1), .send (.dwrite 1 pipeBytes true), .send (.dwrite 0 [0, 0] false)]

/-- The hypotheses of `C84_direct` hold of two direct sends, the second of which is cut short by the network. -/
example : ∃ s, Steps (Pipe.Step (Send.Step 1 16) tcpWritten .tlv false (fun c => c % 2) 1 3) (Pipe.init {} .tlv) directRun s ∧ s.flight = pipeBytes ++ [0, 0] ∧ GoodDirect .tlv directRun ∧ OnlyDirect directRun :=
  ⟨_, .cons (.send _ _ _ (.dcall _ 0 pipeBytes rfl)) (.cons (.send _ _ _ (.dcall _ 1 pipeBytes rfl)) (.cons (.send _ _ _ (.dcheckOpen _ 0 pipeBytes rfl rfl)) (.cons (.send _ _ _ (.dcheckOpen _ 1 pipeBytes rfl rfl))
    (.cons (.send _ _ _ (.dwrite _ 1 pipeBytes rfl rfl)) (.cons (.send _ _ _ (.dwritePart _ 0 pipeBytes [0, 0] rfl rfl (by decide))) (.nil _)))))), rfl,
    fun i m h => ⟨pipeMsg, by decide, by simp [directRun] at h; rcases h with h | h <;> rw [h.2] <;> decide +kernel⟩, fun i m h => by simp [directRun] at h⟩

end Zinx.Props
