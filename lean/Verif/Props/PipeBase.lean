import Verif.Lemmas.Pipe
import Verif.Props.Wire
import Verif.Props.Worker
import Verif.Props.WorkerLive

/-! What C84 and C91 have in common: a connection from end to end, for any sender. -/

namespace Zinx.Props
open Zinx Zinx.Pipe

/-- A message as the sender gives it to `SendMsg` or `SendBuffMsg`, packed in the format of the receiver's decoder. -/
def packOf (k : Decoder.Kind) (m : UInt32 × Bytes) : Bytes := match k with
  | .ltv => Pack.packLtv (Pack.newMsgPackage m.1 m.2)
  | _ => Pack.packTlv (Pack.newMsgPackage m.1 m.2)

/-- ID and data of a received message. -/
def keyOf (m : Pack.Message × Option Decoder.Resp) : UInt32 × Bytes := (m.1.id, m.1.data)

/-- What is seen of handling: begin (`true`) or end of the handling of a message with this ID and data. -/
def seen (ms : List (Pack.Message × Option Decoder.Resp)) : Worker.HEv → Bool × Option (UInt32 × Bytes)
  | .begins r => (true, ms[r.id]?.map keyOf)
  | .ends r => (false, ms[r.id]?.map keyOf)

/-- One message after the other. -/
def oneByOne (msgs : List (UInt32 × Bytes)) : List (Bool × Option (UInt32 × Bytes)) := msgs.flatMap fun m => [(true, some m), (false, some m)]

theorem prefix_split {α : Type} : ∀ (L : List (List α)) (x : List α), x <+: L.flatten →
    ∃ n p, n ≤ L.length ∧ x = (L.take n).flatten ++ p ∧ (n = L.length ∧ p = [] ∨ ∃ a q, L[n]? = some a ∧ a = p ++ q ∧ q ≠ []) := by
  intro L
  induction L with
  | nil =>
    intro x h
    have : x = [] := List.prefix_nil.1 h
    exact ⟨0, [], Nat.le_refl _, by simpa using this, .inl ⟨rfl, rfl⟩⟩
  | cons a L ih =>
    intro x h
    rw [List.flatten_cons] at h
    by_cases hl : x.length < a.length
    · obtain ⟨q, hq⟩ := List.prefix_of_prefix_length_le h (List.prefix_append _ _) (by omega)
      refine ⟨0, x, Nat.zero_le _, by simp, .inr ⟨a, q, rfl, hq.symm, ?_⟩⟩
      intro e
      rw [e, List.append_nil] at hq
      rw [hq] at hl
      omega
    · obtain ⟨y, rfl⟩ := List.prefix_of_prefix_length_le (List.prefix_append _ _) h (by omega)
      rw [List.prefix_append_right_inj] at h
      obtain ⟨n, p, h1, h2, h3⟩ := ih y h
      refine ⟨n + 1, p, by simpa using h1, by simp [h2], ?_⟩
      rcases h3 with ⟨h3, h4⟩ | ⟨a', q, h3, h4⟩
      · exact .inl ⟨by simp [h3], h4⟩
      · exact .inr ⟨a', q, by simpa using h3, h4⟩

/-- What the receiver makes of a prefix of the stream of some messages. -/
theorem recv_prefix {k : Decoder.Kind} (hk : k ≠ .htlv) (msgs : List (UInt32 × Bytes)) (hm : ∀ m ∈ msgs, m.2.length < 2 ^ 32 - 8) (reads : List Bytes)
    (hr : reads.flatten <+: (msgs.map (packOf k)).flatten) :
    ∃ n, (Decoder.receiveNew k reads).1.map keyOf = msgs.take n ∧ (∃ d, (Decoder.receiveNew k reads).2 = .running d) ∧
      ∀ j, j ≤ msgs.length → ((msgs.take j).map (packOf k)).flatten.length ≤ reads.flatten.length → j ≤ n := by
  obtain ⟨n, p, h1, h2, h3⟩ := prefix_split _ _ hr
  rw [List.length_map] at h1
  rw [← List.map_take] at h2
  have hm' : ∀ m ∈ msgs.take n, m.2.length < 2 ^ 32 - 8 := fun m h => hm m (List.mem_of_mem_take h)
  have hnext : ∃ next : UInt32 × Bytes, next.2.length < 2 ^ 32 ∧ ∃ q, packOf k next = p ++ q ∧ q ≠ [] := by
    rcases h3 with ⟨_, rfl⟩ | ⟨a, q, ha, rfl, hq⟩
    · refine ⟨(0, []), by decide, _, rfl, ?_⟩
      cases k <;> decide
    · rw [List.getElem?_map] at ha
      cases hx : msgs[n]? with
      | none => rw [hx] at ha; cases ha
      | some next =>
        rw [hx] at ha
        have := hm next (List.mem_of_getElem? hx)
        exact ⟨next, by omega, q, by simpa using ha, hq⟩
  obtain ⟨next, hn, q, hp, hq⟩ := hnext
  refine ⟨n, ?_⟩
  have hlast : ∀ j, j ≤ msgs.length → ((msgs.take j).map (packOf k)).flatten.length ≤ reads.flatten.length → j ≤ n := by
    intro j hj hle
    apply Classical.byContradiction
    intro hlt
    rcases h3 with ⟨h3, _⟩ | ⟨a, q', ha, rfl, hq'⟩
    · rw [List.length_map] at h3; omega
    · have e1 : (msgs.take j).map (packOf k) = (msgs.take n).map (packOf k) ++ (((msgs.map (packOf k)).take j).drop n) := by
        have := List.take_append_drop n ((msgs.map (packOf k)).take j)
        rw [List.take_take, Nat.min_eq_left (by omega)] at this
        rw [List.map_take, List.map_take]
        exact this.symm
      have e2 : ((msgs.map (packOf k)).take j).drop n = (p ++ q') :: ((msgs.map (packOf k)).take j).drop (n + 1) := by
        rw [List.drop_eq_getElem?_toList_append, List.getElem?_take, if_pos (by omega), ha]
        rfl
      rw [h2, e1, e2] at hle
      simp only [List.flatten_append, List.flatten_cons, List.length_append] at hle
      have : q'.length ≠ 0 := by intro e; exact hq' (List.eq_nil_of_length_eq_zero e)
      omega
  cases k with
  | htlv => exact absurd rfl hk
  | tlv =>
    obtain ⟨g1, _, g3⟩ := C11_tlv_end_to_end (msgs.take n) hm' next hn p q hp hq reads h2
    exact ⟨g1, g3, hlast⟩
  | ltv =>
    obtain ⟨g1, _, g3⟩ := C12_ltv_end_to_end (msgs.take n) hm' next hn p q hp hq reads h2
    exact ⟨g1, g3, hlast⟩

theorem seen_sequential (c : Nat) (ms : List (Pack.Message × Option Decoder.Resp)) :
    (Worker.sequential (requests c 0 ms.length)).map (seen ms) = oneByOne (ms.map keyOf) := by
  have e : (List.range ms.length).map (fun j => ms[j]?.map keyOf) = (ms.map keyOf).map some := by
    apply List.ext_getElem?
    intro i
    by_cases hi : i < ms.length
    · simp [hi]
    · simp [hi]
  have e2 : oneByOne (ms.map keyOf) = ((ms.map keyOf).map some).flatMap fun x => [(true, x), (false, x)] := by
    simp [oneByOne, List.flatMap_map]
  rw [e2, ← e]
  simp [Worker.sequential, requests, List.flatMap_map, List.map_flatMap, seen]

/-- Everything the receiver handles, if the wire carries (a prefix of) the stream of some messages. -/
theorem pipe_handled {S L : Type} {st : S → L → S → Prop} {wr : L → Bytes} {s0 : S} {k : Decoder.Kind} {b : Bool} {wid : Nat → Nat} {cap c : Nat} {ls : List (Label L)} {s : State S} (hi : Inv st wr s0 k b wid cap c ls s) (hk : k ≠ .htlv)
    (msgs : List (UInt32 × Bytes)) (hm : ∀ m ∈ msgs, m.2.length < 2 ^ 32 - 8) (hw : (sendTr ls).flatMap wr <+: (msgs.map (packOf k)).flatten) :
    (Worker.handlingOf c (workTr c ls)).map (seen s.msgs) <+: oneByOne msgs := by
  obtain ⟨n, h1, _, _⟩ := recv_prefix hk msgs hm (readsOf ls) (.trans (hi.flight ▸ List.prefix_append _ _) hw)
  rw [hi.rcv] at h1
  dsimp only at h1
  have hf := C27_fifo_one_at_a_time (fun _ _ h => by cases h) hi.wk c
  rw [hi.arrived, List.nil_append] at hf
  refine (hf.map (seen s.msgs)).trans ?_
  rw [seen_sequential, h1]
  conv => rhs; rw [← List.take_append_drop n msgs]
  unfold oneByOne
  rw [List.flatMap_append]
  exact List.prefix_append _ _

theorem mem_sendTr {ls : List (Label L)} {l : L} : l ∈ sendTr ls ↔ .send l ∈ ls := by
  unfold sendTr
  rw [List.mem_filterMap]
  constructor
  · rintro ⟨a, ha, h⟩
    cases a <;> simp at h
    rw [← h]; exact ha
  · intro h; exact ⟨_, h, rfl⟩

theorem unpack_list {k : Decoder.Kind} (L : List Bytes) (h : ∀ m ∈ L, ∃ x : UInt32 × Bytes, x.2.length < 2 ^ 32 - 8 ∧ m = packOf k x) :
    ∃ msgs : List (UInt32 × Bytes), L = msgs.map (packOf k) ∧ ∀ m ∈ msgs, m.2.length < 2 ^ 32 - 8 := by
  induction L with
  | nil => exact ⟨[], rfl, nofun⟩
  | cons m L ih =>
    obtain ⟨msgs, h1, h2⟩ := ih fun m hm => h m (.tail _ hm)
    obtain ⟨x, hx, rfl⟩ := h m (.head _)
    refine ⟨x :: msgs, by rw [h1]; rfl, ?_⟩
    intro m hm
    rcases List.mem_cons.1 hm with rfl | hm
    · exact hx
    · exact h2 m hm

/-! ### Every message arrives -/

section
variable {S L : Type} {st : S → L → S → Prop} {wr : L → Bytes} {s0 : S} {k : Decoder.Kind} {b : Bool} {wid : Nat → Nat} {cap c : Nat}

/-- The part of the sender of an execution. -/
def sendExec (e : Exec (Pipe.Step st wr k b wid cap c)) : Exec st where
  run n := (e.run n).snd
  act n := match e.act n with
    | some (.send l) => some l
    | _ => none
  next n := by
    have hn := e.next n
    cases ha : e.act n with
    | none => rw [ha] at hn; dsimp only at hn ⊢; rw [hn]
    | some l =>
      rw [ha] at hn
      dsimp only at hn
      generalize e.run (n + 1) = t at hn
      cases hn with
      | send l t h => exact h
      | read => rfl
      | work => rfl

/-- The part of the workers of an execution. -/
def workExec (e : Exec (Pipe.Step st wr k b wid cap c)) : Exec (Worker.Step b wid cap) where
  run n := (e.run n).wk
  act n := match e.act n with
    | some (.work a) => some a
    | some (.read _ rs) => some (.arrive c rs)
    | _ => none
  next n := by
    have hn := e.next n
    cases ha : e.act n with
    | none => rw [ha] at hn; dsimp only at hn ⊢; rw [hn]
    | some l =>
      rw [ha] at hn
      dsimp only at hn
      generalize e.run (n + 1) = t at hn
      cases hn with
      | send l t h => rfl
      | read _ _ _ _ _ _ _ _ _ _ hw => exact hw
      | work _ _ _ h => exact h

theorem sendExec_trace (e : Exec (Pipe.Step st wr k b wid cap c)) (n : Nat) : (sendExec e).trace n = sendTr (e.trace n) := by
  induction n with
  | zero => rfl
  | succ n ih =>
    show (sendExec e).trace n ++ ((sendExec e).act n).toList = sendTr (e.trace n ++ (e.act n).toList)
    rw [ih, sendTr, sendTr, List.filterMap_append]
    congr 1
    show (match e.act n with | some (.send l) => some l | _ => none : Option L).toList = _
    cases e.act n with
    | none => rfl
    | some l => cases l <;> rfl

theorem workExec_trace (e : Exec (Pipe.Step st wr k b wid cap c)) (n : Nat) : (workExec e).trace n = workTr c (e.trace n) := by
  induction n with
  | zero => rfl
  | succ n ih =>
    show (workExec e).trace n ++ ((workExec e).act n).toList = workTr c (e.trace n ++ (e.act n).toList)
    rw [ih, workTr, workTr, List.filterMap_append]
    congr 1
    show (match e.act n with | some (.work a) => some a | some (.read _ rs) => some (.arrive c rs) | _ => none : Option Worker.Act).toList = _
    cases e.act n with
    | none => rfl
    | some l => cases l <;> rfl

/-- An action of the sender of the given kind. -/
def bySender (A : L → Prop) : Label L → Prop
  | .send l => A l
  | _ => False

/-- An action of the workers of the given kind. -/
def byWorker (A : Worker.Act → Prop) : Label L → Prop
  | .work a => A a
  | _ => False

def isRead : Label L → Prop
  | .read _ _ => True
  | _ => False

theorem sendExec_weak {e : Exec (Pipe.Step st wr k b wid cap c)} {A : L → Prop} (h : e.WeakFair (bySender A)) : (sendExec e).WeakFair A := by
  intro n hn
  obtain ⟨m, l, hm, ha, hA⟩ := h n fun m hm => let ⟨l, t, hA, hs⟩ := hn m hm; ⟨.send l, _, hA, .send _ l t hs⟩
  cases l <;> simp only [bySender] at hA
  exact ⟨m, _, hm, by simp [sendExec, ha], hA⟩

theorem sendExec_strong {e : Exec (Pipe.Step st wr k b wid cap c)} {A : L → Prop} (h : e.StrongFair (bySender A)) : (sendExec e).StrongFair A := by
  intro n hn
  obtain ⟨m, l, hm, ha, hA⟩ := h n fun m hm => let ⟨x, hx, l, t, hA, hs⟩ := hn m hm; ⟨x, hx, .send l, _, hA, .send _ l t hs⟩
  cases l <;> simp only [bySender] at hA
  exact ⟨m, _, hm, by simp [sendExec, ha], hA⟩

theorem workExec_weak {e : Exec (Pipe.Step st wr k b wid cap c)} {A : Worker.Act → Prop} (hA0 : ∀ c rs, ¬ A (.arrive c rs)) (h : e.WeakFair (byWorker A)) : (workExec e).WeakFair A := by
  intro n hn
  obtain ⟨m, l, hm, ha, hA⟩ := h n fun m hm => let ⟨l, t, hA, hs⟩ := hn m hm; ⟨.work l, _, hA, .work _ l (fun rs h => hA0 c rs (h ▸ hA)) t hs⟩
  cases l <;> simp only [byWorker] at hA
  exact ⟨m, _, hm, by simp [workExec, ha], hA⟩

theorem workExec_strong {e : Exec (Pipe.Step st wr k b wid cap c)} {A : Worker.Act → Prop} (hA0 : ∀ c rs, ¬ A (.arrive c rs)) (h : e.StrongFair (byWorker A)) : (workExec e).StrongFair A := by
  intro n hn
  obtain ⟨m, l, hm, ha, hA⟩ := h n fun m hm => let ⟨x, hx, l, t, hA, hs⟩ := hn m hm; ⟨x, hx, .work l, _, hA, .work _ l (fun rs h => hA0 c rs (h ▸ hA)) t hs⟩
  cases l <;> simp only [byWorker] at hA
  exact ⟨m, _, hm, by simp [workExec, ha], hA⟩

theorem seen_take (c : Nat) (ms : List (Pack.Message × Option Decoder.Resp)) (n : Nat) (hn : n ≤ ms.length) :
    (Worker.sequential (requests c 0 n)).map (seen ms) = oneByOne ((ms.take n).map keyOf) := by
  have := seen_sequential c (ms.take n)
  rw [List.length_take, Nat.min_eq_left hn] at this
  rw [← this]
  apply List.map_congr_left
  intro ev hev
  unfold Worker.sequential requests at hev
  rw [List.mem_flatMap] at hev
  obtain ⟨r, hr, hev⟩ := hev
  rw [List.mem_map] at hr
  obtain ⟨j, hj, rfl⟩ := hr
  rw [List.mem_range] at hj
  simp only [List.mem_cons, List.not_mem_nil, or_false] at hev
  rcases hev with rfl | rfl <;> simp [seen, hj]

/-- The number of bytes read. -/
def readLen (ls : List (Label L)) : Nat := (readsOf ls).flatten.length

theorem readLen_append (a b : List (Label L)) : readLen (a ++ b) = readLen a + readLen b := by
  simp [readLen, readsOf, List.filterMap_append]

theorem pipe_todo (e : Exec (Pipe.Step st wr k b wid cap c)) (h0 : e.run 0 = Pipe.init s0 k) (hwk : e.WeakFair (byWorker (workerActs (wid c)))) (hdel : e.StrongFair (byWorker (readerActs c))) (m : Nat) :
    ∃ n, m ≤ n ∧ (readLen (e.trace m) < readLen (e.trace n) ∨ (e.run n).wk.todo c = []) := by
  have hinv : ∀ n, Inv st wr s0 k b wid cap c (e.trace n) (e.run n) := fun n => Pipe.inv (h0 ▸ e.steps n)
  have hw0 : (workExec e).run 0 = Worker.initial fun _ => [] := by show (e.run 0).wk = _; rw [h0]; rfl
  have hown : ∀ c r, r ∈ (fun _ => [] : Nat → List Worker.Req) c → r.conn = some c := fun _ _ h => by cases h
  obtain ⟨n, hn, hall⟩ := C27_fair hown (workExec e) hw0 c (workExec_weak (fun _ _ h => h) hwk) (workExec_strong (fun _ _ h => h) hdel) m
  rw [workExec_trace, workExec_trace, List.nil_append] at hall
  refine ⟨n, hn, ?_⟩
  by_cases hlt : readLen (e.trace m) < readLen (e.trace n)
  · exact .inl hlt
  right
  -- no read in between
  obtain ⟨x, hx⟩ := e.trace_prefix hn
  have hsame : readsOf (e.trace n) = readsOf (e.trace m) := by
    have hne : ∀ y ∈ readsOf (e.trace n), y ≠ [] := by
      intro y hy
      unfold readsOf at hy
      rw [List.mem_filterMap] at hy
      obtain ⟨l, hl, hy⟩ := hy
      cases l <;> simp at hy
      subst hy
      obtain ⟨j, _, hj⟩ := e.mem_trace hl
      have hnext := e.next j
      rw [hj] at hnext
      dsimp only at hnext
      generalize e.run (j + 1) = t at hnext
      cases hnext
      assumption
    rw [← hx] at hlt hne ⊢
    rw [readLen_append] at hlt
    have h1 : readsOf (e.trace m ++ x) = readsOf (e.trace m) ++ readsOf x := by simp [readsOf, List.filterMap_append]
    rw [h1] at hne ⊢
    have h2 : readLen x = 0 := by omega
    cases hr : readsOf x with
    | nil => simp
    | cons y ys =>
      have := hne y (by rw [hr]; simp)
      unfold readLen at h2
      rw [hr, List.flatten_cons, List.length_append] at h2
      exact absurd (List.eq_nil_of_length_eq_zero (by omega)) this
  have hmsgs : (e.run n).msgs = (e.run m).msgs := by
    have h1 := (hinv n).rcv
    have h2 := (hinv m).rcv
    rw [hsame, h2] at h1
    exact ((Prod.mk.inj h1).1).symm
  have harr : Worker.arrivedAt c (workTr c (e.trace n)) = Worker.arrivedAt c (workTr c (e.trace m)) := by
    rw [(hinv n).arrived, (hinv m).arrived, hmsgs]
  rw [← harr] at hall
  have hup := C27_fifo_one_at_a_time hown (hinv n).wk c
  rw [List.nil_append] at hup
  have heq : Worker.handlingOf c (workTr c (e.trace n)) = Worker.sequential (Worker.arrivedAt c (workTr c (e.trace n))) :=
    hup.eq_of_length_le hall.length_le
  have hends := ends_finished hown (hinv n).wk c
  rw [heq, endsOf_sequential] at hends
  have hcount := congrArg List.length (conn_count hown (hinv n).wk c).1
  obtain ⟨i1, i2, _⟩ := Worker.worker_inv (hinv n).wk (wid c)
  rw [i1, i2, List.nil_append, List.length_append, hends] at hcount
  simp only [Worker.mine, List.filter_append, List.length_append] at hcount
  exact List.eq_nil_of_length_eq_zero (by omega)

theorem pipe_read (e : Exec (Pipe.Step st wr k b wid cap c)) (h0 : e.run 0 = Pipe.init s0 k) (hrun : ∀ n, ∃ d, (e.run n).rcv = .running d) (hrd : e.WeakFair isRead)
    (hwk : e.WeakFair (byWorker (workerActs (wid c)))) (hdel : e.StrongFair (byWorker (readerActs c))) (N n : Nat) (hN : N ≤ ((sendTr (e.trace n)).flatMap wr).length) :
    ∃ m, n ≤ m ∧ N ≤ readLen (e.trace m) := by
  have hwire : ∀ m, n ≤ m → N ≤ ((sendTr (e.trace m)).flatMap wr).length := by
    intro m hm
    obtain ⟨x, hx⟩ := e.trace_prefix hm
    rw [← hx]
    unfold sendTr at *
    rw [List.filterMap_append, List.flatMap_append, List.length_append]
    omega
  suffices H : ∀ v m, n ≤ m → N - readLen (e.trace m) ≤ v → ∃ m', m ≤ m' ∧ N ≤ readLen (e.trace m') from H _ n (Nat.le_refl _) (Nat.le_refl _)
  intro v
  induction v with
  | zero => intro m _ hv; exact ⟨m, Nat.le_refl _, by omega⟩
  | succ v ih =>
    intro m hm hv
    by_cases hd : N ≤ readLen (e.trace m)
    · exact ⟨m, Nat.le_refl _, hd⟩
    suffices hmore : ∃ j, m ≤ j ∧ readLen (e.trace m) < readLen (e.trace j) by
      obtain ⟨j, hj, hlt⟩ := hmore
      obtain ⟨m', hm', h⟩ := ih j (by omega) (by omega)
      exact ⟨m', by omega, h⟩
    obtain ⟨j, hj, hcase⟩ := pipe_todo e h0 hwk hdel m
    rcases hcase with hlt | htodo
    · exact ⟨j, hj, hlt⟩
    by_cases hlt : readLen (e.trace m) < readLen (e.trace j)
    · exact ⟨j, hj, hlt⟩
    have hmono : readLen (e.trace m) ≤ readLen (e.trace j) := by
      obtain ⟨x, hx⟩ := e.trace_prefix hj
      rw [← hx, readLen_append]
      omega
    generalize hR : readLen (e.trace m) = R at *
    obtain ⟨i, hi, hq⟩ := e.recorded.leads_weak (A := isRead) hrd.recorded
      (P := fun p => Steps (Pipe.Step st wr k b wid cap c) (Pipe.init s0 k) p.2 p.1 ∧ p.1.wk.todo c = [] ∧ (∃ d, p.1.rcv = .running d) ∧ N ≤ ((sendTr p.2).flatMap wr).length ∧ readLen p.2 = R)
      (Q := fun p => R < readLen p.2) (n := j) (by
        intro p l q ⟨h1, h2, ⟨d, h3⟩, h4, h5⟩ ⟨hs, hq⟩
        rw [hq, readLen_append]
        have h1' := h1.snoc hs
        generalize q.1 = t at hs h1'
        cases hs with
        | send l t h =>
          refine .inl ⟨h1', h2, ⟨d, h3⟩, ?_, ?_⟩
          · unfold sendTr at *; rw [List.filterMap_append, List.flatMap_append, List.length_append]; omega
          · simp [readLen, readsOf] at h5 ⊢; omega
        | read x y d ms sta hx hf hd hr t hw =>
          right
          have : 0 < x.length := List.length_pos_iff.2 hx
          have e1 : readLen [(Label.read x (requests c p.1.msgs.length ms.length) : Label L)] = x.length := by simp [readLen, readsOf]
          rw [e1]
          omega
        | work a ha t h =>
          refine .inl ⟨h1', ?_, ⟨d, h3⟩, ?_, ?_⟩
          · dsimp only
            cases h with
            | arrive c' rs g1 g2 =>
              dsimp only
              by_cases e : c = c'
              · subst e; exact absurd rfl (ha rs)
              · rw [Worker.upd_ne _ _ e]; exact h2
            | deliver c' r rest g1 g2 =>
              dsimp only
              by_cases e : c = c'
              · subst e; rw [h2] at g1; cases g1
              · rw [Worker.upd_ne _ _ e]; exact h2
            | _ => exact h2
          · unfold sendTr at *; rw [List.filterMap_append]; simpa using h4
          · simp [readLen, readsOf] at h5 ⊢; omega) (by
        intro p l q ⟨h1, h2, _, h4, h5⟩ ⟨hs, hq⟩ hA
        rw [hq, readLen_append]
        generalize q.1 = t at hs
        cases hs with
        | read x y d ms sta hx hf hd hr t hw =>
          have : 0 < x.length := List.length_pos_iff.2 hx
          have e1 : readLen [(Label.read x (requests c p.1.msgs.length ms.length) : Label L)] = x.length := by simp [readLen, readsOf]
          rw [e1]
          omega
        | _ => cases hA) (by
        intro p ⟨h1, h2, ⟨d, h3⟩, h4, h5⟩
        rw [enabled_recorded]
        have hfl := congrArg List.length (Pipe.inv h1).flight
        rw [List.length_append] at hfl
        have hne : p.1.flight ≠ [] := by
          intro e
          rw [e, List.length_nil] at hfl
          unfold readLen at h5
          omega
        cases hr : Decoder.receive k d [p.1.flight] with
        | mk ms sta =>
          exact ⟨_, _, by trivial, .read p.1 p.1.flight [] d ms sta hne (by simp) h3 hr _ (.arrive _ c _ h2 (by
            intro r hr'
            unfold requests at hr'
            rw [List.mem_map] at hr'
            obtain ⟨_, _, rfl⟩ := hr'
            rfl))⟩)
      ⟨h0 ▸ e.steps j, htodo, hrun j, hwire j (by omega), by show readLen (e.trace j) = R; omega⟩
    exact ⟨i, by omega, hq⟩

/-- If from some point on the wire carries the stream of some messages, and all of it has been written at some time, then the receiver handles all of these messages, one after the other. -/
theorem pipe_arrives (e : Exec (Pipe.Step st wr k b wid cap c)) (h0 : e.run 0 = Pipe.init s0 k) (hk : k ≠ .htlv) (msgs : List (UInt32 × Bytes)) {n : Nat}
    (hlater : ∀ m, n ≤ m → ∃ rest : List (UInt32 × Bytes), (sendTr (e.trace m)).flatMap wr <+: ((msgs ++ rest).map (packOf k)).flatten ∧ ∀ x ∈ msgs ++ rest, x.2.length < 2 ^ 32 - 8)
    (hwritten : ∃ m, n ≤ m ∧ (msgs.map (packOf k)).flatten.length ≤ ((sendTr (e.trace m)).flatMap wr).length)
    (hrd : e.WeakFair isRead) (hwk : e.WeakFair (byWorker (workerActs (wid c)))) (hdel : e.StrongFair (byWorker (readerActs c))) :
    ∃ m, n ≤ m ∧ oneByOne msgs <+: (Worker.handlingOf c (workTr c (e.trace m))).map (seen (e.run m).msgs) := by
  have hinv : ∀ n, Inv st wr s0 k b wid cap c (e.trace n) (e.run n) := fun n => Pipe.inv (h0 ▸ e.steps n)
  have hw0 : (workExec e).run 0 = Worker.initial fun _ => [] := by show (e.run 0).wk = _; rw [h0]; rfl
  have hown : ∀ c r, r ∈ (fun _ => [] : Nat → List Worker.Req) c → r.conn = some c := fun _ _ h => by cases h
  obtain ⟨m1, hm1, hwr⟩ := hwritten
  have hrecv : ∀ m, n ≤ m → ∃ rest n', (e.run m).msgs.map keyOf = (msgs ++ rest).take n' ∧ (∃ d, (e.run m).rcv = .running d) ∧
      ((msgs.map (packOf k)).flatten.length ≤ readLen (e.trace m) → msgs.length ≤ n') := by
    intro m hm
    obtain ⟨rest, g1, g2⟩ := hlater m hm
    obtain ⟨n', a1, a2, a3⟩ := recv_prefix hk (msgs ++ rest) g2 (readsOf (e.trace m)) (by
      refine List.IsPrefix.trans ?_ g1
      rw [← (hinv m).flight]
      exact List.prefix_append _ _)
    rw [(hinv m).rcv] at a1 a2
    refine ⟨rest, n', a1, a2, fun hle => a3 msgs.length (by simp) ?_⟩
    rw [List.take_left']
    · exact hle
    · rfl
  have hrun : ∀ m, ∃ d, (e.run m).rcv = .running d := by
    intro m
    have hpre : ((sendTr (e.trace m)).flatMap wr) <+: ((sendTr (e.trace (max n m))).flatMap wr) := by
      obtain ⟨x, hx⟩ := e.trace_prefix (Nat.le_max_right n m)
      rw [← hx]
      unfold sendTr
      rw [List.filterMap_append, List.flatMap_append]
      exact List.prefix_append _ _
    obtain ⟨rest, g1, g2⟩ := hlater (max n m) (Nat.le_max_left n m)
    obtain ⟨n', a1, a2, a3⟩ := recv_prefix hk (msgs ++ rest) g2 (readsOf (e.trace m)) (by
      refine List.IsPrefix.trans ?_ (hpre.trans g1)
      rw [← (hinv m).flight]
      exact List.prefix_append _ _)
    rw [(hinv m).rcv] at a2
    exact a2
  -- read
  obtain ⟨m2, hm2, hread⟩ := pipe_read e h0 hrun hrd hwk hdel _ m1 hwr
  obtain ⟨rest2, n2, b1, _, b2⟩ := hrecv m2 (by omega)
  have b2 := b2 hread
  -- handled
  obtain ⟨m3, hm3, hall⟩ := C27_fair hown (workExec e) hw0 c (workExec_weak (fun _ _ h => h) hwk) (workExec_strong (fun _ _ h => h) hdel) m2
  rw [workExec_trace, workExec_trace, List.nil_append, (hinv m2).arrived] at hall
  refine ⟨m3, by omega, List.IsPrefix.trans ?_ (hall.map _)⟩
  obtain ⟨rest3, n3, c1, _, c2⟩ := hrecv m3 (by omega)
  have hR : readLen (e.trace m2) ≤ readLen (e.trace m3) := by
    obtain ⟨x, hx⟩ := e.trace_prefix hm3
    rw [← hx, readLen_append]
    omega
  have c2 := c2 (by omega)
  have hlen : (e.run m2).msgs.length ≤ (e.run m3).msgs.length := by
    have hup := C27_fifo_one_at_a_time hown (hinv m3).wk c
    rw [List.nil_append, (hinv m3).arrived] at hup
    have := (hall.trans hup).length_le
    have hl : ∀ q, (Worker.sequential (requests c 0 q)).length = 2 * q := by
      intro q
      unfold Worker.sequential requests
      rw [List.flatMap_map, List.length_flatMap]
      induction q with
      | zero => rfl
      | succ q ih => rw [List.range_succ, List.map_append, List.sum_append, ih]; simp; omega
    rw [hl, hl] at this
    omega
  rw [seen_take c _ _ hlen, List.map_take, c1]
  have hlen2 : msgs.length ≤ (e.run m2).msgs.length := by
    have := congrArg List.length b1
    simp only [List.length_map, List.length_take, List.length_append] at this
    omega
  have hpre : msgs <+: List.take (e.run m2).msgs.length (List.take n3 (msgs ++ rest3)) := by
    rw [List.take_take]
    exact List.prefix_take_iff.2 ⟨List.prefix_append _ _, by omega⟩
  obtain ⟨y, hy⟩ := hpre
  rw [← hy]
  unfold oneByOne
  rw [List.flatMap_append]
  exact List.prefix_append _ _

end

end Zinx.Props
