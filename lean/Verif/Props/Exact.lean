import Verif.Props.Async
import Verif.Props.LogWriter
import Verif.Props.RawRead
import Verif.Props.ConnMgr
import Verif.Props.Request
import Verif.Props.Wire

/-! # Exact conditions for properties that hold only in part -/

namespace Zinx.Props
open Zinx

/-! ## C57 -/

/-- **C57, exactly.** The callback reads nil iff a `SetReturnedObj` call is between its two writes, and otherwise the value of a `SetReturnedObj` call. -/
theorem C57_exact (calls : Nat → Async.Call) (ls : List Nat) (s s' : Async.State) (i : Nat) (h : Steps (Async.Step calls) Async.init ls s)
    (hs : Async.Step calls s i s') (hread : s'.reads ≠ s.reads) :
    (s'.reads = s.reads ++ [none] ↔ ∃ j v, calls j = .set v ∧ s.pc j = .won) ∧
    (s'.reads = s.reads ++ [none] ∨ ∃ j v, calls j = .set v ∧ s'.reads = s.reads ++ [some v]) := by
  have hi := async_inv h
  have hrun : s'.reads = s.reads ++ [s.obj] := by
    cases hs with
    | run hr => rfl
    | _ => exact absurd rfl hread
  have h1 : (∃ j v, calls j = .set v ∧ s.pc j = .won) → s'.reads = s.reads ++ [none] := by
    rintro ⟨j, v, hj, hw⟩
    rw [hrun, (hi.setWon j (by rw [hj]; trivial) hw).1]
  have h2 : (¬ ∃ j v, calls j = .set v ∧ s.pc j = .won) → ∃ j v, calls j = .set v ∧ s'.reads = s.reads ++ [some v] := fun hn =>
    C57_partial calls ls s s' i h hs hread fun j v hj hw => hn ⟨j, v, hj, hw⟩
  refine ⟨⟨fun e => Classical.byContradiction fun hn => ?_, h1⟩, ?_⟩
  · obtain ⟨j, v, _, e'⟩ := h2 hn
    rw [e] at e'
    simp at e'
  · by_cases hw : ∃ j v, calls j = .set v ∧ s.pc j = .won
    · exact .inl (h1 hw)
    · exact .inr (h2 hw)

/-- The run of `C57_refuted` up to the callback: a call is between its writes. -/
example : ∃ s s', Steps (Async.Step fun | 0 => .set 5 | _ => .on (some 7)) Async.init [0, 1, 1, 1, 1, 1] s ∧ Async.Step (fun | 0 => .set 5 | _ => .on (some 7)) s 9 s' ∧
    s'.reads ≠ s.reads ∧ s.pc 0 = .won :=
  ⟨_, _, .cons (.setWin (v := 5) rfl rfl rfl) (.cons (.onWin (f := some 7) rfl rfl rfl) (.cons (.onWrite (f := some 7) rfl rfl)
    (.cons (.onLoad (i := 1) rfl) (.cons (.readFn (i := 1) rfl) (.cons (.fireWin (i := 1) (f := 7) rfl rfl) (.nil _)))))), .run (by decide), by simp, rfl⟩

/-! ## C81 -/

open LogWriter in
/-- **C81, exactly.** After any calls of one day, a write on that day makes an archive iff the length of the file with the write, plus once more the bytes still in the buffer, reaches the limit; the archive then has
all that was in the file, and the new file the data of this write only. Otherwise the data is appended. -/
theorem C81_exact (file : Option Bytes) (D : Nat) (ops : List LogWriter.Op) (p : Bytes) (c : Clock) (hd : ∀ o ∈ ops ++ [.write p c], onDay D o) :
    let s := (new file).runOps ops
    let t := (new file).runOps (ops ++ [.write p c])
    let whole := s.file.getD [] ++ s.buf
    if (whole.length : Int) + p.length + s.buf.length < s.maxSize then t.names = s.names ∧ t.archives = s.archives ∧ t.file.getD [] ++ t.buf = whole ++ p
    else (∃ name, t.names = s.names ++ [name] ∧ (name, whole) ∈ t.archives) ∧ t.file.getD [] ++ t.buf = p := by
  intro s t whole
  have inv := (run_ops_inv ops (new file) (new_inv file)).1
  have day : DayInv D s := runOps_dayInv ops (new file) ⟨by simp [new], by simp [new]⟩ (fun o ho => hd o (List.mem_append_left _ ho))
  change Inv s at inv
  obtain ⟨c1, c2, c3, c4, c5⟩ : onDay D (.write p c) := hd _ (by simp)
  have e : t = s.write p c := by
    simp [s, t, State.runOps, State.run, List.foldl_append, LogWriter.Op.events, State.apply]
  have h1 : ∃ s1, s1 = (if s.isOpen then s else s.rotate c.opening c.mod) ∧
      current s1 = current s ∧ s1.archives = s.archives ∧ DayInv D s1 ∧ s1.isOpen = true ∧ Inv s1 ∧ s1.maxSize = s.maxSize ∧ s1.names = s.names ∧ s1.buf = s.buf := by
    refine ⟨_, rfl, ?_⟩
    cases ho : s.isOpen with
    | true =>
      rw [if_pos rfl]; exact ⟨rfl, rfl, day, ho, inv, rfl, rfl, rfl⟩
    | false =>
      obtain ⟨a, b, m, _, _, g, _⟩ := rotate_spec inv c.opening c.mod
      rw [if_neg (by simp)]
      refine ⟨(g ho).1, (g ho).2, rotate_dayInv _ _ c1 c2, b, a, m, ?_, ?_⟩
      · unfold State.rotate
        simp only [ho, Bool.false_eq_true, if_false]
        split <;> rfl
      · rw [inv.closed ho]
        unfold State.rotate
        simp only [ho, Bool.false_eq_true, if_false]
        split <;> rfl
  obtain ⟨s1, hs1, k1, k2, k3, k4, k5, k6, k7, k8⟩ := h1
  have hday : s1.created.day = c.now.day := by rw [k3.2 k4, c3]
  have hready : ready s p c = if s1.size + p.length + s1.buf.length ≥ s1.maxSize then s1.rotate c.sizeRot c.mod else s1 := by
    unfold ready
    dsimp only
    rw [← hs1, if_neg (show ¬ s1.created.day ≠ c.now.day from fun h => h hday)]
  have hcur : current t = current (ready s p c) ++ p := by rw [e, write_current]
  have hn : t.names = (ready s p c).names ∧ t.archives = (ready s p c).archives := by rw [e]; exact ⟨rfl, rfl⟩
  have hsz := k5.size k4
  rw [k1] at hsz
  change (if ((current s).length : Int) + p.length + s.buf.length < s.maxSize then _ else _)
  split
  · rename_i hlt
    rw [if_neg (by rw [hsz, k6, k8]; omega)] at hready
    rw [hready] at hn hcur
    exact ⟨hn.1.trans k7, hn.2.trans k2, by change current t = current s ++ p; rw [hcur, k1]⟩
  · rename_i hge
    rw [if_pos (by rw [hsz, k6, k8]; omega)] at hready
    rw [hready] at hn hcur
    obtain ⟨_, _, _, _, g, _⟩ := rotate_spec k5 c.sizeRot c.mod
    obtain ⟨g1, g2⟩ := g k4
    refine ⟨⟨s1.created.name, ?_, ?_⟩, ?_⟩
    · rw [hn.1, ← k7]
      unfold State.rotate
      rw [k4]
      rfl
    · rw [hn.2, g2, k1]
      unfold archive
      exact List.mem_append_right _ (by simp [whole, current])
    · change current t = p
      rw [hcur, g1, List.nil_append]

/-- Both cases: 2 bytes in the buffer, a limit of 10; 5 more bytes are 2 + 5 + 2, so appended; 6 are not. -/
example :
    let ops : List LogWriter.Op := [.setMaxSize 10, .write [1, 2] (constClock ⟨1, 10⟩)]
    let s := (LogWriter.new none).runOps ops
    s.buf = [1, 2] ∧ s.maxSize = 10 ∧ ((LogWriter.new none).runOps (ops ++ [.write [3, 4, 5, 6, 7] (constClock ⟨1, 11⟩)])).archives = [] ∧
      ((LogWriter.new none).runOps (ops ++ [.write [3, 4, 5, 6, 7, 8] (constClock ⟨1, 11⟩)])).archives = [(10, [1, 2])] := by decide

/-! ## C67 -/

open RawRead in
structure TcpInv (ls : List RawRead.Label) (s : RawRead.State) : Prop where
  reads : s.reads = (arrived ls).length
  mem : s.mem 0 = (arrived ls).foldl fill []
  pend : ∀ m ∈ s.pending, m.buf = 0 ∧ ∃ x, (arrived ls)[m.read]? = some x ∧ m.len = x.length

open RawRead in
theorem tcpInv_step (ls : List RawRead.Label) (s : RawRead.State) (l : RawRead.Label) (t : RawRead.State) (h : TcpInv ls s) (hs : RawRead.Step .tcp s l t) : TcpInv (ls ++ [l]) t := by
  obtain ⟨h1, h2, h3⟩ := h
  cases hs with
  | read x =>
    have e : arrived (ls ++ [.read x]) = arrived ls ++ [x] := by rw [arrived_append]; rfl
    refine ⟨by rw [e]; simp [h1], by rw [e]; simp [bufOf, h2], ?_⟩
    intro m hm
    rw [List.mem_append, List.mem_singleton] at hm
    rw [e]
    rcases hm with hm | rfl
    · obtain ⟨a, y, b, c⟩ := h3 m hm
      exact ⟨a, y, by rw [List.getElem?_append_left (List.getElem?_eq_some_iff.mp b).1]; exact b, c⟩
    · exact ⟨rfl, x, by rw [h1]; simp, rfl⟩
  | handle m hm =>
    have e : arrived (ls ++ [.handle m.read ((s.mem m.buf).take m.len)]) = arrived ls := by rw [arrived_append]; simp [arrived]
    exact ⟨by rw [e]; exact h1, by rw [e]; exact h2, fun x hx => by rw [e]; exact h3 x (List.mem_of_mem_erase hx)⟩

open RawRead in
/-- What reads do to the first `n` bytes depends only on what those were. -/
theorem fill_take (a b : RawRead.Bytes) (n : Nat) (h : a.take n = b.take n) (x : RawRead.Bytes) : (fill a x).take n = (fill b x).take n := by
  unfold fill
  rw [List.take_append, List.take_append, List.take_drop, List.take_drop]
  by_cases hx : n ≤ x.length
  · rw [Nat.sub_eq_zero_of_le hx]; simp
  · have : x.length + (n - x.length) = n := by omega
    rw [this, h]

open RawRead in
theorem fold_take (xs : List RawRead.Bytes) : ∀ (a b : RawRead.Bytes) (n : Nat), a.take n = b.take n → (xs.foldl fill a).take n = (xs.foldl fill b).take n := by
  induction xs with
  | nil => intro a b n h; exact h
  | cons x xs ih => intro a b n h; exact ih _ _ n (fill_take a b n h x)

open RawRead in
/-- **C67, exactly, for TCP connections.** What a handler sees is the bytes of its read, overwritten by what has been read since, up to their length. -/
theorem C67_exact (ls : List RawRead.Label) (t : RawRead.State) (k : Nat) (p : RawRead.Bytes) (h : Steps (RawRead.Step .tcp) {} (ls ++ [.handle k p]) t) :
    ∃ x, (arrived ls)[k]? = some x ∧ p = (((arrived ls).drop (k + 1)).foldl fill x).take x.length := by
  obtain ⟨s, h1, h2⟩ := h.unsnoc
  obtain ⟨i1, i2, i3⟩ := h1.invariant_trace tcpInv_step ⟨rfl, rfl, nofun⟩
  generalize hl : RawRead.Label.handle k p = l at h2
  cases h2 with
  | read x => cases hl
  | handle m hm =>
    cases hl
    obtain ⟨hb, x, hx, hlen⟩ := i3 m hm
    refine ⟨x, hx, ?_⟩
    rw [hb, hlen, i2]
    obtain ⟨hlt, hget⟩ := List.getElem?_eq_some_iff.mp hx
    have e : arrived ls = (arrived ls).take m.read ++ x :: (arrived ls).drop (m.read + 1) := by
      rw [← hget, List.getElem_cons_drop, List.take_append_drop]
    conv => lhs; rw [e]
    rw [List.foldl_append]
    exact fold_take _ _ x x.length ((take_fill _ x).trans (List.take_length).symm)

/-- Two later reads, the second one longer. -/
example : ∃ t, Steps (RawRead.Step .tcp) {} ([.read [1, 2, 3], .read [4], .read [5, 6]] ++ [.handle 0 [5, 6, 3]]) t :=
  ⟨_, .cons (.read _ [1, 2, 3]) (.cons (.read _ [4]) (.cons (.read _ [5, 6]) (.cons (.handle _ ⟨0, 0, 3⟩ (by decide)) (.nil _))))⟩

/-! ## C34 -/

open ConnMgr in
/-- **C34, exactly.** `Range` and `Range2` return what the callback returned for the connection visited last, and nil if there is none. -/
theorem C34_exact {E : Type} (cb : Nat → UInt64 → Conn → Option E) (cb2 : Nat → Bytes → Conn → Option E) (order : List (Bytes × Conn)) :
    (range cb order).2 = (order.getLast?.bind fun x => cb (order.length - 1) ((parseUint x.1).getD 0) x.2) ∧
    (range2 cb2 order).2 = (order.getLast?.bind fun x => cb2 (order.length - 1) x.2.idStr x.2) := by
  have len : ∀ {α β γ : Type} (f : List α × γ → β → α) (g : List α × γ → β → γ) (xs : List β) (st : List α × γ),
      (xs.foldl (fun st x => (st.1 ++ [f st x], g st x)) st).1.length = st.1.length + xs.length := by
    intro α β γ f g xs
    induction xs with
    | nil => intro st; rfl
    | cons x xs ih => intro st; simp only [List.foldl_cons]; rw [ih]; simp; omega
  rcases List.eq_nil_or_concat order with rfl | ⟨xs, x, rfl⟩
  · exact ⟨rfl, rfl⟩
  · rw [List.concat_eq_append]
    constructor
    · unfold range
      rw [List.foldl_append]
      simp only [List.foldl_cons, List.foldl_nil, List.getLast?_append, List.getLast?_singleton, Option.some_or, Option.bind_some]
      rw [len (fun _ (x : Bytes × Conn) => ((parseUint x.1).getD 0, x.2)) (fun st x => cb st.1.length ((parseUint x.1).getD 0) x.2)]
      simp
    · unfold range2
      rw [List.foldl_append]
      simp only [List.foldl_cons, List.foldl_nil, List.getLast?_append, List.getLast?_singleton, Option.some_or, Option.bind_some]
      rw [len (fun _ (x : Bytes × Conn) => (x.2.idStr, x.2)) (fun st x => cb2 st.1.length x.2.idStr x.2)]
      simp

/-- The error of the first of two connections is not returned, that of the second is. -/
example (x y : ConnMgr.Conn) :
    (ConnMgr.range (fun i _ _ => if i = 0 then some "first" else none) [([49], x), ([50], y)]).2 = none ∧
    (ConnMgr.range (fun i _ _ => if i = 1 then some "second" else none) [([49], x), ([50], y)]).2 = some "second" := ⟨rfl, rfl⟩

/-! ## C24 -/

open Request in
/-- **C24, exactly.** A pooled request, its router or handlers bound, is the same as a new one iff the one that was put back had no response. -/
theorem C24_exact (pooled : Option Req) (conn msg : Option Nat) (x : Option Nat) (hs : List Nat) :
    ((getRequest true pooled conn msg).bindRouter x).bindRouterSlices hs = ((newRequest conn msg).bindRouter x).bindRouterSlices hs ↔ ∀ r, pooled = some r → r.icResp = none := by
  cases pooled with
  | none => simp [getRequest, allocateRequest, newRequest, Req.reset]
  | some r =>
    constructor
    · intro h r' e
      cases e
      exact congrArg Req.icResp h
    · intro h
      have := h r rfl
      simp [getRequest, newRequest, Req.reset, Req.bindRouter, Req.bindRouterSlices, this]

/-! ## C25 -/

open Request in
/-- **C25, exactly.** The copy shows the user what the original shows iff the payload is the raw data (no decoder has replaced it) and there is no response. -/
theorem C25_exact (h : Heap) (r : Req) (hwf : WellFormed h r) (a : Nat) (hm : r.msg = some a) (h' : Heap) (c : Req) (hc : r.copy h = some (h', c)) :
    observe h' c = observe h r ↔ (h.msgs a).data = (h.msgs a).rawData ∧ r.icResp = none := by
  obtain ⟨h'', c', a', e, h1, h2, _, _, h5, _⟩ := C25_same_partial h r hwf a hm
  rw [hc] at e
  simp only [Option.some.injEq, Prod.mk.injEq] at e
  obtain ⟨rfl, rfl⟩ := e
  have hr := C25_refuted_response h r h' c hc
  have hd : (h'.msgs a').data = (h.msgs a).rawData := by
    simp only [Req.copy, hm, Option.some.injEq, Prod.mk.injEq] at hc
    obtain ⟨rfl, rfl⟩ := hc
    cases h1
    simp
  have hk : (fun k => c.get h' k) = fun k => r.get h k := funext h5
  unfold observe
  rw [h1, hm, hr, hk]
  simp only [Option.map_some, h2, hd, Prod.mk.injEq, Option.some.injEq, true_and, and_true]
  exact ⟨fun h => ⟨h.1.symm, h.2.symm⟩, fun h => ⟨h.1.symm, h.2.symm⟩⟩

/-! ## C21 -/

/-- A handler that only does its own work and returns. -/
inductive Plain {W : Type} : Request.Handler W → Prop
  | ret : Plain .ret
  | act (f : W → W) (k : W → Request.Handler W) : (∀ w, Plain (k w)) → Plain (.act f k)

open Request in
theorem plain_exec {W : Type} (len : Nat) (nxt : Int → W → Option (SlicesRun W)) {h : Handler W} (hp : Plain h) (i : Int) :
    ∀ w, ∃ w', execHandler len nxt h i w = some ⟨false, i, w', []⟩ := by
  induction hp with
  | ret => intro w; exact ⟨w, rfl⟩
  | act f k _ ih => intro w; exact ih (f w) (f w)

open Request in
theorem plain_loop {W : Type} (hs : List (Handler W)) (hp : ∀ h ∈ hs, Plain h) (n : Nat) : ∀ (i : Nat) (w : W), (i : Int) + n = int8 hs.length →
    ∃ m, slicesLoop hs (n + 1) i w = some m ∧ m.panicked = false ∧ starts m.trace = List.range' i n := by
  have hb : int8 hs.length ≤ 127 ∧ (0 ≤ int8 hs.length → int8 hs.length ≤ hs.length) := by unfold int8; rw [Int.bmod_def]; omega
  induction n with
  | zero =>
    intro i w hi
    refine ⟨⟨false, i, w, []⟩, ?_, rfl, rfl⟩
    rw [slicesLoop, if_neg (by omega)]
  | succ n ih =>
    intro i w hi
    have hlt : i < hs.length := by omega
    obtain ⟨w', hw⟩ := plain_exec hs.length (fun j w' => slicesLoop hs (n + 1) (int8 (j + 1)) w') (hp _ (List.getElem_mem hlt)) i w
    obtain ⟨m, h1, h2, h3⟩ := ih (i + 1) w' (by omega)
    refine ⟨{ m with trace := .start i :: ([] ++ m.trace) }, ?_, h2, ?_⟩
    · have hn : int8 ((i : Int) + 1) = ((i + 1 : Nat) : Int) := by unfold int8; rw [Int.bmod_def]; omega
      rw [slicesLoop, if_pos (by omega), if_neg (by omega), Int.toNat_natCast, List.getElem?_eq_getElem hlt]
      simp only [hw]
      rw [hn, h1]
      rfl
    · simp only [starts, List.nil_append, List.filterMap_cons] at h3 ⊢
      rw [h3, List.range'_succ]

open Request in
/-- **C21, exactly, for handlers that call neither `Next` nor `Abort` and do not panic.** Of a list of n handlers the first `int8(n)` run, none if that is negative. So all of them run iff there are at most 127. -/
theorem C21_exact {W : Type} (hs : List (Handler W)) (hp : ∀ h ∈ hs, Plain h) (w : W) :
    ∃ m, Runs hs w m ∧ m.panicked = false ∧ starts m.trace = List.range (int8 hs.length).toNat ∧
      (starts m.trace = List.range hs.length ↔ hs.length ≤ 127) := by
  have hb : (int8 hs.length).toNat = hs.length ↔ hs.length ≤ 127 := by unfold int8; rw [Int.bmod_def]; omega
  have key : ∃ m, Runs hs w m ∧ m.panicked = false ∧ starts m.trace = List.range (int8 hs.length).toNat := by
    by_cases h0 : 0 ≤ int8 hs.length
    · obtain ⟨m, h1, h2, h3⟩ := plain_loop hs hp (int8 hs.length).toNat 0 w (by omega)
      refine ⟨m, ⟨(int8 hs.length).toNat + 1, ?_⟩, h2, by rw [h3, List.range_eq_range']⟩
      have h4 : int8 (-1 + 1) = ((0 : Nat) : Int) := by decide
      rw [runHandlers, routerSlicesNext, h4, h1]
    · refine ⟨⟨false, 0, w, []⟩, ⟨1, ?_⟩, rfl, ?_⟩
      · have h4 : int8 (-1 + 1) = 0 := by decide
        rw [runHandlers, routerSlicesNext, slicesLoop, h4, if_neg (by omega)]
      · rw [Int.toNat_of_nonpos (by omega)]; rfl
  obtain ⟨m, h1, h2, h3⟩ := key
  refine ⟨m, h1, h2, h3, ?_⟩
  rw [h3, ← hb]
  exact ⟨fun h => by simpa using congrArg List.length h, fun h => by rw [h]⟩

open Request in
example : ∃ hs : List (Handler (List Nat)), hs.length = 300 ∧ ∀ h ∈ hs, Plain h := by
  refine ⟨List.replicate 300 (leaf 1), List.length_replicate, ?_⟩
  generalize 300 = n
  intro h hh
  rw [List.eq_of_mem_replicate hh]
  exact .act _ _ fun _ => .ret

/-! ## C13 -/

open Spec Decoder in
/-- **C13, exactly.** A frame is delivered, as the first one of a connection, iff its body has at most 254 bytes (of the at most 255 the format can express). -/
theorem C13_exact (head funcode : UInt8) (body : Bytes) (hb : body.length ≤ 255) : (receiveNew .htlv [htlvWire head funcode body]).1 ≠ [] ↔ body.length ≤ 254 := by
  have hl := htlvWire_length head funcode body
  constructor
  · intro h
    apply Classical.byContradiction
    intro hn
    refine h (C13_refuted_wedged head funcode body (by omega) [] ?_)
    rw [List.flatten_nil, List.append_nil, hl]
    omega
  · intro h
    have hq : htlvWire 0 0 [] ≠ [] := by
      intro e
      have := htlvWire_length 0 0 []
      rw [e] at this
      cases this
    rw [(C13_partial [(head, funcode, body)] (by simpa using h) (0, 0, []) (Nat.zero_le _) [] (htlvWire 0 0 []) rfl hq [htlvWire head funcode body] (by simp)).1]
    simp

end Zinx.Props
