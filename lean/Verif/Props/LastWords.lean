import Verif.Model.LastWords
import Verif.Props.LogWriter

/-! # C106: what was logged before the process ends is in the log file -/

namespace Zinx.Props

open Zinx Zinx.LastWords Zinx.LogWriter

/-- What the files should hold: the contents found when they were opened, and the lines output to a file. -/
def shouldBe : List Act → List (List Log.Out) → Bytes
  | a :: as, o :: os =>
    (match a with | .opens found => found.getD [] | _ => []) ++ ((o.filter (·.sink = .file)).map (·.bytes)).flatten ++ shouldBe as os
  | _, _ => []

/-- No writer used an archive name twice. -/
def namesOnce (p : Proc) : Prop := (∀ s ∈ p.old, s.names.Nodup) ∧ ∀ w ∈ p.w, w.1.names.Nodup

/-- What the writer in use has not written to the file. -/
def unwritten (p : Proc) : Bytes := (p.w.map (·.1.buf)).getD []

/-- Invariant: closed writers have nothing buffered. -/
structure WordsInv (p : Proc) : Prop where
  old : ∀ s ∈ p.old, Inv s ∧ s.buf = []
  now : ∀ w ∈ p.w, Inv w.1
  small : ∀ w ∈ p.w, w.1.buf.length ≤ bufSize

theorem bufWrite_small (file buf p : Bytes) (h : buf.length ≤ bufSize) : (bufWrite file buf p).2.length ≤ bufSize := by
  unfold bufWrite
  split
  · rw [List.length_append]; omega
  · split
    · simp
    · dsimp only
      split <;> simp_all

theorem bufWrite_grows (file buf p : Bytes) : (bufWrite file buf p).2.length ≤ buf.length + p.length := by
  unfold bufWrite
  split
  · rw [List.length_append]; omega
  · split
    · simp
    · dsimp only
      split
      · rw [List.length_drop]; omega
      · simp

theorem rotate_buf (s : State) (a b : Time) : (s.rotate a b).buf = [] := by
  unfold State.rotate
  dsimp only
  split <;> rfl

theorem ready_buf (s : State) (p : Bytes) (c : Clock) : (ready s p c).buf = [] ∨ (ready s p c).buf = s.buf := by
  unfold ready
  dsimp only
  repeat' split
  all_goals simp [rotate_buf]

theorem write_small (s : State) (p : Bytes) (c : Clock) (h : s.buf.length ≤ bufSize) : (s.write p c).buf.length ≤ bufSize := by
  rw [write_eq]
  apply bufWrite_small
  rcases ready_buf s p c with e | e <;> rw [e]
  · simp
  · exact h

theorem write_grows (s : State) (p : Bytes) (c : Clock) : (s.write p c).buf.length ≤ s.buf.length + p.length := by
  rw [write_eq]
  have := bufWrite_grows ((ready s p c).file.getD []) (ready s p c).buf p
  dsimp only
  rcases ready_buf s p c with e | e
  · rw [e] at this ⊢; simp at this; omega
  · rw [e] at this ⊢; exact this

/-- Lines of a step that go to a file. -/
def toFile (o : List Log.Out) : Bytes := ((o.filter (·.sink = .file)).map (·.bytes)).flatten

/-- Contents found by a step. -/
def foundBy : Act → Bytes
  | .opens found => found.getD []
  | _ => []

theorem shouldBe_cons (a : Act) (as : List Act) (o : List Log.Out) (os : List (List Log.Out)) :
    shouldBe (a :: as) (o :: os) = foundBy a ++ toFile o ++ shouldBe as os := by
  cases a <;> rfl

/-- What a step does: `found` and `said` are what the files should hold in addition. -/
structure WordsStep (p q : Proc) (found said : Bytes) : Prop where
  inv : WordsInv q
  names : namesOnce q → namesOnce p
  total : namesOnce q → q.disk ++ unwritten q = p.disk ++ unwritten p ++ found ++ said
  grows : (unwritten q).length ≤ (unwritten p).length + said.length

theorem WordsStep.trans {p q r : Proc} {a b : Bytes} (h1 : WordsStep p q [] a) (h2 : WordsStep q r [] b) : WordsStep p r [] (a ++ b) := by
  refine ⟨h2.inv, fun h => h1.names (h2.names h), fun h => ?_, ?_⟩
  · rw [h2.total h, h1.total (h2.names h)]; simp
  · have := h1.grows; have := h2.grows; rw [List.length_append]; omega

/-- One call on the writer in use. -/
theorem words_op {p : Proc} (h : WordsInv p) {s : State} {cons : Bool} (hw : p.w = some (s, cons)) (o : LogWriter.Op) (b : Bool) (err : Bytes)
    (hsmall : (s.runOps [o]).buf.length ≤ bufSize) (hgrows : (s.runOps [o]).buf.length ≤ s.buf.length + (opBytes o).length) :
    WordsStep p { p with w := some (s.runOps [o], b), err := err } [] (opBytes o) := by
  obtain ⟨i, ⟨l, n⟩, t⟩ := run_ops_inv [o] s (h.now (s, cons) hw)
  have hn : namesOnce { p with w := some (s.runOps [o], b), err := err } → (s.runOps [o]).names.Nodup := fun hh => hh.2 (s.runOps [o], b) rfl
  refine ⟨⟨h.old, ?_, ?_⟩, ?_, ?_, ?_⟩
  · intro w e; cases e; exact i
  · intro w e; cases e; exact hsmall
  · intro hh
    refine ⟨hh.1, ?_⟩
    intro w e
    rw [hw] at e
    cases e
    have := hn hh
    rw [n, List.nodup_append] at this
    exact this.1
  · intro hh
    have := t (hn hh)
    unfold archived current at this
    have e : logWritten [o] = opBytes o := by simp [logWritten]
    rw [e] at this
    unfold Proc.disk unwritten onDisk
    simp only [hw, Option.map_some, Option.getD_some, List.append_assoc, List.nil_append] at this ⊢
    rw [this]
  · unfold unwritten
    simp only [hw, Option.map_some, Option.getD_some]
    exact hgrows

theorem words_write {p : Proc} (h : WordsInv p) (c : Clock) (o : Log.Out) (hs : o.sink = if p.w.isSome then .file else .stderr) :
    WordsStep p (p.write c o) [] (toFile [o]) ∧ (p.write c o).w.isSome = p.w.isSome := by
  unfold Proc.write
  cases hw : p.w with
  | none =>
    rw [hw] at hs
    have e : toFile [o] = [] := by simp [toFile, hs]
    rw [e]
    refine ⟨⟨⟨h.old, ?_, ?_⟩, ?_, ?_, ?_⟩, by simp⟩
    · intro w e; simp at e
    · intro w e; simp at e
    · exact fun hh => ⟨hh.1, by simp [hw]⟩
    · intro _; simp [Proc.disk, unwritten, hw]
    · simp [unwritten, hw]
  | some x =>
    obtain ⟨s, cons⟩ := x
    rw [hw] at hs
    have e : toFile [o] = opBytes (.write o.bytes c) := by simp [toFile, hs, opBytes]
    rw [e]
    exact ⟨words_op h hw (.write o.bytes c) cons _ (write_small s o.bytes c (h.small _ hw)) (write_grows s o.bytes c), rfl⟩

theorem words_lines (c : Clock) : ∀ (outs : List Log.Out) {p : Proc}, WordsInv p → (∀ o ∈ outs, o.sink = if p.w.isSome then .file else .stderr) →
    WordsStep p (outs.foldl (fun p o => p.write c o) p) [] (toFile outs)
  | [], p, h, _ => ⟨h, id, fun _ => by simp [toFile], by simp⟩
  | o :: outs, p, h, hs => by
    obtain ⟨a, b⟩ := words_write h c o (hs o (by simp))
    have e : toFile (o :: outs) = toFile [o] ++ toFile outs := by
      simp only [toFile, ← List.flatten_append, ← List.map_append, ← List.filter_append, List.singleton_append]
    rw [e]
    exact a.trans (words_lines c outs a.inv (fun o' h' => by rw [b]; exact hs o' (by simp [h'])))

theorem outPut_sink {c : Log.Logger} {x : Log.Ctx} {level : Int} {s : Bytes} {o : Log.Out} (h : Log.outPut c x level s = some o) :
    o.sink = if c.hasFile then .file else .stderr := by
  unfold Log.outPut at h
  simp only [Option.bind_eq_bind, Option.bind_eq_some_iff] at h
  obtain ⟨_, _, e⟩ := h
  cases e
  rfl

theorem call_sink {c : Log.Logger} {x : Log.Ctx} {m : Log.Method} {s : Bytes} {r : List Log.Out × Log.After} (h : Log.call c x m s = some r) :
    ∀ o ∈ r.1, o.sink = if c.hasFile then .file else .stderr := by
  have key : ∀ (level : Int) (a : Log.After), (do let o ← Log.outPut c x level s; some ([o], a)) = some r →
      ∀ o ∈ r.1, o.sink = if c.hasFile then .file else .stderr := by
    intro level a e
    simp only [Option.bind_eq_bind, Option.bind_eq_some_iff] at e
    obtain ⟨o, e1, e2⟩ := e
    cases e2
    intro o' ho
    simp only [List.mem_singleton] at ho
    rw [ho]
    exact outPut_sink e1
  have none : some (([] : List Log.Out), Log.After.returns) = some r → ∀ o ∈ r.1, o.sink = if c.hasFile then .file else .stderr := by
    intro e; cases e; simp
  unfold Log.call at h
  cases m <;> dsimp only at h <;> first | exact key _ _ h | (split at h; · exact none h
                                                             · exact key _ _ h)

theorem words_step {p q : Proc} {a : Act} {o : List Log.Out} (h : WordsInv p) (hs : p.step a = some (q, o)) :
    WordsStep p q (foundBy a) (toFile o) ∧ (a = .tick → unwritten q = []) := by
  have same : ∀ (f : State → State) (op : LogWriter.Op) (g : Bool → Bool), (∀ s : State, s.runOps [op] = f s) → opBytes op = [] →
      (∀ s : State, s.buf.length ≤ bufSize → (f s).buf.length ≤ s.buf.length) →
      WordsStep p (p.onWriter fun w => (f w.1, g w.2)) [] [] := by
    intro f op g e1 e2 e3
    unfold Proc.onWriter
    cases hw : p.w with
    | none =>
      have : { p with w := Option.map (fun w : State × Bool => (f w.1, g w.2)) none } = p := by
        cases p; simp_all
      rw [this]
      exact ⟨h, id, fun _ => by simp, by simp⟩
    | some x =>
      obtain ⟨s, cons⟩ := x
      have k := e3 s (h.small _ hw)
      have := words_op h hw op (g cons) p.err (by rw [e1]; exact Nat.le_trans k (h.small _ hw)) (by rw [e1]; omega)
      rw [e1, e2] at this
      exact this
  cases a with
  | says x m text c =>
    unfold Proc.step at hs
    simp only [Option.map_eq_some_iff] at hs
    obtain ⟨r, e, e2⟩ := hs
    cases e2
    have := words_lines c r.1 h (fun o ho => call_sink e o ho)
    exact ⟨this, by simp⟩
  | tick =>
    cases hs
    have f : ∀ s : State, Inv s → s.flush.buf = [] := fun s i => (flush_facts i).2.2.2.2.2
    refine ⟨same State.flush .daemon id (fun _ => rfl) rfl ?_, fun _ => ?_⟩
    · intro s _
      unfold State.flush
      split <;> simp
    · unfold unwritten Proc.onWriter
      cases hw : p.w with
      | none => rfl
      | some x => exact f x.1 (h.now x hw)
  | opens found =>
    cases hs
    refine ⟨⟨⟨?_, ?_, ?_⟩, ?_, ?_, ?_⟩, by simp⟩
    · intro s m
      simp only [List.mem_append, List.mem_map, Option.mem_toList] at m
      rcases m with m | ⟨w, hw, e⟩
      · exact h.old s m
      · rw [← e]
        obtain ⟨a1, _, _, _, _, a6⟩ := flush_facts (h.now w hw)
        exact ⟨(close_facts a1 a6).1, a6⟩
    · intro w e; cases e; exact new_inv found
    · intro w e; cases e; simp [new]
    · intro hh
      refine ⟨fun s m => hh.1 s (by simp [m]), fun w hw => ?_⟩
      have := hh.1 w.1.flush.close (by simp only [List.mem_append, List.mem_map, Option.mem_toList]; exact Or.inr ⟨w, hw, rfl⟩)
      rw [show w.1.flush.close.names = w.1.flush.names from rfl, (flush_facts (h.now w hw)).2.2.2.1] at this
      exact this
    · intro _
      unfold Proc.disk unwritten
      cases hw : p.w with
      | none => simp [onDisk, new, foundBy, toFile]
      | some x =>
        obtain ⟨a1, a2, a3, _, _, a6⟩ := flush_facts (h.now x hw)
        have : onDisk x.1.flush.close = onDisk x.1 ++ x.1.buf := by
          unfold current at a2
          rw [a6, List.append_nil] at a2
          unfold onDisk
          rw [show x.1.flush.close.archives = x.1.flush.archives from rfl, a3, show x.1.flush.close.file = x.1.flush.file from rfl, a2]
          simp
        have e2 : onDisk (new found) = found.getD [] := by simp [onDisk, new]
        have e3 : (new found).buf = [] := rfl
        simp [this, e2, e3, foundBy, toFile]
    · simp [unwritten, new]
  | setCons b =>
    cases hs
    refine ⟨?_, by simp⟩
    unfold Proc.onWriter
    cases hw : p.w with
    | none =>
      refine ⟨⟨h.old, by simp, by simp⟩, fun hh => ⟨hh.1, by simp [hw]⟩, fun _ => ?_, ?_⟩ <;> simp [Proc.disk, unwritten, hw, foundBy, toFile]
    | some x =>
      refine ⟨⟨h.old, ?_, ?_⟩, fun hh => ⟨hh.1, ?_⟩, fun _ => ?_, ?_⟩
      · intro w e; cases e; exact h.now x hw
      · intro w e; cases e; exact h.small x hw
      · intro w e; rw [hw] at e; cases e; exact hh.2 (x.1, b) rfl
      · simp [Proc.disk, unwritten, hw, foundBy, toFile]
      · simp [unwritten, hw]
  | setMaxSize ms =>
    cases hs
    refine ⟨same (fun s => s.setMaxSize ms) (.setMaxSize ms) id (fun _ => rfl) rfl ?_, by simp⟩
    intro s _
    unfold State.setMaxSize
    split <;> simp
  | setLogger l =>
    cases hs
    exact ⟨⟨⟨h.old, h.now, h.small⟩, id, fun _ => by simp [Proc.disk, unwritten, foundBy, toFile], by simp [unwritten]⟩, by simp⟩

theorem run_cons {p q : Proc} {a : Act} {as : List Act} {os : List (List Log.Out)} (h : p.run (a :: as) = some (q, os)) :
    ∃ p1 o os1, p.step a = some (p1, o) ∧ p1.run as = some (q, os1) ∧ os = o :: os1 := by
  rw [Proc.run] at h
  simp only [Option.bind_eq_bind, Option.bind_eq_some_iff] at h
  obtain ⟨⟨p1, o⟩, e1, ⟨⟨p2, os1⟩, e2, e3⟩⟩ := h
  cases e3
  exact ⟨p1, o, os1, e1, e2, rfl⟩

theorem words_run : ∀ (acts : List Act) {p q : Proc} {outs : List (List Log.Out)}, WordsInv p → p.run acts = some (q, outs) →
    WordsInv q ∧ (namesOnce q → namesOnce p) ∧ (namesOnce q → q.disk ++ unwritten q = p.disk ++ unwritten p ++ shouldBe acts outs) ∧
    (unwritten q).length ≤ (unwritten p).length + (toFile outs.flatten).length ∧
    ∀ i, acts[i]? = some .tick → (unwritten q).length ≤ (toFile (outs.drop (i + 1)).flatten).length
  | [], p, q, outs, h, hr => by
    cases hr
    exact ⟨h, id, fun _ => by simp [shouldBe], by simp, by simp⟩
  | a :: as, p, q, outs, h, hr => by
    obtain ⟨p1, o, os, e1, e2, e3⟩ := run_cons hr
    rw [e3]
    obtain ⟨s1, s2⟩ := words_step h e1
    obtain ⟨r1, r2, r3, r4, r5⟩ := words_run as s1.inv e2
    refine ⟨r1, fun hh => s1.names (r2 hh), fun hh => ?_, ?_, ?_⟩
    · rw [r3 hh, s1.total (r2 hh), shouldBe_cons]; simp
    · have := s1.grows
      have e : toFile (o :: os).flatten = toFile o ++ toFile os.flatten := by
        simp only [toFile, List.flatten_cons, List.filter_append, List.map_append, List.flatten_append]
      rw [e, List.length_append]
      omega
    · intro i hi
      cases i with
      | zero =>
        simp only [List.getElem?_cons_zero, Option.some.injEq] at hi
        rw [s2 hi] at r4
        simpa using r4
      | succ i => simpa using r5 i (by simpa using hi)

theorem start_words (l : Log.Logger) : WordsInv (start l) := ⟨by simp [start], by simp [start], by simp [start]⟩

/-- **C106 (what is missing).** For every history of log calls, flushes, changes of the file and of the settings, whenever the process ends: if no archive
name was used twice, the files hold what they should hold except for an end of at most 4096 bytes; and for every flush of the goroutine, that end is
not longer than the lines output since. Not proved, since false: that nothing is missing. -/
theorem C106_partial (l : Log.Logger) (acts : List Act) (p : Proc) (outs : List (List Log.Out)) (h : (start l).run acts = some (p, outs))
    (hn : namesOnce p) :
    ∃ missing, p.disk ++ missing = shouldBe acts outs ∧ missing.length ≤ 4096 ∧
      ∀ i, acts[i]? = some .tick → missing.length ≤ (((outs.drop (i + 1)).flatten.filter (·.sink = .file)).map (·.bytes)).flatten.length := by
  obtain ⟨r1, _, r3, _, r5⟩ := words_run acts (start_words l) h
  refine ⟨unwritten p, ?_, ?_, r5⟩
  · rw [r3 hn]; simp [start, Proc.disk, unwritten]
  · unfold unwritten
    cases hw : p.w with
    | none => simp
    | some x => exact r1.small x hw

/-- Lines of a history with times that go to a file, from a moment on. -/
def saidFrom (from_ : Nat) : List (Nat × Act) → List (List Log.Out) → Nat
  | a :: as, o :: os => (if from_ ≤ a.1 then ((o.filter (·.sink = .file)).map (·.bytes)).flatten.length else 0) + saidFrom from_ as os
  | _, _ => 0

theorem saidFrom_all (n : Nat) : ∀ (acts : List (Nat × Act)) (outs : List (List Log.Out)), outs.length = acts.length → (∀ a ∈ acts, n ≤ a.1) →
    saidFrom n acts outs = (toFile outs.flatten).length
  | [], [], _, _ => by simp [saidFrom, toFile]
  | a :: as, o :: os, hl, h => by
    rw [saidFrom, if_pos (h a (by simp)), saidFrom_all n as os (by simpa using hl) (fun b hb => h b (by simp [hb]))]
    simp only [toFile, List.flatten_cons, List.filter_append, List.map_append, List.flatten_append, List.length_append]
  | [], _ :: _, hl, _ => by simp at hl
  | _ :: _, [], hl, _ => by simp at hl

theorem saidFrom_drop (n : Nat) : ∀ (i : Nat) (acts : List (Nat × Act)) (outs : List (List Log.Out)),
    saidFrom n (acts.drop i) (outs.drop i) ≤ saidFrom n acts outs
  | 0, _, _ => by simp
  | i + 1, [], _ => by simp [saidFrom]
  | i + 1, _ :: _, [] => by cases i <;> simp [saidFrom]
  | i + 1, a :: as, o :: os => by
    have := saidFrom_drop n i as os
    simp only [List.drop_succ_cons]
    rw [saidFrom]
    omega

theorem run_length : ∀ (acts : List Act) {p q : Proc} {outs : List (List Log.Out)}, p.run acts = some (q, outs) → outs.length = acts.length
  | [], _, _, _, h => by cases h; rfl
  | a :: as, _, _, _, h => by
    obtain ⟨p1, o, os, _, e2, e3⟩ := run_cons h
    rw [e3, List.length_cons, List.length_cons, run_length as e2]

/-- **C106 (old lines are there).** If each step has a time, times do not go back, and the goroutine flushed at time `u`, only lines output at `u` or
later can be missing: five seconds back when the goroutine runs on time. -/
theorem C106_old (l : Log.Logger) (acts : List (Nat × Act)) (p : Proc) (outs : List (List Log.Out))
    (h : (start l).run (acts.map (·.2)) = some (p, outs)) (hn : namesOnce p) (ht : acts.Pairwise (fun a b => a.1 ≤ b.1)) (u : Nat)
    (hu : (u, Act.tick) ∈ acts) :
    ∃ missing, p.disk ++ missing = shouldBe (acts.map (·.2)) outs ∧ missing.length ≤ 4096 ∧ missing.length ≤ saidFrom u acts outs := by
  obtain ⟨m, m1, m2, m3⟩ := C106_partial l _ p outs h hn
  refine ⟨m, m1, m2, ?_⟩
  obtain ⟨i, hi, e⟩ := List.mem_iff_getElem.mp hu
  have k := m3 i (by rw [List.getElem?_map, List.getElem?_eq_getElem hi, e]; rfl)
  have hl := run_length _ h
  rw [List.length_map] at hl
  have later : ∀ a ∈ acts.drop (i + 1), u ≤ a.1 := by
    intro a ha
    obtain ⟨j, hj, e2⟩ := List.mem_iff_getElem.mp ha
    rw [List.getElem_drop] at e2
    rw [List.length_drop] at hj
    have := List.pairwise_iff_getElem.mp ht i (i + 1 + j) hi (by omega) (by omega)
    rw [e, e2] at this
    exact this
  have e3 := saidFrom_all u (acts.drop (i + 1)) (outs.drop (i + 1)) (by simp [hl]) later
  unfold toFile at e3
  have := saidFrom_drop u (i + 1) acts outs
  omega

theorem bufWrite_keeps (file buf p : Bytes) (h0 : p ≠ []) (h : p.length ≤ bufSize) : (bufWrite file buf p).2 ≠ [] := by
  have hp : 0 < p.length := List.length_pos_iff.mpr h0
  unfold bufWrite
  split
  · simp [h0]
  · split
    · rename_i h1 h2
      rw [h2] at h1
      simp only [List.length_nil] at h1
      omega
    · dsimp only
      split
      · intro e
        have := congrArg List.length e
        simp only [List.length_drop, List.length_nil] at this
        omega
      · rename_i h3
        rw [List.length_drop] at h3
        omega

theorem run_snoc : ∀ (acts : List Act) (a : Act) {p r : Proc} {outs : List (List Log.Out)}, p.run (acts ++ [a]) = some (r, outs) →
    ∃ q os o, p.run acts = some (q, os) ∧ q.step a = some (r, o) ∧ outs = os ++ [o]
  | [], a, p, r, outs, h => by
    obtain ⟨p1, o, os, e1, e2, e3⟩ := run_cons h
    cases e2
    exact ⟨p, [], o, rfl, e1, e3⟩
  | b :: acts, a, p, r, outs, h => by
    obtain ⟨p1, o, os, e1, e2, e3⟩ := run_cons h
    obtain ⟨q, os', o', f1, f2, f3⟩ := run_snoc acts a e2
    refine ⟨q, o :: os', o', ?_, f2, by rw [e3, f3]; rfl⟩
    rw [Proc.run, e1]
    simp [f1]

theorem call_one {c : Log.Logger} {x : Log.Ctx} {m : Log.Method} {s : Bytes} {r : List Log.Out × Log.After} (h : Log.call c x m s = some r) :
    r.1 = [] ∨ ∃ o, r.1 = [o] := by
  have key : ∀ (level : Int) (a : Log.After), (do let o ← Log.outPut c x level s; some ([o], a)) = some r → r.1 = [] ∨ ∃ o, r.1 = [o] := by
    intro level a e
    simp only [Option.bind_eq_bind, Option.bind_eq_some_iff] at e
    obtain ⟨o, _, e2⟩ := e
    cases e2
    exact Or.inr ⟨o, rfl⟩
  have none : some (([] : List Log.Out), Log.After.returns) = some r → r.1 = [] ∨ ∃ o, r.1 = [o] := by
    intro e; cases e; exact Or.inl rfl
  unfold Log.call at h
  cases m <;> dsimp only at h <;> first | exact key _ _ h | (split at h; · exact none h
                                                             · exact key _ _ h)

/-- **C106 (the last line never makes it).** If the process ends right after a log call that output a line of 1 to 4096 bytes to a file (the line of `Fatal`, of
a panic, or the last line of `Serve`), the end of that line is missing, whatever happened before. -/
theorem C106_last (l : Log.Logger) (acts : List Act) (x : Log.Ctx) (m : Log.Method) (text : Bytes) (c : Clock) (p : Proc)
    (outs : List (List Log.Out)) (o : Log.Out) (h : (start l).run (acts ++ [.says x m text c]) = some (p, outs ++ [[o]]))
    (hf : o.sink = .file) (h0 : o.bytes ≠ []) (h1 : o.bytes.length ≤ 4096) (hn : namesOnce p) :
    ∃ missing, missing ≠ [] ∧ p.disk ++ missing = shouldBe (acts ++ [.says x m text c]) (outs ++ [[o]]) := by
  obtain ⟨r1, _, r3, _, r5⟩ := words_run _ (start_words l) h
  refine ⟨unwritten p, ?_, by rw [r3 hn]; simp [start, Proc.disk, unwritten]⟩
  obtain ⟨q, os, o', f1, f2, f3⟩ := run_snoc acts _ h
  have e : o' = [o] := by
    have := (List.append_inj' f3 rfl).2
    simp only [List.cons.injEq, and_true] at this
    exact this.symm
  subst e
  unfold Proc.step at f2
  simp only [Option.map_eq_some_iff, Prod.mk.injEq] at f2
  obtain ⟨r, e1, e2, e3⟩ := f2
  rw [e3] at e2
  have hs := call_sink e1 o (by rw [e3]; simp)
  rw [hf] at hs
  cases hw : q.w with
  | none => simp [hw] at hs
  | some y =>
    rw [← e2]
    simp only [List.foldl_cons, List.foldl_nil, Proc.write, hw, unwritten, Option.map_some, Option.getD_some]
    rw [write_eq]
    exact bufWrite_keeps _ _ _ h0 h1

/-- Every line of a history. -/
def allSaid (outs : List (List Log.Out)) : Bytes := (outs.flatten.map (·.bytes)).flatten

/-- The step leaves alone whether and where lines go to the console. -/
def keepsCons : Act → Prop
  | .opens _ => False
  | .setCons b => b = true
  | _ => True

theorem cons_lines (c : Clock) : ∀ (outs : List Log.Out) {p : Proc}, (∀ w ∈ p.w, w.2 = true) →
    (outs.foldl (fun p o => p.write c o) p).err = p.err ++ (outs.map (·.bytes)).flatten ∧
    (∀ w ∈ (outs.foldl (fun p o => p.write c o) p).w, w.2 = true)
  | [], p, h => by simpa using h
  | o :: outs, p, h => by
    have one : (p.write c o).err = p.err ++ o.bytes ∧ ∀ w ∈ (p.write c o).w, w.2 = true := by
      unfold Proc.write
      cases hw : p.w with
      | none => exact ⟨rfl, by simp⟩
      | some x =>
        have : x.2 = true := h x hw
        obtain ⟨s, b⟩ := x
        dsimp only at this
        subst this
        exact ⟨by simp, by intro w e; cases e; rfl⟩
    obtain ⟨a, b⟩ := cons_lines c outs one.2
    rw [List.foldl_cons]
    exact ⟨by rw [a, one.1]; simp, b⟩

/-- **C106 (console).** While there is no log file, or the console is on, every line is on the console as soon as the call returns. -/
theorem C106_console : ∀ (acts : List Act) (p q : Proc) (outs : List (List Log.Out)), (∀ w ∈ p.w, w.2 = true) → (∀ a ∈ acts, keepsCons a) →
    p.run acts = some (q, outs) → q.err = p.err ++ allSaid outs
  | [], p, q, outs, _, _, h => by cases h; simp [allSaid]
  | a :: as, p, q, outs, hc, hk, h => by
    obtain ⟨p1, o, os, e1, e2, e3⟩ := run_cons h
    have one : p1.err = p.err ++ (o.map (·.bytes)).flatten ∧ ∀ w ∈ p1.w, w.2 = true := by
      cases a with
      | says x m text c =>
        unfold Proc.step at e1
        simp only [Option.map_eq_some_iff, Prod.mk.injEq] at e1
        obtain ⟨r, _, e4, e5⟩ := e1
        rw [← e4, ← e5]
        exact cons_lines c r.1 hc
      | tick =>
        cases e1
        refine ⟨by simp [Proc.onWriter], ?_⟩
        simp only [Proc.onWriter, Option.mem_def, Option.map_eq_some_iff]
        rintro w ⟨w0, h0, rfl⟩
        exact hc w0 h0
      | opens f => exact (hk (.opens f) (by simp)).elim
      | setCons b =>
        have : b = true := hk (.setCons b) (by simp)
        cases e1
        refine ⟨by simp [Proc.onWriter], ?_⟩
        simp only [Proc.onWriter, Option.mem_def, Option.map_eq_some_iff]
        rintro w ⟨w0, h0, rfl⟩
        exact this
      | setMaxSize ms =>
        cases e1
        refine ⟨by simp [Proc.onWriter], ?_⟩
        simp only [Proc.onWriter, Option.mem_def, Option.map_eq_some_iff]
        rintro w ⟨w0, h0, rfl⟩
        exact hc w0 h0
      | setLogger l => cases e1; exact ⟨by simp, hc⟩
    have := C106_console as p1 q os one.2 (fun a ha => hk a (by simp [ha])) e2
    rw [this, one.1, e3]
    simp [allSaid]

/-- A logger with the default flags, level and prefix (zlog/stdzlog.go:14). -/
def plainLogger : Log.Logger := ⟨[], Log.bitDate ||| Log.bitTime ||| Log.bitLevel ||| Log.bitShortFile, 0, false, false⟩

/-- A moment and a place. -/
def somewhere : Log.Ctx := ⟨⟨2024, 5, 6, 7, 8, 9, 0⟩, Log.lit "/srv/main.go", 42⟩

/-- **C106 refuted.** A log file is set, a line is logged with `Info`, another with `Fatal`, which ends the process: the files are empty, and nothing is
on the console. -/
theorem C106_refuted : ∃ (acts : List Act) (p : Proc) (outs : List (List Log.Out)),
    (start plainLogger).run (.opens none :: acts) = some (p, outs) ∧ acts.length = 2 ∧ namesOnce p ∧
    (∃ r, Log.call { plainLogger with hasFile := true } somewhere .fatal (Log.lit "cannot go on") = some (r, .exits) ∧ outs.getLast? = some r) ∧
    60 < (shouldBe (.opens none :: acts) outs).length ∧ p.disk = [] ∧ p.err = [] := by
  let acts : List Act := [.says somewhere .info (Log.lit "starting") (constClock ⟨1, 10⟩),
    .says somewhere .fatal (Log.lit "cannot go on") (constClock ⟨1, 11⟩)]
  have key1 : ((start plainLogger).run (.opens none :: acts)).map (·.2) =
      some [[], [⟨.file, Log.lit "2024/05/06 07:08:09 [INFO]main.go:42: starting\n", none⟩],
        [⟨.file, Log.lit "2024/05/06 07:08:09 [FATAL]main.go:42: cannot go on\n", none⟩]] := by decide +kernel
  have key2 : ((start plainLogger).run (.opens none :: acts)).map (fun r => r.1.old.map (·.names)) = some [] := by decide +kernel
  have key3 : ((start plainLogger).run (.opens none :: acts)).map (fun r => r.1.w.map (·.1.names)) = some (some []) := by decide +kernel
  have key4 : ((start plainLogger).run (.opens none :: acts)).map (fun r => r.1.disk) = some [] := by decide +kernel
  have key5 : ((start plainLogger).run (.opens none :: acts)).map (fun r => r.1.err) = some [] := by decide +kernel
  rw [Option.map_eq_some_iff] at key1
  obtain ⟨⟨p, outs⟩, e, k1⟩ := key1
  rw [e] at key2 key3 key4 key5
  simp only [Option.map_some, Option.some.injEq, List.map_eq_nil_iff, Option.map_eq_some_iff] at key2 key3 key4 key5 k1
  obtain ⟨w, k3, k4⟩ := key3
  refine ⟨acts, p, outs, e, rfl, ⟨by simp [key2], ?_⟩, ⟨_, ?_, by rw [k1]; rfl⟩, ?_, key4, key5⟩
  · intro w' hw'
    rw [k3] at hw'
    cases hw'
    rw [k4]
    exact List.nodup_nil
  · decide +kernel
  · rw [k1]; decide +kernel

/-- Two files, one after the other, a flush, a console. -/
def twoFiles : List Act :=
  [.says somewhere .info (Log.lit "a") (constClock ⟨1, 9⟩), .opens (some [1]), .says somewhere .info (Log.lit "b") (constClock ⟨1, 10⟩), .opens none,
    .setCons true, .says somewhere .warn (Log.lit "c") (constClock ⟨1, 11⟩), .tick, .says somewhere .error (Log.lit "d") (constClock ⟨1, 12⟩)]

/-- The first line is on the console only, the next two are in the files, the last one is not: 1 + 40 + 40 bytes of 1 + 40 + 40 + 41; the console has the first and
the last two lines. -/
example : ((start plainLogger).run twoFiles).map (fun r => (r.1.disk.length, (unwritten r.1).length, r.1.err.length, (shouldBe twoFiles r.2).length)) =
    some (81, 41, 121, 122) := by decide +kernel

end Zinx.Props
