import Verif.Lemmas.LogWriter

/-! # C50 and C51: the rotating log writer -/

namespace Zinx.Props

open Zinx Zinx.LogWriter

/-- Bytes given to a call. -/
def opBytes : LogWriter.Op → Bytes
  | .write p _ => p
  | _ => []

/-- Bytes given to the `Write` calls of a history, in order. -/
def logWritten (ops : List LogWriter.Op) : Bytes := (ops.map opBytes).flatten

/-! ## C50 -/

theorem run_ops_inv (ops : List LogWriter.Op) : ∀ (s : State), Inv s →
    Inv (s.runOps ops) ∧ (∃ l, (s.runOps ops).names = s.names ++ l) ∧
    ((s.runOps ops).names.Nodup → archived (s.runOps ops) ++ current (s.runOps ops) = archived s ++ current s ++ logWritten ops) := by
  induction ops with
  | nil => intro s h; exact ⟨h, ⟨[], by simp [State.runOps, State.run]⟩, fun _ => by simp [State.runOps, State.run, logWritten]⟩
  | cons o ops ih =>
    intro s h
    have e : s.runOps (o :: ops) = (s.run o.events).runOps ops := by
      simp [State.runOps, State.run, List.foldl_append]
    have w : logWritten (o :: ops) = opBytes o ++ logWritten ops := by
      simp [logWritten]
    rw [e, w]
    have one : Inv (s.run o.events) ∧ (∃ l, (s.run o.events).names = s.names ++ l) ∧
        ((s.run o.events).names.Nodup → archived (s.run o.events) ++ current (s.run o.events) =
          archived s ++ current s ++ opBytes o) := by
      cases o with
      | write p c =>
        have er : s.run (LogWriter.Op.write p c).events = s.write p c := rfl
        rw [er]
        obtain ⟨k, _, _⟩ := ready_kept h p c
        refine ⟨write_inv h p c, k.names, ?_⟩
        intro hn
        rw [write_current]
        have : archived (s.write p c) = archived (ready s p c) := rfl
        rw [this, ← List.append_assoc, k.total hn]
        rfl
      | daemon =>
        have er : s.run LogWriter.Op.daemon.events = s.flush := rfl
        rw [er]
        obtain ⟨a, b, c, d, _⟩ := flush_facts h
        refine ⟨a, ⟨[], by rw [d]; simp⟩, fun _ => ?_⟩
        unfold archived
        rw [b, c]; simp [opBytes]
      | close =>
        have er : s.run LogWriter.Op.close.events = s.flush.close := rfl
        rw [er]
        obtain ⟨a, b, c, d, _, g⟩ := flush_facts h
        obtain ⟨x, y⟩ := close_facts a g
        refine ⟨x, ⟨[], ?_⟩, fun _ => ?_⟩
        · show s.flush.names = _
          rw [d]; simp
        · rw [y, b]
          show (s.flush.archives.map (·.2)).flatten ++ _ = _
          rw [c]; simp [archived, opBytes]
      | setMaxSize ms =>
        have er : s.run (LogWriter.Op.setMaxSize ms).events = s.setMaxSize ms := rfl
        rw [er]
        obtain ⟨a, b, c, d, _⟩ := setMaxSize_facts h ms
        refine ⟨a, ⟨[], by rw [d]; simp⟩, fun _ => ?_⟩
        unfold archived
        rw [b, c]; simp [opBytes]
    obtain ⟨i1, ⟨l1, n1⟩, t1⟩ := one
    obtain ⟨i2, ⟨l2, n2⟩, t2⟩ := ih _ i1
    refine ⟨i2, ⟨l1 ++ l2, by rw [n2, n1, List.append_assoc]⟩, ?_⟩
    intro hn
    rw [t2 hn, t1 (by rw [n2, List.nodup_append] at hn; exact hn.1), List.append_assoc, List.append_assoc]

/-- **C50 (distinct names).** For every history of writes, flushes, closes and limit changes that do not overlap, every clock, and every file found
at the start: if no archive name is used twice, the archives in order, the file and what is still buffered are what was in the file at the
start followed by the bytes written. After `Close` nothing is buffered. Not proved, since false: the same when a name is used twice. -/
theorem C50_partial (file : Option Bytes) (ops : List LogWriter.Op) (hn : ((new file).runOps ops).names.Nodup) :
    (((new file).runOps ops).archives.map (·.2)).flatten ++ ((new file).runOps ops).file.getD [] ++ ((new file).runOps ops).buf =
      file.getD [] ++ logWritten ops ∧
    ((new file).runOps (ops ++ [.close])).buf = [] := by
  obtain ⟨i, _, t⟩ := run_ops_inv ops (new file) (new_inv file)
  constructor
  · have := t hn
    unfold archived current at this
    rw [← List.append_assoc] at this
    rw [this]
    simp [new]
  · have e : (new file).runOps (ops ++ [.close]) = ((new file).runOps ops).flush.close := by
      simp [State.runOps, State.run, List.foldl_append, LogWriter.Op.events, State.apply]
    rw [e]
    exact (flush_facts i).2.2.2.2.2

/-- A clock at which everything happens at once. -/
def constClock (t : Time) : Clock := ⟨t, t, t, t, t⟩

/-- Two days, a limit of 4 bytes, an existing file, a close in between; no name is used twice. -/
example :
    let s := (new (some [9])).runOps [.setMaxSize 4, .write [1, 2] (constClock ⟨1, 10⟩), .close,
      .write [3] ⟨⟨1, 11⟩, ⟨1, 10⟩, ⟨1, 11⟩, ⟨1, 11⟩, ⟨1, 11⟩⟩, .write [4] (constClock ⟨2, 12⟩), .write [5, 6, 7] (constClock ⟨2, 17⟩)]
    s.names.Nodup ∧ s.archives = [(10, [9, 1, 2]), (11, [3]), (12, [4])] ∧ s.file = some [] ∧ s.buf = [5, 6, 7] := by decide

/-- **C50 refuted.** With a clock that gives the same archive name to two files (here it stands still), the earlier archive is overwritten: the
first byte is nowhere. -/
theorem C50_refuted :
    let s := (new none).runOps [.setMaxSize 1, .write [1] (constClock ⟨1, 10⟩), .write [2] (constClock ⟨1, 10⟩), .write [3] (constClock ⟨1, 10⟩), .close]
    s.archives = [(10, [2])] ∧ s.file = some [3] ∧ s.buf = [] := by decide

/-- **C50 refuted (close).** A write between the two halves of a `Close` in another goroutine is lost: the second half does not flush. -/
theorem C50_refuted_close :
    let s := (new none).run [.write [1] (constClock ⟨1, 10⟩), .flush, .write [2] (constClock ⟨1, 10⟩), .close, .write [3] (constClock ⟨1, 10⟩), .flush]
    s.archives = [] ∧ s.file = some [1, 3] ∧ s.buf = [] := by decide

/-! ## C51 -/

/-- **C51 (after a write).** After any history, right after a write the file is smaller than the limit in force or is just that write, which is at
least the limit. -/
theorem C51_after_write (file : Option Bytes) (ops : List LogWriter.Op) (p : Bytes) (c : Clock) :
    let s := (new file).runOps (ops ++ [.write p c])
    let f := s.file.getD [] ++ s.buf
    (f.length : Int) < s.maxSize ∨ (f = p ∧ s.maxSize ≤ p.length) := by
  intro s f
  obtain ⟨i, _, _⟩ := run_ops_inv ops (new file) (new_inv file)
  have e : s = ((new file).runOps ops).write p c := by
    simp [s, State.runOps, State.run, List.foldl_append, LogWriter.Op.events, State.apply]
  have ef : f = current (((new file).runOps ops).write p c) := by
    show current s = _
    rw [e]
  obtain ⟨k, _, d⟩ := ready_kept i p c
  have em : s.maxSize = (ready ((new file).runOps ops) p c).maxSize := by rw [e]; rfl
  rw [ef, em, write_current]
  rcases d with d | d
  · rw [d, List.nil_append]
    by_cases h : (p.length : Int) < (ready ((new file).runOps ops) p c).maxSize
    · exact .inl h
    · exact .inr ⟨rfl, by omega⟩
  · left
    rw [List.length_append]
    omega

/-- **C51 (all files).** With one limit `L` throughout, every file, archived or current, is smaller than `L` or is one single write of at least `L`
bytes - whatever the clock. `SetMaxSize` calls with arguments below 1 do not matter. A file found at the start must be below the limit. -/
theorem C51_all_files (file : Option Bytes) (L : Int) (hL : 1 ≤ L) (hf : ((file.getD []).length : Int) < L) (ops : List LogWriter.Op)
    (hops : ∀ ms, .setMaxSize ms ∈ ops → ms < 1 ∨ ms = L) :
    let s := (new file).runOps (.setMaxSize L :: ops)
    ∀ f, f ∈ s.archives.map (·.2) ∨ f = s.file.getD [] ++ s.buf →
      (f.length : Int) < L ∨ (L ≤ f.length ∧ ∃ c, .write f c ∈ ops) := by
  intro s
  have key : ∀ (ops : List LogWriter.Op) (s : State) (P : Bytes → Prop), Inv s → s.maxSize = L → (∀ f, (f.length : Int) < L → P f) →
      (∀ f c, .write f c ∈ ops → P f) → (∀ ms, .setMaxSize ms ∈ ops → ms < 1 ∨ ms = L) → (∀ a ∈ s.archives, P a.2) → P (current s) →
      (∀ a ∈ (s.runOps ops).archives, P a.2) ∧ P (current (s.runOps ops)) := by
    intro ops
    induction ops with
    | nil => intro s P _ _ _ _ _ ha hc; exact ⟨ha, hc⟩
    | cons o ops ih =>
      intro s P hi hm hsmall hw hset ha hc
      have e : s.runOps (o :: ops) = (s.run o.events).runOps ops := by
        simp [State.runOps, State.run, List.foldl_append]
      rw [e]
      have hw' := fun f c hx => hw f c (List.mem_cons_of_mem _ hx)
      have hset' := fun ms hx => hset ms (List.mem_cons_of_mem _ hx)
      cases o with
      | write p c =>
        have er : s.run (LogWriter.Op.write p c).events = s.write p c := rfl
        rw [er]
        obtain ⟨k, _, d⟩ := ready_kept hi p c
        obtain ⟨x, y⟩ := k.files P (hsmall [] (by simp; omega)) ha hc
        refine ih _ P (write_inv hi p c) (by rw [← hm, ← k.maxSize]; rfl) hsmall hw' hset' x ?_
        rw [write_current]
        rcases d with d | d
        · rw [d, List.nil_append]
          exact hw p c List.mem_cons_self
        · apply hsmall
          rw [List.length_append]
          rw [k.maxSize, hm] at d
          omega
      | daemon =>
        have er : s.run LogWriter.Op.daemon.events = s.flush := rfl
        rw [er]
        obtain ⟨a, b, c, _, m, _⟩ := flush_facts hi
        exact ih _ P a (by rw [m, hm]) hsmall hw' hset' (by rw [c]; exact ha) (by rw [b]; exact hc)
      | close =>
        have er : s.run LogWriter.Op.close.events = s.flush.close := rfl
        rw [er]
        obtain ⟨a, b, c, _, m, g⟩ := flush_facts hi
        obtain ⟨x, y⟩ := close_facts a g
        exact ih _ P x (by rw [← hm, ← m]; rfl) hsmall hw' hset' (by show ∀ a ∈ s.flush.archives, P a.2; rw [c]; exact ha) (by rw [y, b]; exact hc)
      | setMaxSize ms =>
        have er : s.run (LogWriter.Op.setMaxSize ms).events = s.setMaxSize ms := rfl
        rw [er]
        obtain ⟨a, b, c, _, _⟩ := setMaxSize_facts hi ms
        have m : (s.setMaxSize ms).maxSize = L := by
          unfold State.setMaxSize
          rcases hset ms List.mem_cons_self with h | h
          · rw [if_pos h]; exact hm
          · rw [if_neg (by omega)]; exact h
        exact ih _ P a m hsmall hw' hset' (by rw [c]; exact ha) (by rw [b]; exact hc)
  have e : s = ((new file).setMaxSize L).runOps ops := by
    simp [s, State.runOps, State.run, LogWriter.Op.events, State.apply]
  have m : ((new file).setMaxSize L).maxSize = L := by
    unfold State.setMaxSize; rw [if_neg (by omega)]
  obtain ⟨a, b, c, _, _⟩ := setMaxSize_facts (new_inv file) L
  obtain ⟨x, y⟩ := key ops _ (fun f => (f.length : Int) < L ∨ (L ≤ f.length ∧ ∃ c, .write f c ∈ ops)) a m (fun f h => .inl h) (by
    intro f c hx
    by_cases h : (f.length : Int) < L
    · exact .inl h
    · exact .inr ⟨by omega, c, hx⟩) hops (by rw [c]; simp [new]) (by rw [b]; left; simpa [current, new] using hf)
  intro f hfm
  rcases hfm with h | h
  · rw [List.mem_map] at h
    obtain ⟨z, hz, rfl⟩ := h
    rw [e] at hz
    exact x z hz
  · rw [h, e]
    exact y

/-- A limit of 3 bytes: a small line, an oversized one, a small one. -/
example :
    let s := (new none).runOps [.setMaxSize 3, .write [1] (constClock ⟨1, 10⟩), .setMaxSize 0, .write [2, 2, 2, 2] ⟨⟨1, 11⟩, ⟨1, 11⟩, ⟨1, 11⟩, ⟨1, 11⟩, ⟨1, 11⟩⟩,
      .write [3] (constClock ⟨1, 12⟩)]
    s.archives.map (·.2) = [[1], [2, 2, 2, 2]] ∧ s.file.getD [] ++ s.buf = [3] := by decide

/-- **C51 (default limit).** Without `SetMaxSize`, or only with arguments below 1, the limit is 64 MiB. -/
theorem C51_default (file : Option Bytes) (hf : (file.getD []).length < 64 * 1024 * 1024) (ops : List LogWriter.Op)
    (hops : ∀ ms, .setMaxSize ms ∈ ops → ms < 1) :
    let s := (new file).runOps ops
    ∀ f, f ∈ s.archives.map (·.2) ∨ f = s.file.getD [] ++ s.buf →
      f.length < 64 * 1024 * 1024 ∨ (64 * 1024 * 1024 ≤ f.length ∧ ∃ c, .write f c ∈ ops) := by
  intro s f hfm
  have e : (new file).runOps (.setMaxSize 67108864 :: ops) = s := rfl
  have := C51_all_files file 67108864 (by omega) (by omega) ops (fun ms h => .inl (hops ms h)) f (by rw [e]; exact hfm)
  rcases this with h | ⟨h, h'⟩
  · exact .inl (by omega)
  · exact .inr ⟨by omega, h'⟩

example : ∀ f, f ∈ ((new none).runOps [.write [1] (constClock ⟨1, 10⟩), .setMaxSize 0]).archives.map (·.2) ∨ f = [] ++ [1] →
    f.length < 64 * 1024 * 1024 ∨ (64 * 1024 * 1024 ≤ f.length ∧ ∃ c, .write f c ∈ [.write [1] (constClock ⟨1, 10⟩), LogWriter.Op.setMaxSize 0]) :=
  C51_default none (by decide) [.write [1] (constClock ⟨1, 10⟩), .setMaxSize 0] (by intro ms h; simp at h; omega)

/-! ## C81: no rotation without need -/

/-- All clock readings of the call are on day `D`. -/
def onDay (D : Nat) : LogWriter.Op → Prop
  | .write _ c => c.opening.day = D ∧ c.mod.day = D ∧ c.now.day = D ∧ c.dayRot.day = D ∧ c.sizeRot.day = D
  | _ => True

/-- The full claim C81: within one day, a write that leaves the file below the limit does not rotate it away. -/
def RotatesOnlyWhenFull : Prop :=
  ∀ (file : Option Bytes) (D : Nat) (ops : List LogWriter.Op) (p : Bytes) (c : Clock), (∀ o ∈ ops ++ [.write p c], onDay D o) →
    let s := (new file).runOps ops
    let t := (new file).runOps (ops ++ [.write p c])
    ((s.file.getD [] ++ s.buf).length : Int) + p.length < s.maxSize →
    t.archives = s.archives ∧ t.file.getD [] ++ t.buf = s.file.getD [] ++ s.buf ++ p

theorem bufWrite_le (file buf p : Bytes) (h : buf.length ≤ bufSize) : (bufWrite file buf p).2.length ≤ bufSize := by
  unfold bufWrite
  split
  · simp; omega
  · split
    · simp
    · dsimp only
      split
      · assumption
      · simp

/-- Kept within a day: the buffer is not larger than the 4096 bytes of `bufio.NewWriter`, and the open file is from that day. -/
def DayInv (D : Nat) (s : State) : Prop := s.buf.length ≤ 4096 ∧ (s.isOpen = true → s.created.day = D)

theorem rotate_dayInv {D : Nat} {s : State} (now mod : Time) (h1 : now.day = D) (h2 : mod.day = D) : DayInv D (s.rotate now mod) := by
  unfold State.rotate DayInv
  dsimp only
  split
  · exact ⟨by simp, fun _ => h1⟩
  · exact ⟨by simp, fun _ => h2⟩

theorem write_dayInv {D : Nat} {s : State} (h : DayInv D s) (p : Bytes) (c : Clock) (hc : onDay D (.write p c)) : DayInv D (s.write p c) := by
  obtain ⟨c1, c2, c3, c4, c5⟩ := hc
  have hr : DayInv D (ready s p c) := by
    unfold ready
    dsimp only
    have h1 : DayInv D (if s.isOpen then s else s.rotate c.opening c.mod) := by
      split
      · exact h
      · exact rotate_dayInv _ _ c1 c2
    generalize (if s.isOpen then s else s.rotate c.opening c.mod) = s1 at h1
    have h2 : DayInv D (if s1.created.day ≠ c.now.day then s1.rotate c.dayRot c.mod else s1) := by
      split
      · exact rotate_dayInv _ _ c4 c2
      · exact h1
    generalize (if s1.created.day ≠ c.now.day then s1.rotate c.dayRot c.mod else s1) = s2 at h2
    split
    · exact rotate_dayInv _ _ c5 c2
    · exact h2
  rw [write_eq]
  exact ⟨bufWrite_le _ _ _ hr.1, hr.2⟩

theorem runOps_dayInv {D : Nat} (ops : List LogWriter.Op) : ∀ s : State, DayInv D s → (∀ o ∈ ops, onDay D o) → DayInv D (s.runOps ops) := by
  induction ops with
  | nil => intro s h _; exact h
  | cons o ops ih =>
    intro s h ho
    have e : s.runOps (o :: ops) = (s.run o.events).runOps ops := by
      simp [State.runOps, State.run, List.foldl_append]
    rw [e]
    refine ih _ ?_ (fun o ho' => ho o (List.mem_cons_of_mem _ ho'))
    have hf : DayInv D s.flush := by
      unfold State.flush
      split
      · exact ⟨by simp, h.2⟩
      · exact h
    cases o with
    | write p c => exact write_dayInv h p c (ho _ List.mem_cons_self)
    | daemon => exact hf
    | close => exact ⟨hf.1, by simp [State.run, LogWriter.Op.events, State.apply, State.close]⟩
    | setMaxSize ms =>
      show DayInv D (s.setMaxSize ms)
      unfold State.setMaxSize
      split <;> exact h

/-- **C81, partial.** After any calls of one day, a write after which the file would be more than 4096 bytes below the limit is appended to the
file and nothing is archived. Missing: writes that stay below the limit by less than that (false, see below). -/
theorem C81_partial (file : Option Bytes) (D : Nat) (ops : List LogWriter.Op) (p : Bytes) (c : Clock)
    (hd : ∀ o ∈ ops ++ [.write p c], onDay D o) :
    let s := (new file).runOps ops
    let t := (new file).runOps (ops ++ [.write p c])
    ((s.file.getD [] ++ s.buf).length : Int) + p.length + 4096 < s.maxSize →
    t.archives = s.archives ∧ t.file.getD [] ++ t.buf = s.file.getD [] ++ s.buf ++ p := by
  intro s t hlt
  have inv := (run_ops_inv ops (new file) (new_inv file)).1
  have day : DayInv D s := runOps_dayInv ops (new file) ⟨by simp [new], by simp [new]⟩ (fun o ho => hd o (List.mem_append_left _ ho))
  change Inv s at inv
  obtain ⟨c1, c2, c3, c4, c5⟩ : onDay D (.write p c) := hd _ (by simp)
  have e : t = s.write p c := by
    simp [s, t, State.runOps, State.run, List.foldl_append, LogWriter.Op.events, State.apply]
  have hr : current (ready s p c) = current s ∧ (ready s p c).archives = s.archives := by
    unfold ready
    dsimp only
    have h1 : let s1 := (if s.isOpen then s else s.rotate c.opening c.mod)
        current s1 = current s ∧ s1.archives = s.archives ∧ DayInv D s1 ∧ s1.isOpen = true ∧ Inv s1 ∧ s1.maxSize = s.maxSize := by
      intro s1
      cases ho : s.isOpen with
      | true =>
        have : s1 = s := if_pos ho
        rw [this]; exact ⟨rfl, rfl, day, ho, inv, rfl⟩
      | false =>
        obtain ⟨a, b, m, _, _, g, _⟩ := rotate_spec inv c.opening c.mod
        have : s1 = s.rotate c.opening c.mod := if_neg (by simp [ho])
        rw [this]
        exact ⟨(g ho).1, (g ho).2, rotate_dayInv _ _ c1 c2, b, a, m⟩
    dsimp only at h1
    generalize (if s.isOpen then s else s.rotate c.opening c.mod) = s1 at h1
    obtain ⟨k1, k2, k3, k4, k5, k6⟩ := h1
    have hday : s1.created.day = c.now.day := by rw [k3.2 k4, c3]
    have e2 : (if s1.created.day ≠ c.now.day then s1.rotate c.dayRot c.mod else s1) = s1 := if_neg (fun h => h hday)
    rw [e2]
    have hs := k5.size k4
    rw [if_neg]
    · exact ⟨k1, k2⟩
    · have := k3.1
      rw [hs, k1, k6]
      change ((current s).length : Int) + p.length + 4096 < s.maxSize at hlt
      omega
  constructor
  · rw [e]; exact hr.2
  · show current t = current s ++ p
    rw [e, write_current, hr.1]

example :
    let ops : List LogWriter.Op := [.setMaxSize 5000, .write [1, 2] (constClock ⟨1, 10⟩)]
    (∀ o ∈ ops ++ [.write [3] (constClock ⟨1, 11⟩)], onDay 1 o) ∧
    (((new none).runOps ops).file.getD [] ++ ((new none).runOps ops).buf).length + 1 + 4096 < 5000 := by
  constructor
  · intro o ho
    simp at ho
    rcases ho with rfl | rfl | rfl
    · trivial
    · exact ⟨rfl, rfl, rfl, rfl, rfl⟩
    · exact ⟨rfl, rfl, rfl, rfl, rfl⟩
  · decide

/-- **C81 is false of the code.** `Write` adds the number of buffered bytes to a size that already contains them. With a limit of 10, a second
write that would make the file 7 bytes long finds 4 + 3 + 4 bytes and archives the 4 byte file. -/
theorem C81_refuted : ¬ RotatesOnlyWhenFull := by
  intro h
  have := (h none 1 [.setMaxSize 10, .write [1, 1, 1, 1] (constClock ⟨1, 10⟩)] [2, 2, 2] (constClock ⟨1, 11⟩) (by
    intro o ho
    simp at ho
    rcases ho with rfl | rfl | rfl
    · trivial
    · exact ⟨rfl, rfl, rfl, rfl, rfl⟩
    · exact ⟨rfl, rfl, rfl, rfl, rfl⟩) (by decide)).1
  revert this
  decide

end Zinx.Props
