import Verif.Props.LogFault

/-!
# C98: further facts about failing file operations

Without failures the writer is that of `Model/LogWriter`; whatever fails, nothing is invented, repeated or put in another order; and when opening fails in a rotation, the rest of the day is lost.
-/

namespace Zinx.Props

open Zinx Zinx.LogFault
open Zinx.LogWriter (Time Clock bufSize archive)

/-! ## Without failures -/

/-- A call without failures; the limit of the size is not changed. -/
def asFault : LogWriter.Op → Option LogFault.Op
  | .write p c => some (.write p c {})
  | .daemon => some (.daemon .good)
  | .close => some (.close .good)
  | .setMaxSize _ => none

/-- The states of the two models. -/
structure Alike (s : LogFault.State) (u : LogWriter.State) : Prop where
  maxSize : s.maxSize = u.maxSize
  size : s.size = u.size
  created : s.created = u.created
  archives : s.archives = u.archives
  names : s.names = u.names
  file : s.file = u.file
  buf : s.buf = u.buf
  broken : s.broken = false
  handle : s.handle = if u.isOpen then .live else .absent
  some : u.isOpen = true → u.file.isSome
  empty : u.isOpen = false → u.buf = []

theorem alike_flush {s : LogFault.State} {u : LogWriter.State} (h : Alike s u) : Alike (s.flush .good) u.flush := by
  obtain ⟨h1, h2, h3, h4, h5, h6, h7, h8, h9, h10, h11⟩ := h
  unfold LogFault.State.flush LogWriter.State.flush
  cases ho : u.isOpen with
  | false =>
    have hb : s.buf = [] := by rw [h7]; exact h11 ho
    simp only [hb, or_true, if_true, Bool.false_eq_true, if_false]
    exact ⟨h1, h2, h3, h4, h5, h6, h7, h8, by rw [h9], h10, h11⟩
  | true =>
    rw [ho] at h9
    obtain ⟨f, hf⟩ := Option.isSome_iff_exists.1 (h10 ho)
    by_cases hb : s.buf = []
    · simp only [hb, or_true, if_true]
      have hb' : u.buf = [] := by rw [← h7]; exact hb
      exact ⟨h1, h2, h3, h4, h5, by simp [h6, hf, hb'], by simpa using hb, h8, by simpa using h9, by simp, by simp⟩
    · simp only [hb, h8, or_self, Bool.false_eq_true, if_false, State.put, h9, if_true]
      exact ⟨h1, h2, h3, h4, h5, by simp [h6, h7], by simp, rfl, by simp, by simp, by simp⟩

theorem alike_rotate {s : LogFault.State} {u : LogWriter.State} (h : Alike s u) (now mod : Time) : (s.rotate now mod {}).2 = true ∧ Alike (s.rotate now mod {}).1 (u.rotate now mod) ∧ (u.rotate now mod).isOpen = true := by
  have hfl := alike_flush h
  obtain ⟨h1, h2, h3, h4, h5, h6, h7, h8, h9, h10, h11⟩ := h
  unfold LogFault.State.rotate LogWriter.State.rotate
  cases ho : u.isOpen with
  | false =>
    rw [ho] at h9
    simp only [h9, Bool.false_eq_true, if_false, if_true, h6]
    cases hf : u.file with
    | none => exact ⟨trivial, ⟨h1, h2, rfl, h4, h5, rfl, rfl, rfl, rfl, by simp, by simp⟩, rfl⟩
    | some c => exact ⟨trivial, ⟨h1, rfl, rfl, h4, h5, by simp, rfl, rfl, rfl, by simp, by simp⟩, rfl⟩
  | true =>
    rw [ho] at h9
    obtain ⟨f, hf⟩ := Option.isSome_iff_exists.1 (h10 ho)
    have hu : u.flush = { u with file := some (u.file.getD [] ++ u.buf), buf := [] } := by simp [LogWriter.State.flush, ho]
    rw [hu] at hfl
    have e : (s.flush .good).file = some (u.file.getD [] ++ u.buf) := hfl.file
    have hne : s.handle ≠ .absent := by rw [h9]; decide
    simp only [if_neg hne, if_true, State.retire, e]
    refine ⟨trivial, ⟨hfl.maxSize, rfl, rfl, ?_, ?_, rfl, rfl, rfl, rfl, by simp, by simp⟩, trivial⟩
    · simp only [hfl.archives, hfl.created, show ¬ (({} : RotFaults).zip = .silent) by decide, if_false]
    · simp only [hfl.names, hfl.created]

theorem alike_finish {s : LogFault.State} {u : LogWriter.State} (h : Alike s u) (ho : u.isOpen = true) (p : Bytes) :
    (s.finish p {}).2 = .ok ∧ Alike (s.finish p {}).1 { u with file := some (LogWriter.bufWrite (u.file.getD []) u.buf p).1, buf := (LogWriter.bufWrite (u.file.getD []) u.buf p).2, size := u.size + p.length } := by
  obtain ⟨h1, h2, h3, h4, h5, h6, h7, h8, h9, h10, h11⟩ := h
  rw [ho] at h9
  obtain ⟨f, hf⟩ := Option.isSome_iff_exists.1 (h10 ho)
  unfold State.finish State.bufWrite LogWriter.bufWrite
  simp only [h8, Bool.false_eq_true, if_false, h7]
  by_cases e1 : p.length ≤ bufSize - u.buf.length
  · simp only [e1, if_true]
    exact ⟨by simp, h1, by simp [h2], h3, h4, h5, by simp [h6, hf], rfl, rfl, by simp [h9, ho], by simp, by simp [ho]⟩
  · simp only [e1, if_false]
    by_cases e2 : u.buf = []
    · simp only [e2, if_true, State.put, h9]
      exact ⟨by simp, h1, by simp [h2], h3, h4, h5, by simp [h6], by simp [h7, e2], rfl, by simp [ho], by simp, by simp⟩
    · have e3 : u.buf ++ p.take (bufSize - u.buf.length) ≠ [] := by simp [e2]
      simp only [e2, if_false, LogFault.State.flush, h8, e3, or_self, Bool.false_eq_true, State.put, h9, if_true, Bool.not_true]
      by_cases e4 : (p.drop (bufSize - u.buf.length)).length ≤ bufSize
      · simp only [e4, if_true]
        exact ⟨by simp, h1, by simp [h2], h3, h4, h5, by simp [h6], rfl, rfl, by simp [ho], by simp, by simp [ho]⟩
      · simp only [e4, if_false]
        refine ⟨by simp, h1, ?_, h3, h4, h5, by simp [h6], by simp, rfl, by simp [ho], by simp, by simp⟩
        simp only [h2, List.length_drop]
        have : bufSize - u.buf.length < p.length := by omega
        omega

theorem alike_write {s : LogFault.State} {u : LogWriter.State} (h : Alike s u) (p : Bytes) (c : Clock) : (s.write p c {}).2 = .ok ∧ Alike (s.write p c {}).1 (u.write p c) := by
  -- each part of the call, for all states
  have size : ∀ (s : LogFault.State) (u : LogWriter.State), Alike s u → u.isOpen = true →
      let v := if u.size + p.length + u.buf.length ≥ u.maxSize then u.rotate c.sizeRot c.mod else u
      (s.forSize p c {}).2 = .ok ∧ Alike (s.forSize p c {}).1 { v with file := some (LogWriter.bufWrite (v.file.getD []) v.buf p).1, buf := (LogWriter.bufWrite (v.file.getD []) v.buf p).2, size := v.size + p.length } := by
    intro s u h ho
    unfold State.forSize
    rw [h.size, h.buf, h.maxSize]
    by_cases e : u.size + p.length + u.buf.length ≥ u.maxSize
    · obtain ⟨a, b, d⟩ := alike_rotate h c.sizeRot c.mod
      simp only [e, if_true, a]
      exact alike_finish b d p
    · simp only [e, if_false]
      exact alike_finish h ho p
  have day : ∀ (s : LogFault.State) (u : LogWriter.State), Alike s u → u.isOpen = true →
      let w := if u.created.day ≠ c.now.day then u.rotate c.dayRot c.mod else u
      let v := if w.size + p.length + w.buf.length ≥ w.maxSize then w.rotate c.sizeRot c.mod else w
      (s.forDay p c {}).2 = .ok ∧ Alike (s.forDay p c {}).1 { v with file := some (LogWriter.bufWrite (v.file.getD []) v.buf p).1, buf := (LogWriter.bufWrite (v.file.getD []) v.buf p).2, size := v.size + p.length } := by
    intro s u h ho
    unfold State.forDay
    rw [h.created]
    by_cases e : u.created.day ≠ c.now.day
    · obtain ⟨a, b, d⟩ := alike_rotate h c.dayRot c.mod
      rw [if_pos e, if_pos e]
      simp only [a, if_true]
      exact size _ _ b d
    · rw [if_neg e, if_neg e]
      exact size _ _ h ho
  unfold LogFault.State.write LogWriter.State.write
  cases ho : u.isOpen with
  | true =>
    have : s.handle ≠ .absent := by rw [h.handle, ho]; decide
    rw [if_neg this]
    exact day s u h ho
  | false =>
    have : s.handle = .absent := by rw [h.handle, ho]; rfl
    obtain ⟨a, b, d⟩ := alike_rotate h c.opening c.mod
    rw [if_pos this]
    simp only [a, if_true]
    exact day _ _ b d

/-- **C98**, without failures: the writer does what the model of C50, in which there are none, says, and every line is reported as written. -/
theorem C98_agree (file : Option Bytes) (ops : List LogWriter.Op) (h : ∀ ms, .setMaxSize ms ∉ ops) :
    let r := (LogFault.new 67108864 file).run (ops.filterMap asFault)
    let u := (LogWriter.new file).runOps ops
    r.1.archives = u.archives ∧ r.1.file = u.file ∧ r.1.buf = u.buf ∧ r.1.size = u.size ∧ ∀ x ∈ r.2, x.2 = .ok := by
  have key : ∀ (ops : List LogWriter.Op) (s : LogFault.State) (u : LogWriter.State), (∀ ms, .setMaxSize ms ∉ ops) → Alike s u →
      Alike (s.run (ops.filterMap asFault)).1 (u.runOps ops) ∧ ∀ x ∈ (s.run (ops.filterMap asFault)).2, x.2 = .ok := by
    intro ops
    induction ops with
    | nil => intro s u _ h; exact ⟨h, by simp [LogFault.State.run]⟩
    | cons o ops ih =>
      intro s u hn h
      have hn' : ∀ ms, .setMaxSize ms ∉ ops := fun ms hm => hn ms (.tail _ hm)
      cases o with
      | write p c =>
        obtain ⟨a, b⟩ := alike_write h p c
        obtain ⟨d, e⟩ := ih _ _ hn' b
        refine ⟨d, fun x hx => ?_⟩
        simp only [List.filterMap_cons, asFault, LogFault.State.run, LogFault.State.apply, List.mem_append, List.mem_singleton] at hx
        rcases hx with rfl | hx
        · exact a
        · exact e x hx
      | daemon =>
        obtain ⟨d, e⟩ := ih _ _ hn' (alike_flush h)
        refine ⟨d, fun x hx => ?_⟩
        simp only [List.filterMap_cons, asFault, LogFault.State.run, LogFault.State.apply, List.nil_append] at hx
        exact e x hx
      | close =>
        have hc : Alike { s.flush .good with handle := .absent } u.flush.close := by
          obtain ⟨h1, h2, h3, h4, h5, h6, h7, h8, h9, h10, h11⟩ := alike_flush h
          refine ⟨h1, h2, h3, h4, h5, h6, h7, h8, rfl, by simp [LogWriter.State.close], fun _ => ?_⟩
          unfold LogWriter.State.close LogWriter.State.flush
          cases ho : u.isOpen with
          | true => simp
          | false => simpa using h.empty ho
        obtain ⟨d, e⟩ := ih _ _ hn' hc
        refine ⟨d, fun x hx => ?_⟩
        simp only [List.filterMap_cons, asFault, LogFault.State.run, LogFault.State.apply, List.nil_append] at hx
        exact e x hx
      | setMaxSize ms => exact absurd (.head _) (hn ms)
  obtain ⟨a, b⟩ := key ops (LogFault.new 67108864 file) (LogWriter.new file) h ⟨rfl, rfl, rfl, rfl, rfl, rfl, rfl, rfl, rfl, by simp [LogWriter.new], by simp [LogWriter.new]⟩
  exact ⟨a.archives, a.file, a.buf, a.size, b⟩

/-- Two lines, a flush and a close. -/
example : ((LogFault.new 67108864 none).run ([LogWriter.Op.write [1] (clockAt ⟨1, 10⟩), .daemon, .write [2] (clockAt ⟨2, 20⟩), .close].filterMap asFault)).1.archives = [(10, [1])] ∧
    ((LogFault.new 67108864 none).run ([LogWriter.Op.write [1] (clockAt ⟨1, 10⟩), .daemon, .write [2] (clockAt ⟨2, 20⟩), .close].filterMap asFault)).1.file = some [2] := by decide

/-! ## With any failures -/

theorem archive_sublist (as : List (Nat × Bytes)) (name : Nat) (c d : Bytes) (h : d.Sublist c) : (((archive as name d).map (·.2)).flatten).Sublist ((as.map (·.2)).flatten ++ c) := by
  unfold archive
  rw [List.map_append, List.flatten_append]
  refine List.Sublist.append ?_ (by simpa using h)
  induction as with
  | nil => simp
  | cons a as ih =>
    rw [List.filter_cons]
    split
    · simpa using ih
    · rw [List.map_cons, List.flatten_cons]
      exact ih.trans (List.sublist_append_right _ _)

theorem put_kept (s : LogFault.State) (data : Bytes) (w : WriteRes) : ∃ d, (s.put data w).1.file.getD [] = s.file.getD [] ++ d ∧ (s.put data w).1.archives = s.archives ∧ (s.put data w).1.buf = s.buf ∧
    d = data.take (s.put data w).2.1 := by
  unfold State.put
  split
  · exact ⟨data, by simp, rfl, rfl, by simp⟩
  · rename_i k _
    refine ⟨data.take k, by simp, rfl, rfl, ?_⟩
    simp only [List.length_take]
    rw [List.take_eq_take_iff]
    omega
  · exact ⟨[], by simp, rfl, rfl, by simp⟩

theorem flush_kept (s : LogFault.State) (w : WriteRes) : logKept (s.flush w) = logKept s := by
  unfold LogFault.State.flush
  split
  · rfl
  · obtain ⟨d, e1, e2, e3, e4⟩ := put_kept s s.buf w
    unfold logKept
    simp only [e1, e2]
    rw [List.append_assoc, List.append_assoc, List.append_assoc, e4, List.take_append_drop]

theorem flush_sublist (s : LogFault.State) (w : WriteRes) : (s.flush w).archives = s.archives ∧ ((s.flush w).file.getD [] ++ (s.flush w).buf) = s.file.getD [] ++ s.buf := by
  unfold LogFault.State.flush
  split
  · exact ⟨rfl, rfl⟩
  · obtain ⟨d, e1, e2, e3, e4⟩ := put_kept s s.buf w
    refine ⟨e2, ?_⟩
    simp only [e1]
    rw [List.append_assoc, e4, List.take_append_drop]

theorem rotate_sublist (s : LogFault.State) (now mod : Time) (f : RotFaults) : (logKept (s.rotate now mod f).1).Sublist (logKept s) := by
  have ret : (logKept (s.retire f)).Sublist (logKept s) := by
    obtain ⟨a, b⟩ := flush_sublist s f.flush
    unfold State.retire
    cases hc : (if f.rename then (s.flush f.flush).file else none) with
    | none =>
      simp only [hc]
      rw [← flush_kept s f.flush]; exact List.Sublist.refl _
    | some c =>
      simp only [hc]
      have hfile : (s.flush f.flush).file = some c := by
        cases hr : f.rename <;> simp [hr] at hc
        exact hc
      rw [← flush_kept s f.flush]
      unfold logKept
      simp only [hfile, Option.getD_none, Option.getD_some, List.append_nil]
      refine List.Sublist.append (archive_sublist _ _ _ _ ?_) (List.Sublist.refl _)
      split
      · exact List.nil_sublist _
      · exact List.Sublist.refl _
  have ret' : (logKept (if s.handle = .absent then s else s.retire f)).Sublist (logKept s) := by
    split
    · exact List.Sublist.refl _
    · exact ret
  refine .trans ?_ ret'
  unfold LogFault.State.rotate
  generalize (if s.handle = .absent then s else s.retire f) = s1
  cases hm : (if f.stat then s1.file else none) <;> cases f.opens <;> simp [logKept, hm]

theorem finish_sublist (s : LogFault.State) (p : Bytes) (f : WriteFaults) : (logKept (s.finish p f).1).Sublist (logKept s ++ p) := by
  unfold State.finish State.bufWrite
  by_cases hb : s.broken = true
  · simp only [hb, if_true]; exact List.sublist_append_left _ _
  have hb : s.broken = false := by simpa using hb
  have hb' : ¬ s.broken = true := by simp [hb]
  rw [if_neg hb']
  by_cases e1 : p.length ≤ bufSize - s.buf.length
  · simp only [e1, if_true]
    simp [logKept]
  simp only [e1, if_false]
  by_cases e2 : s.buf = []
  · simp only [e2, if_true]
    obtain ⟨d, a1, a2, a3, a4⟩ := put_kept s p f.w1
    unfold logKept
    simp only [a1, a2, a3, e2, List.append_nil, List.append_assoc]
    refine List.Sublist.append (List.Sublist.refl _) (List.Sublist.append (List.Sublist.refl _) ?_)
    rw [a4]; exact List.take_sublist _ _
  simp only [e2, if_false]
  have k1 := flush_kept { s with buf := s.buf ++ p.take (bufSize - s.buf.length) } f.w1
  have k1' : logKept { s with buf := s.buf ++ p.take (bufSize - s.buf.length) } = logKept s ++ p.take (bufSize - s.buf.length) := by simp [logKept]
  rw [k1'] at k1
  generalize hs1 : LogFault.State.flush { s with buf := s.buf ++ p.take (bufSize - s.buf.length) } f.w1 = s1 at *
  by_cases e3 : s1.broken = true
  · simp only [e3, if_true]
    show (logKept s1).Sublist _
    rw [k1]
    exact List.Sublist.append (List.Sublist.refl _) (List.take_sublist _ _)
  have hbuf : s1.buf = [] := by
    rw [← hs1] at e3 ⊢
    unfold LogFault.State.flush at e3 ⊢
    have : ¬ (s.broken = true ∨ s.buf ++ p.take (bufSize - s.buf.length) = []) := by simp [hb, e2]
    rw [if_neg this] at e3 ⊢
    unfold State.put at e3 ⊢
    split at e3 <;> simp_all
  have e3 : s1.broken = false := by simpa using e3
  simp only [e3, Bool.false_eq_true, if_false]
  have k2 : logKept s1 = (s1.archives.map (·.2)).flatten ++ s1.file.getD [] := by simp [logKept, hbuf]
  by_cases e4 : (p.drop (bufSize - s.buf.length)).length ≤ bufSize
  · simp only [e4, if_true]
    have : logKept ({ s1 with buf := p.drop (bufSize - s.buf.length), size := s1.size + p.length } : LogFault.State) = logKept s ++ p := by
      have : logKept ({ s1 with buf := p.drop (bufSize - s.buf.length), size := s1.size + p.length } : LogFault.State) = (s1.archives.map (·.2)).flatten ++ s1.file.getD [] ++ p.drop (bufSize - s.buf.length) := rfl
      rw [this, ← k2, k1, List.append_assoc, List.take_append_drop]
    rw [e3] at this
    rw [this]; exact List.Sublist.refl _
  · simp only [e4, if_false]
    obtain ⟨d, a1, a2, a3, a4⟩ := put_kept s1 (p.drop (bufSize - s.buf.length)) f.w2
    have : ∀ z, logKept ({ (s1.put (p.drop (bufSize - s.buf.length)) f.w2).1 with broken := !(s1.put (p.drop (bufSize - s.buf.length)) f.w2).2.2, size := z } : LogFault.State) = logKept s1 ++ d := by
      intro z
      unfold logKept
      simp only [a1, a2, a3, hbuf, List.append_nil, List.append_assoc]
    rw [this, k1, List.append_assoc]
    refine List.Sublist.append (List.Sublist.refl _) ?_
    have := List.Sublist.append (List.Sublist.refl (p.take (bufSize - s.buf.length))) (List.take_sublist (s1.put (p.drop (bufSize - s.buf.length)) f.w2).2.1 (p.drop (bufSize - s.buf.length)))
    rw [List.take_append_drop] at this
    rw [a4]; exact this

theorem write_sublist (s : LogFault.State) (p : Bytes) (c : Clock) (f : WriteFaults) : (logKept (s.write p c f).1).Sublist (logKept s ++ p) := by
  have cut : ∀ {a b : Bytes}, a.Sublist b → a.Sublist (b ++ p) := fun h => h.trans (List.sublist_append_left _ _)
  have more : ∀ {a b : Bytes}, a.Sublist b → (a ++ p).Sublist (b ++ p) := fun h => h.append (List.Sublist.refl _)
  have size : ∀ s : LogFault.State, (logKept (s.forSize p c f).1).Sublist (logKept s ++ p) := by
    intro s
    unfold State.forSize
    split
    · simp only []
      split
      · exact (finish_sublist _ p f).trans (more (rotate_sublist s _ _ _))
      · exact cut (rotate_sublist s _ _ _)
    · exact finish_sublist s p f
  have day : ∀ s : LogFault.State, (logKept (s.forDay p c f).1).Sublist (logKept s ++ p) := by
    intro s
    unfold State.forDay
    split
    · simp only []
      split
      · exact (size _).trans (more (rotate_sublist s _ _ _))
      · exact cut (rotate_sublist s _ _ _)
    · exact size s
  unfold LogFault.State.write
  split
  · simp only []
    split
    · exact (day _).trans (more (rotate_sublist s _ _ _))
    · exact cut (rotate_sublist s _ _ _)
  · exact day s

/-- **C98**, whatever fails: archives, file and buffer have nothing but bytes of the lines written (and of the file found at the beginning), none twice, in the order of the calls. -/
theorem C98_ordered (maxSize : Int) (file : Option Bytes) (ops : List LogFault.Op) :
    (logKept ((LogFault.new maxSize file).run ops).1).Sublist (file.getD [] ++ (((LogFault.new maxSize file).run ops).2.map (·.1)).flatten) := by
  have key : ∀ (ops : List LogFault.Op) (s : LogFault.State), (logKept (s.run ops).1).Sublist (logKept s ++ (((s.run ops).2.map (·.1)).flatten)) := by
    intro ops
    induction ops with
    | nil => intro s; simp [LogFault.State.run]
    | cons o ops ih =>
      intro s
      refine (ih _).trans ?_
      show List.Sublist _ (logKept s ++ (((s.apply o).2 ++ ((s.apply o).1.run ops).2).map (·.1)).flatten)
      rw [List.map_append, List.flatten_append, ← List.append_assoc]
      refine List.Sublist.append ?_ (List.Sublist.refl _)
      cases o with
      | write p c f => simpa [LogFault.State.apply] using write_sublist s p c f
      | daemon w => simp [LogFault.State.apply, flush_kept]
      | close w =>
        have : logKept ({ s.flush w with handle := .absent } : LogFault.State) = logKept s := flush_kept s w
        simp [LogFault.State.apply, this]
  have := key ops (LogFault.new maxSize file)
  rwa [show logKept (LogFault.new maxSize file) = file.getD [] by simp [logKept, LogFault.new]] at this

/-- A write that fails half way, and a line lost between two that are kept. -/
example : logKept ((LogFault.new 67108864 none).run [.write [1, 2] (clockAt ⟨1, 10⟩) {}, .daemon (.fails 1), .write [3] (clockAt ⟨1, 10⟩) {}, .write [4] (clockAt ⟨2, 20⟩) {}]).1 = [1, 4] := by decide

theorem flush_short (s : LogFault.State) (w : WriteRes) : (s.flush w).buf.length ≤ s.buf.length ∧ (s.flush w).maxSize = s.maxSize ∧ (s.flush w).size = s.size := by
  unfold LogFault.State.flush
  split
  · exact ⟨Nat.le_refl _, rfl, rfl⟩
  · refine ⟨by simp, ?_, ?_⟩ <;> (unfold State.put; split <;> rfl)

theorem rotate_short (s : LogFault.State) (now mod : Time) (f : RotFaults) : (s.rotate now mod f).1.buf.length ≤ s.buf.length ∧ (s.rotate now mod f).1.maxSize = s.maxSize := by
  have ret : (s.retire f).buf.length ≤ s.buf.length ∧ (s.retire f).maxSize = s.maxSize := by
    obtain ⟨a, b, _⟩ := flush_short s f.flush
    unfold State.retire
    cases hc : (if f.rename then (s.flush f.flush).file else none) <;> simp only [hc] <;> exact ⟨a, b⟩
  have ret' : (if s.handle = .absent then s else s.retire f).buf.length ≤ s.buf.length ∧ (if s.handle = .absent then s else s.retire f).maxSize = s.maxSize := by
    split
    · exact ⟨Nat.le_refl _, rfl⟩
    · exact ret
  unfold LogFault.State.rotate
  generalize (if s.handle = .absent then s else s.retire f) = s1 at *
  cases hm : (if f.stat then s1.file else none) <;> cases f.opens <;> simp [hm, ret'.1, ret'.2]

theorem finish_short (s : LogFault.State) (p : Bytes) (f : WriteFaults) (h : s.buf.length ≤ bufSize) : (s.finish p f).1.buf.length ≤ bufSize ∧ (s.finish p f).1.maxSize = s.maxSize := by
  have hput : ∀ (s : LogFault.State) d w, (s.put d w).1.buf = s.buf ∧ (s.put d w).1.maxSize = s.maxSize := by
    intro s d w; unfold State.put; split <;> exact ⟨rfl, rfl⟩
  unfold State.finish State.bufWrite
  by_cases hb : s.broken = true
  · simp only [hb, if_true]; exact ⟨h, trivial⟩
  rw [if_neg hb]
  by_cases e1 : p.length ≤ bufSize - s.buf.length
  · simp only [e1, if_true, List.length_append]; exact ⟨by omega, trivial⟩
  simp only [e1, if_false]
  by_cases e2 : s.buf = []
  · simp only [e2, if_true]; rw [(hput s p f.w1).1, (hput s p f.w1).2]; exact ⟨h, rfl⟩
  simp only [e2, if_false]
  obtain ⟨a, b, _⟩ := flush_short { s with buf := s.buf ++ p.take (bufSize - s.buf.length) } f.w1
  have hle : (LogFault.State.flush { s with buf := s.buf ++ p.take (bufSize - s.buf.length) } f.w1).buf.length ≤ bufSize := by
    refine Nat.le_trans a ?_
    simp only [List.length_append, List.length_take]; omega
  generalize LogFault.State.flush { s with buf := s.buf ++ p.take (bufSize - s.buf.length) } f.w1 = s1 at *
  by_cases e3 : s1.broken = true
  · simp only [e3, if_true]; exact ⟨hle, b⟩
  rw [if_neg e3]
  by_cases e4 : (p.drop (bufSize - s.buf.length)).length ≤ bufSize
  · simp only [e4, if_true]; exact ⟨trivial, b⟩
  · simp only [e4, if_false]; rw [(hput _ _ _).1, (hput _ _ _).2]; exact ⟨hle, b⟩

/-- The buffer has at most 4096 bytes, and the limit does not change. -/
theorem run_short (maxSize : Int) (file : Option Bytes) (ops : List LogFault.Op) :
    ((LogFault.new maxSize file).run ops).1.buf.length ≤ bufSize ∧ ((LogFault.new maxSize file).run ops).1.maxSize = maxSize := by
  have size : ∀ (s : LogFault.State) p c f, s.buf.length ≤ bufSize → (s.forSize p c f).1.buf.length ≤ bufSize ∧ (s.forSize p c f).1.maxSize = s.maxSize := by
    intro s p c f h
    obtain ⟨a, b⟩ := rotate_short s c.sizeRot c.mod f.size
    unfold State.forSize
    split
    · simp only []
      split
      · rw [← b]; exact finish_short _ p f (by omega)
      · exact ⟨by simp only []; omega, b⟩
    · exact finish_short s p f h
  have day : ∀ (s : LogFault.State) p c f, s.buf.length ≤ bufSize → (s.forDay p c f).1.buf.length ≤ bufSize ∧ (s.forDay p c f).1.maxSize = s.maxSize := by
    intro s p c f h
    obtain ⟨a, b⟩ := rotate_short s c.dayRot c.mod f.day
    unfold State.forDay
    split
    · simp only []
      split
      · rw [← b]; exact size _ p c f (by omega)
      · exact ⟨by simp only []; omega, b⟩
    · exact size s p c f h
  have wr : ∀ (s : LogFault.State) p c f, s.buf.length ≤ bufSize → (s.write p c f).1.buf.length ≤ bufSize ∧ (s.write p c f).1.maxSize = s.maxSize := by
    intro s p c f h
    obtain ⟨a, b⟩ := rotate_short s c.opening c.mod f.opening
    unfold LogFault.State.write
    split
    · simp only []
      split
      · rw [← b]; exact day _ p c f (by omega)
      · exact ⟨by simp only []; omega, b⟩
    · exact day s p c f h
  have key : ∀ (ops : List LogFault.Op) (s : LogFault.State), s.buf.length ≤ bufSize → (s.run ops).1.buf.length ≤ bufSize ∧ (s.run ops).1.maxSize = s.maxSize := by
    intro ops
    induction ops with
    | nil => intro s h; exact ⟨h, rfl⟩
    | cons o ops ih =>
      intro s h
      have step : (s.apply o).1.buf.length ≤ bufSize ∧ (s.apply o).1.maxSize = s.maxSize := by
        cases o with
        | write p c f => exact wr s p c f h
        | daemon w => obtain ⟨a, b, _⟩ := flush_short s w; exact ⟨by simp only [LogFault.State.apply]; omega, b⟩
        | close w => obtain ⟨a, b, _⟩ := flush_short s w; exact ⟨by simp only [LogFault.State.apply]; omega, b⟩
      rw [← step.2]
      exact ih _ step.1
  exact key ops _ (by simp [LogFault.new])

/-- **C98**, how a day is lost: in any history, if opening fails in the rotation at the beginning of a day, and at this time there is no file (it was renamed) or its size cannot be asked for, the writer
afterwards works on a closed file, and none of the lines (of up to 1 MiB) written on that day gets into a file, whatever succeeds. -/
theorem C98_deaf (file : Option Bytes) (ops more : List LogFault.Op) (p : Bytes) (c : Clock) (f : WriteFaults) (hopen : ((LogFault.new (64 * 1024 * 1024) file).run ops).1.handle ≠ .absent)
    (hday : ((LogFault.new (64 * 1024 * 1024) file).run ops).1.created.day ≠ c.now.day) (hrot : c.dayRot.day = c.now.day) (hf : f.day.opens = false) (hs : f.day.rename = true ∨ f.day.stat = false)
    (hm : ∀ o ∈ more, (∃ w, o = .daemon w) ∨ ∃ p' c' f', o = .write p' c' f' ∧ c'.now.day = c.now.day ∧ p'.length ≤ 1024 * 1024) :
    let s := ((LogFault.new (64 * 1024 * 1024) file).run ops).1.write p c f
    s.2 = .failed ∧ (s.1.run more).1.archives = s.1.archives ∧ (s.1.run more).1.file = s.1.file := by
  obtain ⟨hb, hmax⟩ := run_short (64 * 1024 * 1024) file ops
  generalize ((LogFault.new (64 * 1024 * 1024) file).run ops).1 = s at *
  intro r
  have hw : r = ((s.rotate c.dayRot c.mod f.day).1, .failed) := by
    show s.write p c f = _
    unfold LogFault.State.write State.forDay
    rw [if_neg hopen, if_pos hday]
    have : (s.rotate c.dayRot c.mod f.day).2 = false := by simp [LogFault.State.rotate, hf]
    simp [this]
  rw [hw]
  obtain ⟨a, b⟩ := rotate_short s c.dayRot c.mod f.day
  have hdeaf : Deaf c.now.day (s.rotate c.dayRot c.mod f.day).1.archives (s.rotate c.dayRot c.mod f.day).1.file (s.rotate c.dayRot c.mod f.day).1 := by
    have hret : (s.retire f.day).handle = .dead ∧ (s.retire f.day).size = 0 ∧ (f.day.rename = true → (s.retire f.day).file = none) := by
      unfold State.retire
      cases hc : (if f.day.rename then (s.flush f.day.flush).file else none) with
      | none =>
        simp only [hc]
        refine ⟨trivial, trivial, fun hr => ?_⟩
        rw [hr] at hc; exact hc
      | some v => simp only [hc]; exact ⟨trivial, trivial, fun _ => trivial⟩
    have hnone : (if f.day.stat then (s.retire f.day).file else none) = none := by
      rcases hs with hs | hs
      · rw [hret.2.2 hs]; simp
      · simp [hs]
    have e : (s.rotate c.dayRot c.mod f.day).1 = { s.retire f.day with created := c.dayRot } := by
      unfold LogFault.State.rotate
      simp only [if_neg hopen, hnone, hf, Bool.false_eq_true, if_false]
    refine ⟨by rw [b, hmax], ?_, ?_, ?_, by omega, rfl, rfl⟩
    · rw [e]; exact hret.1
    · rw [e]; exact hrot
    · rw [e]
      have : ({ s.retire f.day with created := c.dayRot } : LogFault.State).size = 0 := hret.2.1
      rw [this]; omega
  have := deaf_run more hm _ hdeaf
  exact ⟨rfl, this.archives, this.file⟩

/-- After a first line on day 1, opening fails on day 2. -/
example : ((LogFault.new (64 * 1024 * 1024) none).run [.write [1] (clockAt ⟨1, 10⟩) {}]).1.handle ≠ .absent ∧ ((LogFault.new (64 * 1024 * 1024) none).run [.write [1] (clockAt ⟨1, 10⟩) {}]).1.created.day ≠ (clockAt ⟨2, 20⟩).now.day ∧
    (clockAt ⟨2, 20⟩).dayRot.day = (clockAt ⟨2, 20⟩).now.day := by decide

end Zinx.Props
