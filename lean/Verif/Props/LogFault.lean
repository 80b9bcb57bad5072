import Verif.Model.LogFault
import Verif.Lemmas.LogWriter

/-! # C98: log output when file operations fail -/

namespace Zinx.Props

open Zinx Zinx.LogFault
open Zinx.LogWriter (Time Clock bufSize archive)

/-- Failures of a rotation that lose nothing: renaming, zipping with an error report, asking for the size. -/
def mildRot (f : RotFaults) : Prop := f.flush = .good ∧ f.zip ≠ .silent ∧ f.opens = true

/-- Failures of a write that lose nothing: the mild ones of its rotations, and any but these when the file is to be opened and none is open. -/
def mildWrite (f : WriteFaults) : Prop := mildRot f.day ∧ mildRot f.size ∧ f.w1 = .good ∧ f.w2 = .good

def mildOp : LogFault.Op → Prop
  | .write _ _ f => mildWrite f
  | .daemon w => w = .good
  | .close w => w = .good

/-- What is in the archives, the file and the buffer. -/
def logKept (s : LogFault.State) : Bytes := (s.archives.map (·.2)).flatten ++ s.file.getD [] ++ s.buf

/-- The lines for which `Write` returned no error, in order. -/
def logAccepted (rs : List (Bytes × LogFault.Res)) : Bytes := ((rs.filter (·.2 = .ok)).map (·.1)).flatten

/-- No failure that matters so far. -/
structure Sound (s : LogFault.State) : Prop where
  broken : s.broken = false
  dead : s.handle ≠ .dead
  absent : s.handle = .absent → s.buf = []
  names : ∀ a ∈ s.archives, a.1 ∈ s.names

/-- What a part of a call does: `p` is what it adds. -/
structure Adds (s t : LogFault.State) (p : Bytes) : Prop where
  sound : Sound t
  names : ∃ l, t.names = s.names ++ l
  kept : t.names.Nodup → logKept t = logKept s ++ p

theorem Adds.trans {s t u : LogFault.State} {p q : Bytes} (h : Adds s t p) (k : Adds t u q) : Adds s u (p ++ q) := by
  obtain ⟨l, hl⟩ := h.names
  obtain ⟨m, hm⟩ := k.names
  refine ⟨k.sound, ⟨l ++ m, by rw [hm, hl, List.append_assoc]⟩, fun hn => ?_⟩
  rw [k.kept hn, h.kept (by rw [hm, List.nodup_append] at hn; exact hn.1), List.append_assoc]

theorem Adds.refl {s : LogFault.State} (h : Sound s) : Adds s s [] := ⟨h, ⟨[], by simp⟩, fun _ => by simp⟩

theorem flush_good {s : LogFault.State} (h : Sound s) : Adds s (s.flush .good) [] ∧ (s.flush .good).handle = s.handle ∧ (s.flush .good).buf = [] := by
  unfold LogFault.State.flush
  by_cases hb : s.buf = []
  · rw [if_pos (.inr hb)]
    exact ⟨Adds.refl h, rfl, hb⟩
  · rw [if_neg (by simp [hb, h.broken])]
    have hl : s.handle = .live := by
      cases e : s.handle with
      | absent => exact absurd (h.absent e) hb
      | live => rfl
      | dead => exact absurd e h.dead
    simp only [State.put, hl]
    refine ⟨⟨⟨rfl, by simp, by simp, h.names⟩, ⟨[], by simp⟩, fun _ => ?_⟩, trivial, by simp⟩
    simp [logKept]

theorem archive_fresh {as : List (Nat × Bytes)} {ns : List Nat} {name : Nat} {c : Bytes} (h : ∀ a ∈ as, a.1 ∈ ns) (hn : (ns ++ [name]).Nodup) : archive as name c = as ++ [(name, c)] := by
  refine LogWriter.archive_new (fun a ha e => ?_) c
  have := h a ha
  rw [List.nodup_append] at hn
  exact hn.2.2 _ this name (by simp) e

theorem retire_mild {s : LogFault.State} (h : Sound s) (f : RotFaults) (hf : mildRot f) :
    (s.retire f).broken = false ∧ (s.retire f).buf = [] ∧ (∀ a ∈ (s.retire f).archives, a.1 ∈ (s.retire f).names) ∧ (∃ l, (s.retire f).names = s.names ++ l) ∧
    ((s.retire f).names.Nodup → logKept (s.retire f) = logKept s) := by
  obtain ⟨hfl, hz, _⟩ := hf
  obtain ⟨ha, _, hb⟩ := flush_good h
  unfold State.retire
  rw [hfl]
  generalize s.flush .good = t at ha hb
  obtain ⟨l, hl⟩ := ha.names
  dsimp only
  cases hc : (if f.rename = true then t.file else none) with
  | none =>
    dsimp only
    refine ⟨ha.sound.broken, hb, ha.sound.names, ⟨l, hl⟩, fun hn => ?_⟩
    have := ha.kept hn
    rw [List.append_nil] at this
    exact this
  | some c =>
    have hfile : t.file = some c := by
      split at hc
      · exact hc
      · cases hc
    dsimp only
    rw [if_neg hz]
    refine ⟨ha.sound.broken, hb, ?_, ⟨l ++ [t.created.name], by rw [hl, List.append_assoc]⟩, fun hn => ?_⟩
    · intro a hm
      unfold archive at hm
      rw [List.mem_append, List.mem_filter, List.mem_singleton] at hm
      rw [List.mem_append, List.mem_singleton]
      rcases hm with hm | rfl
      · exact .inl (ha.sound.names a hm.1)
      · exact .inr rfl
    · have hk := ha.kept (by rw [List.nodup_append] at hn; exact hn.1)
      rw [List.append_nil] at hk
      rw [← hk]
      unfold logKept
      dsimp only
      rw [archive_fresh ha.sound.names hn, hfile]
      simp

theorem rotate_mild {s : LogFault.State} (h : Sound s) (now mod : Time) (f : RotFaults) (hf : s.handle = .absent ∨ mildRot f) :
    Adds s (s.rotate now mod f).1 [] ∧ ((s.rotate now mod f).2 = f.opens) ∧ (f.opens = true → (s.rotate now mod f).1.handle = .live) := by
  have key : ∀ t : LogFault.State, t.broken = false → t.buf = [] → (∀ a ∈ t.archives, a.1 ∈ t.names) → (∃ l, t.names = s.names ++ l) → (t.names.Nodup → logKept t = logKept s) →
      (f.opens = true ∨ t.handle = .absent) →
      let s2 := match (if f.stat then t.file else none) with
        | none => { t with created := now }
        | some c => { t with size := c.length, created := mod }
      let r := if f.opens then (({ s2 with handle := .live, file := some (s2.file.getD []), buf := [], broken := false } : LogFault.State), true) else (s2, false)
      Adds s r.1 [] ∧ r.2 = f.opens ∧ (f.opens = true → r.1.handle = .live) := by
    intro t h1 h2 h3 h4 h5 h6
    by_cases ho : f.opens = true
    · cases hc : (if f.stat = true then t.file else none) <;> simp only [ho, if_true] <;>
        refine ⟨⟨⟨rfl, by simp, by simp, h3⟩, h4, fun hn => ?_⟩, by simp, by simp⟩ <;> rw [List.append_nil, ← h5 hn] <;> simp [logKept, h2]
    · have hh := h6.resolve_left ho
      cases hc : (if f.stat = true then t.file else none) <;> simp only [ho] <;>
        refine ⟨⟨⟨h1, by simp [hh], fun _ => h2, h3⟩, h4, fun hn => ?_⟩, by simp, by simp⟩ <;> rw [List.append_nil, ← h5 hn] <;> simp [logKept]
  unfold State.rotate
  by_cases ha : s.handle = .absent
  · rw [if_pos ha]
    exact key s h.broken (h.absent ha) h.names ⟨[], by simp⟩ (fun _ => rfl) (.inr ha)
  · rw [if_neg ha]
    have hm := hf.resolve_left ha
    obtain ⟨h1, h2, h3, h4, h5⟩ := retire_mild h f hm
    exact key _ h1 h2 h3 h4 h5 (.inl hm.2.2)

theorem finish_good {s : LogFault.State} (hb : s.broken = false) (hl : s.handle = .live) (p : Bytes) (f : WriteFaults) (h1 : f.w1 = .good) (h2 : f.w2 = .good) :
    (s.finish p f).2 = .ok ∧ (s.finish p f).1.broken = false ∧ (s.finish p f).1.handle = .live ∧ (s.finish p f).1.archives = s.archives ∧ (s.finish p f).1.names = s.names ∧
    (s.finish p f).1.file.getD [] ++ (s.finish p f).1.buf = s.file.getD [] ++ s.buf ++ p := by
  unfold State.finish State.bufWrite
  rw [h1, h2, hb]
  by_cases e1 : p.length ≤ bufSize - s.buf.length
  · simp [e1, hl]
  · by_cases e2 : s.buf = []
    · simp only [e1, if_false, Bool.false_eq_true, State.put, hl]
      simp [e2]
    · have hb2 : s.buf ++ p.take (bufSize - s.buf.length) ≠ [] := by simp [e2]
      simp only [e1, e2, if_false, Bool.false_eq_true, LogFault.State.flush, State.put, hl, hb, hb2, or_self]
      by_cases e3 : (p.drop (bufSize - s.buf.length)).length ≤ bufSize
      · simp only [e3, Bool.not_true, Bool.false_eq_true, if_true, if_false]
        simp [List.append_assoc]
      · simp only [e3, Bool.not_true, Bool.false_eq_true, if_false]
        simp [List.append_assoc]

theorem finish_mild {s : LogFault.State} (h : Sound s) (hl : s.handle = .live) (p : Bytes) (f : WriteFaults) (h1 : f.w1 = .good) (h2 : f.w2 = .good) :
    Adds s (s.finish p f).1 p ∧ (s.finish p f).2 = .ok := by
  obtain ⟨a, b, c, d, e, g⟩ := finish_good h.broken hl p f h1 h2
  refine ⟨⟨⟨b, by rw [c]; simp, by rw [c]; simp, by rw [d, e]; exact h.names⟩, ⟨[], by rw [e, List.append_nil]⟩, fun _ => ?_⟩, a⟩
  unfold logKept
  rw [d, List.append_assoc, g]
  simp

theorem forSize_mild {s : LogFault.State} (h : Sound s) (hl : s.handle = .live) (p : Bytes) (c : Clock) (f : WriteFaults) (hf : mildWrite f) :
    Adds s (s.forSize p c f).1 p ∧ (s.forSize p c f).2 = .ok := by
  obtain ⟨_, h2, h3, h4⟩ := hf
  unfold State.forSize
  split
  · obtain ⟨a, b, d⟩ := rotate_mild h c.sizeRot c.mod f.size (.inr h2)
    rw [if_pos (b.trans h2.2.2)]
    obtain ⟨a', b'⟩ := finish_mild a.sound (d h2.2.2) p f h3 h4
    exact ⟨by simpa using a.trans a', b'⟩
  · exact finish_mild h hl p f h3 h4

theorem forDay_mild {s : LogFault.State} (h : Sound s) (hl : s.handle = .live) (p : Bytes) (c : Clock) (f : WriteFaults) (hf : mildWrite f) :
    Adds s (s.forDay p c f).1 p ∧ (s.forDay p c f).2 = .ok := by
  have h1 := hf.1
  unfold State.forDay
  split
  · obtain ⟨a, b, d⟩ := rotate_mild h c.dayRot c.mod f.day (.inr h1)
    rw [if_pos (b.trans h1.2.2)]
    obtain ⟨a', b'⟩ := forSize_mild a.sound (d h1.2.2) p c f hf
    exact ⟨by simpa using a.trans a', b'⟩
  · exact forSize_mild h hl p c f hf

theorem write_mild {s : LogFault.State} (h : Sound s) (p : Bytes) (c : Clock) (f : WriteFaults) (hf : mildWrite f) :
    (Adds s (s.write p c f).1 p ∧ (s.write p c f).2 = .ok) ∨ (Adds s (s.write p c f).1 [] ∧ (s.write p c f).2 = .shown ∧ s.handle = .absent ∧ f.opening.opens = false) := by
  unfold LogFault.State.write
  by_cases ha : s.handle = .absent
  · rw [if_pos ha]
    obtain ⟨a, b, d⟩ := rotate_mild h c.opening c.mod f.opening (.inl ha)
    by_cases ho : f.opening.opens = true
    · rw [if_pos (b.trans ho)]
      obtain ⟨a', b'⟩ := forDay_mild a.sound (d ho) p c f hf
      exact .inl ⟨by simpa using a.trans a', b'⟩
    · rw [if_neg (by rw [b]; exact ho)]
      exact .inr ⟨a, rfl, ha, by simpa using ho⟩
  · rw [if_neg ha]
    have hl : s.handle = .live := by
      cases e : s.handle with
      | absent => exact absurd e ha
      | live => rfl
      | dead => exact absurd e h.dead
    exact .inl (forDay_mild h hl p c f hf)

theorem run_mild (ops : List LogFault.Op) : ∀ s : LogFault.State, Sound s → (∀ o ∈ ops, mildOp o) →
    Adds s (s.run ops).1 (logAccepted (s.run ops).2) ∧ ∀ x ∈ (s.run ops).2, x.2 = .ok ∨ x.2 = .shown := by
  induction ops with
  | nil => intro s h _; exact ⟨Adds.refl h, by intro x hx; cases hx⟩
  | cons o ops ih =>
    intro s h ho
    have h1 := ho o List.mem_cons_self
    have one : Adds s (s.apply o).1 (logAccepted (s.apply o).2) ∧ ∀ x ∈ (s.apply o).2, x.2 = .ok ∨ x.2 = .shown := by
      cases o with
      | write p c f =>
        rcases write_mild h p c f h1 with ⟨a, b⟩ | ⟨a, b, _⟩
        · refine ⟨?_, ?_⟩
          · simpa [LogFault.State.apply, logAccepted, b] using a
          · intro x hx
            rw [LogFault.State.apply, List.mem_singleton] at hx
            rw [hx]
            exact .inl b
        · refine ⟨?_, ?_⟩
          · simpa [LogFault.State.apply, logAccepted, b] using a
          · intro x hx
            rw [LogFault.State.apply, List.mem_singleton] at hx
            rw [hx]
            exact .inr b
      | daemon w =>
        cases (show w = .good from h1)
        exact ⟨(flush_good h).1, by intro x hx; cases hx⟩
      | close w =>
        cases (show w = .good from h1)
        obtain ⟨a, _, b⟩ := flush_good h
        exact ⟨⟨⟨a.sound.broken, by simp [LogFault.State.apply], fun _ => b, a.sound.names⟩, a.names, a.kept⟩, by intro x hx; cases hx⟩
    obtain ⟨a, b⟩ := one
    obtain ⟨a', b'⟩ := ih _ a.sound fun o' h' => ho o' (List.mem_cons_of_mem _ h')
    refine ⟨?_, ?_⟩
    · have := a.trans a'
      simpa [LogFault.State.run, logAccepted, List.filter_append] using this
    · intro x hx
      rw [LogFault.State.run, List.mem_append] at hx
      exact hx.elim (b x) (b' x)

/-- **C98** (failures without loss): for every history of calls that do not overlap in which, of all file operations, only these fail: renaming a file to its archive name, zipping it with an error report,
asking for the size of the file, and opening the file when none is open. If no archive name is used twice, then what is in the archives, the file and the buffer, is what was in the file at the start and the
lines for which `Write` returned no error, in order; every other line was shown on the console. Missing: other failures, see the refutations. -/
theorem C98_mild_partial (maxSize : Int) (file : Option Bytes) (ops : List LogFault.Op) (h : ∀ o ∈ ops, mildOp o) (hn : ((LogFault.new maxSize file).run ops).1.names.Nodup) :
    (((LogFault.new maxSize file).run ops).1.archives.map (·.2)).flatten ++ ((LogFault.new maxSize file).run ops).1.file.getD [] ++ ((LogFault.new maxSize file).run ops).1.buf =
      file.getD [] ++ ((((LogFault.new maxSize file).run ops).2.filter (·.2 = .ok)).map (·.1)).flatten ∧
    ∀ x ∈ ((LogFault.new maxSize file).run ops).2, x.2 = .ok ∨ x.2 = .shown := by
  obtain ⟨a, b⟩ := run_mild ops (LogFault.new maxSize file) ⟨rfl, by simp [LogFault.new], fun _ => rfl, by intro x hx; cases hx⟩ h
  refine ⟨?_, b⟩
  have := a.kept hn
  simpa [logKept, logAccepted, LogFault.new] using this

/-- A clock that shows one time. -/
def clockAt (t : Time) : Clock := ⟨t, t, t, t, t⟩

/-- The file cannot be opened at first; renaming fails the next day, zipping on the third. -/
def mildHistory : List LogFault.Op :=
  [.write [1] (clockAt ⟨1, 10⟩) { opening := { opens := false } }, .write [2] (clockAt ⟨1, 11⟩) {}, .write [3] ⟨⟨2, 12⟩, ⟨2, 13⟩, ⟨2, 12⟩, ⟨2, 12⟩, ⟨2, 12⟩⟩ { day := { rename := false } },
   .daemon .good, .write [4] (clockAt ⟨3, 14⟩) { day := { zip := .reported } }]

example : (∀ o ∈ mildHistory, mildOp o) ∧ ((LogFault.new 100 none).run mildHistory).1.names.Nodup ∧
    ((LogFault.new 100 none).run mildHistory).2 = [([1], .shown), ([2], .ok), ([3], .ok), ([4], .ok)] ∧
    ((LogFault.new 100 none).run mildHistory).1.archives = [(13, [2, 3])] ∧ ((LogFault.new 100 none).run mildHistory).1.buf = [4] := by
  refine ⟨?_, by decide, by decide, by decide, by decide⟩
  intro o ho
  simp only [mildHistory, List.mem_cons, List.not_mem_nil, or_false] at ho
  rcases ho with rfl | rfl | rfl | rfl | rfl <;> simp [mildOp, mildWrite, mildRot]

theorem rotate_opens (s : LogFault.State) (now mod : Time) (f : RotFaults) (h : f.opens = true) :
    (s.rotate now mod f).2 = true ∧ (s.rotate now mod f).1.handle = .live ∧ (s.rotate now mod f).1.broken = false := by
  unfold State.rotate
  simp [h]

/-- **C98** (recovery): in any state, so after any history with any failures, a `Write` during which files can be opened and written returns no error and keeps its line, if the writer has no file, or its file
is from another day or full, or it is open and no write to it failed before. -/
theorem C98_recovers_partial (s : LogFault.State) (p : Bytes) (c : Clock) (f : WriteFaults) (h1 : f.opening.opens = true) (h2 : f.day.opens = true) (h3 : f.size.opens = true)
    (h4 : f.w1 = .good) (h5 : f.w2 = .good)
    (hs : s.handle = .absent ∨ s.created.day ≠ c.now.day ∨ s.size + p.length + s.buf.length ≥ s.maxSize ∨ (s.handle = .live ∧ s.broken = false)) :
    (s.write p c f).2 = .ok ∧ ∃ pre, (s.write p c f).1.file.getD [] ++ (s.write p c f).1.buf = pre ++ p := by
  have fin : ∀ t : LogFault.State, t.handle = .live → t.broken = false → (t.finish p f).2 = .ok ∧ ∃ pre, (t.finish p f).1.file.getD [] ++ (t.finish p f).1.buf = pre ++ p := by
    intro t hl hb
    obtain ⟨a, _, _, _, _, b⟩ := finish_good hb hl p f h4 h5
    exact ⟨a, _, b⟩
  have size : ∀ t : LogFault.State, (t.size + p.length + t.buf.length ≥ t.maxSize ∨ (t.handle = .live ∧ t.broken = false)) →
      (t.forSize p c f).2 = .ok ∧ ∃ pre, (t.forSize p c f).1.file.getD [] ++ (t.forSize p c f).1.buf = pre ++ p := by
    intro t ht
    unfold State.forSize
    split
    · obtain ⟨a, b, d⟩ := rotate_opens t c.sizeRot c.mod f.size h3
      rw [if_pos a]
      exact fin _ b d
    · rename_i hn
      have := ht.resolve_left hn
      exact fin t this.1 this.2
  have day : ∀ t : LogFault.State, (t.created.day ≠ c.now.day ∨ t.size + p.length + t.buf.length ≥ t.maxSize ∨ (t.handle = .live ∧ t.broken = false)) →
      (t.forDay p c f).2 = .ok ∧ ∃ pre, (t.forDay p c f).1.file.getD [] ++ (t.forDay p c f).1.buf = pre ++ p := by
    intro t ht
    unfold State.forDay
    split
    · obtain ⟨a, b, d⟩ := rotate_opens t c.dayRot c.mod f.day h2
      rw [if_pos a]
      exact size _ (.inr ⟨b, d⟩)
    · rename_i hn
      exact size t (ht.resolve_left hn)
  unfold LogFault.State.write
  split
  · obtain ⟨a, b, d⟩ := rotate_opens s c.opening c.mod f.opening h1
    rw [if_pos a]
    exact day _ (.inr (.inr ⟨b, d⟩))
  · rename_i hn
    exact day s (hs.resolve_left hn)

/-! ## Refutations -/

/-- The writer works on a closed file of day `d`. -/
structure Deaf (d : Nat) (as : List (Nat × Bytes)) (file : Option Bytes) (s : LogFault.State) : Prop where
  max : s.maxSize = 64 * 1024 * 1024
  handle : s.handle = .dead
  day : s.created.day = d
  size : s.size ≤ s.buf.length
  buf : s.buf.length ≤ bufSize
  archives : s.archives = as
  file : s.file = file

theorem deaf_flush {d : Nat} {as : List (Nat × Bytes)} {file : Option Bytes} {s : LogFault.State} (h : Deaf d as file s) (w : WriteRes) : Deaf d as file (s.flush w) := by
  unfold LogFault.State.flush
  split
  · exact h
  · simp only [State.put, h.handle]
    exact ⟨h.max, rfl, h.day, h.size, h.buf, h.archives, h.file⟩

theorem deaf_write {d : Nat} {as : List (Nat × Bytes)} {file : Option Bytes} {s : LogFault.State} (h : Deaf d as file s) (p : Bytes) (c : Clock) (f : WriteFaults) (hd : c.now.day = d)
    (hp : p.length ≤ 1024 * 1024) : Deaf d as file (s.write p c f).1 ∧ (s.buf.length + p.length ≤ bufSize → s.broken = false → (s.write p c f).2 = .ok) := by
  obtain ⟨h1, h2, h3, h4, h5, h6, h7⟩ := h
  have hw : s.write p c f = s.finish p f := by
    unfold LogFault.State.write State.forDay State.forSize
    rw [if_neg (by simp [h2]), if_neg (by rw [h3, hd]; simp), if_neg]
    unfold bufSize at h5
    rw [h1]
    omega
  rw [hw]
  unfold State.finish State.bufWrite
  by_cases hb : s.broken = true
  · simp only [hb, if_true]
    exact ⟨⟨h1, h2, h3, by simpa using h4, h5, h6, h7⟩, by simp⟩
  · have hb : s.broken = false := by simpa using hb
    by_cases e1 : p.length ≤ bufSize - s.buf.length
    · simp only [hb, e1, if_true, if_false, Bool.false_eq_true]
      refine ⟨⟨h1, h2, h3, ?_, ?_, h6, h7⟩, by simp⟩
      · simp only [List.length_append]; omega
      · simp only [List.length_append]; omega
    · refine ⟨?_, fun h => absurd h (by omega)⟩
      by_cases e2 : s.buf = []
      · simp only [hb, e1, if_false, Bool.false_eq_true, State.put, h2]
        simp only [e2, if_true]
        exact ⟨h1, rfl, h3, by simpa [e2] using h4, by simp, h6, h7⟩
      · have hb2 : s.buf ++ p.take (bufSize - s.buf.length) ≠ [] := by simp [e2]
        simp only [hb, e1, e2, if_false, Bool.false_eq_true, LogFault.State.flush, State.put, h2, hb2, or_self, Bool.not_false, if_true]
        refine ⟨h1, rfl, h3, ?_, ?_, h6, h7⟩
        · simp only [List.drop_zero, List.length_append, List.length_take]; omega
        · simp only [List.drop_zero, List.length_append, List.length_take]; omega

theorem deaf_run {d : Nat} {as : List (Nat × Bytes)} {file : Option Bytes} (ops : List LogFault.Op) (ho : ∀ o ∈ ops, (∃ w, o = .daemon w) ∨ ∃ p c f, o = .write p c f ∧ c.now.day = d ∧ p.length ≤ 1024 * 1024) :
    ∀ s : LogFault.State, Deaf d as file s → Deaf d as file (s.run ops).1 := by
  induction ops with
  | nil => intro s h; exact h
  | cons o ops ih =>
    intro s h
    refine ih (fun o' h' => ho o' (List.mem_cons_of_mem _ h')) _ ?_
    rcases ho o List.mem_cons_self with ⟨w, rfl⟩ | ⟨p, c, f, rfl, hd, hp⟩
    · exact deaf_flush h w
    · exact (deaf_write h p c f hd hp).1

/-- One line on the first day; on the second day the file cannot be opened after the rotation. -/
def deafHistory : List LogFault.Op := [.write [1] (clockAt ⟨1, 10⟩) {}, .write [2] (clockAt ⟨2, 20⟩) { day := { opens := false } }]

/-- **C98 refuted** (one failure, a day without log): the file cannot be opened once, in the rotation at the beginning of the second day. Then, although all is well again, of all the lines (of up to 1 MiB)
written on that day none ever gets into a file; the next line, and as many as fit in the buffer of 4096 bytes, are even reported as written. -/
theorem C98_open_refuted : ∃ s : LogFault.State, (LogFault.new (64 * 1024 * 1024) none).run deafHistory = (s, [([1], .ok), ([2], .failed)]) ∧
    (∀ p c, c.now.day = 2 → p.length ≤ 4096 → (s.write p c {}).2 = .ok) ∧
    ∀ ops : List LogFault.Op, (∀ o ∈ ops, o = .daemon .good ∨ ∃ p c, o = .write p c {} ∧ c.now.day = 2 ∧ p.length ≤ 1024 * 1024) →
      (s.run ops).1.archives = [(10, [1])] ∧ (s.run ops).1.file = none := by
  have hd : Deaf 2 [(10, [1])] none ((LogFault.new (64 * 1024 * 1024) none).run deafHistory).1 := ⟨by decide, by decide, by decide, by decide, by decide, by decide, by decide⟩
  refine ⟨_, Prod.ext rfl (by decide), fun p c hc hp => (deaf_write hd p c {} hc (by omega)).2 ?_ (by decide), fun ops ho => ?_⟩
  · have : ((LogFault.new (64 * 1024 * 1024) none).run deafHistory).1.buf = [] := by decide
    rw [this]
    simpa [bufSize] using hp
  · have := deaf_run ops (fun o h => (ho o h).imp (fun h => ⟨_, h⟩) fun ⟨p, c, h⟩ => ⟨p, c, _, h⟩) _ hd
    exact ⟨this.archives, this.file⟩

/-- The next day that writer recovers. -/
example : (((LogFault.new (64 * 1024 * 1024) none).run deafHistory).1.write [5] (clockAt ⟨3, 30⟩) {}).2 = .ok :=
  (C98_recovers_partial _ [5] (clockAt ⟨3, 30⟩) {} rfl rfl rfl rfl rfl (.inr (.inl (by decide)))).1

/-- **C98 refuted** (zipping): the archive cannot be completed because the disk is full; the error is dropped, and the file is removed. All lines of the first day were reported as written; they are nowhere. -/
theorem C98_zip_refuted : ∃ s : LogFault.State,
    (LogFault.new (64 * 1024 * 1024) none).run [.write [1] (clockAt ⟨1, 10⟩) {}, .daemon .good, .write [2] (clockAt ⟨2, 20⟩) { day := { zip := .silent } }] = (s, [([1], .ok), ([2], .ok)]) ∧
    s.archives = [(10, [])] ∧ s.file = some [] ∧ s.buf = [2] :=
  ⟨_, Prod.ext rfl (by decide), by decide, by decide, by decide⟩

/-- **C98 refuted** (flushing): a line that was reported as written is still in the buffer when the file is rotated; it cannot be written, the error is dropped, and so is the line. -/
theorem C98_flush_refuted : ∃ s : LogFault.State,
    (LogFault.new (64 * 1024 * 1024) none).run [.write [1] (clockAt ⟨1, 10⟩) {}, .write [2] (clockAt ⟨2, 20⟩) { day := { flush := .fails 0 } }] = (s, [([1], .ok), ([2], .ok)]) ∧
    s.archives = [(10, [])] ∧ s.file = some [] ∧ s.buf = [2] :=
  ⟨_, Prod.ext rfl (by decide), by decide, by decide, by decide⟩

end Zinx.Props
