import Verif.Model.LogWriter

/-! # Facts about the log writer -/

namespace Zinx.LogWriter

open Zinx

theorem bufWrite_total (file buf p : Bytes) : (bufWrite file buf p).1 ++ (bufWrite file buf p).2 = file ++ buf ++ p := by
  unfold bufWrite
  by_cases h1 : p.length ≤ bufSize - buf.length
  · rw [if_pos h1]; simp
  · rw [if_neg h1]
    by_cases h2 : buf = []
    · rw [if_pos h2, h2]; simp
    · rw [if_neg h2]
      dsimp only
      split
      · simp
      · simp

/-- Contents of the archives in order. -/
def archived (s : State) : Bytes := (s.archives.map (·.2)).flatten

/-- Contents of the current file, buffered bytes included. -/
def current (s : State) : Bytes := s.file.getD [] ++ s.buf

/-- Invariant: names used are the archive names; a closed writer has nothing buffered. -/
structure Inv (s : State) : Prop where
  names : ∀ a ∈ s.archives, a.1 ∈ s.names
  file : s.isOpen = true → s.file ≠ none
  closed : s.isOpen = false → s.buf = []
  size : s.isOpen = true → s.size = (current s).length
  size0 : s.isOpen = false → s.file = none → s.size = 0

theorem archive_new {as : List (Nat × Bytes)} {name : Nat} (h : ∀ a ∈ as, a.1 ≠ name) (content : Bytes) :
    archive as name content = as ++ [(name, content)] := by
  unfold archive
  congr 1
  rw [List.filter_eq_self]
  intro a ha
  simpa using h a ha

/-- A rotation, seen from outside. -/
theorem rotate_spec {s : State} (h : Inv s) (now mod : Time) :
    Inv (s.rotate now mod) ∧ (s.rotate now mod).isOpen = true ∧ (s.rotate now mod).maxSize = s.maxSize ∧
    (∃ l, (s.rotate now mod).names = s.names ++ l) ∧
    (s.isOpen = true → current (s.rotate now mod) = [] ∧ (s.rotate now mod).archives = archive s.archives s.created.name (current s)) ∧
    (s.isOpen = false → current (s.rotate now mod) = current s ∧ (s.rotate now mod).archives = s.archives) ∧
    ((s.rotate now mod).names.Nodup → archived (s.rotate now mod) ++ current (s.rotate now mod) = archived s ++ current s) := by
  unfold State.rotate
  cases ho : s.isOpen with
  | true =>
    dsimp only
    rw [if_pos rfl]
    refine ⟨⟨?_, by simp, by simp, by simp [current], by simp⟩, rfl, rfl, ⟨_, rfl⟩, fun _ => ⟨rfl, rfl⟩, fun c => by simp at c, ?_⟩
    · intro a ha
      dsimp only at ha ⊢
      unfold archive at ha
      rw [List.mem_append] at ha ⊢
      rcases ha with ha | ha
      · exact .inl (h.names a (List.mem_filter.mp ha).1)
      · rw [List.mem_singleton] at ha
        rw [ha]
        exact .inr (by simp)
    · intro hn
      have fresh : ∀ a ∈ s.archives, a.1 ≠ s.created.name := by
        intro a ha e
        have m := h.names a ha
        rw [List.nodup_append] at hn
        exact hn.2.2 _ m s.created.name (by simp) e
      unfold archived current
      dsimp only
      rw [archive_new fresh]
      simp
  | false =>
    simp only [Bool.false_eq_true, ↓reduceIte]
    have hb := h.closed ho
    cases hf : s.file with
    | none =>
      refine ⟨⟨h.names, by simp, by simp, ?_, by simp⟩, rfl, rfl, ⟨[], by simp⟩, fun c => by simp at c, fun _ => ⟨?_, rfl⟩, fun _ => ?_⟩
      · intro _
        simp [current]
        exact h.size0 ho hf
      · simp [current, hf, hb]
      · simp [archived, current, hf, hb]
    | some f =>
      refine ⟨⟨h.names, by simp, by simp, ?_, by simp⟩, rfl, rfl, ⟨[], by simp⟩, fun c => by simp at c, fun _ => ⟨?_, rfl⟩, fun _ => ?_⟩
      · intro _
        simp [current]
      · simp [current, hf, hb]
      · simp [archived, current, hf, hb]

/-- The three parts of a write before the data is written. -/
def ready (s : State) (p : Bytes) (c : Clock) : State :=
  let s := if s.isOpen then s else s.rotate c.opening c.mod
  let s := if s.created.day ≠ c.now.day then s.rotate c.dayRot c.mod else s
  if s.size + p.length + s.buf.length ≥ s.maxSize then s.rotate c.sizeRot c.mod else s

theorem write_eq (s : State) (p : Bytes) (c : Clock) : s.write p c =
    { ready s p c with file := some (bufWrite ((ready s p c).file.getD []) (ready s p c).buf p).1,
                       buf := (bufWrite ((ready s p c).file.getD []) (ready s p c).buf p).2, size := (ready s p c).size + p.length } := rfl

/-- What rotations keep, along any number of them. -/
structure Kept (s t : State) : Prop where
  inv : Inv t
  maxSize : t.maxSize = s.maxSize
  names : ∃ l, t.names = s.names ++ l
  total : t.names.Nodup → archived t ++ current t = archived s ++ current s
  files : ∀ P : Bytes → Prop, P [] → (∀ a ∈ s.archives, P a.2) → P (current s) → (∀ a ∈ t.archives, P a.2) ∧ P (current t)

theorem Kept.refl {s : State} (h : Inv s) : Kept s s := ⟨h, rfl, ⟨[], by simp⟩, fun _ => rfl, fun _ _ h1 h2 => ⟨h1, h2⟩⟩

theorem Kept.trans {s t u : State} (h1 : Kept s t) (h2 : Kept t u) : Kept s u := by
  obtain ⟨l1, e1⟩ := h1.names
  obtain ⟨l2, e2⟩ := h2.names
  refine ⟨h2.inv, by rw [h2.maxSize, h1.maxSize], ⟨l1 ++ l2, by rw [e2, e1, List.append_assoc]⟩, ?_, ?_⟩
  · intro hn
    rw [h2.total hn]
    apply h1.total
    rw [e2, List.nodup_append] at hn
    exact hn.1
  · intro P p0 pa pc
    obtain ⟨a, b⟩ := h1.files P p0 pa pc
    exact h2.files P p0 a b

theorem rotate_kept {s : State} (h : Inv s) (now mod : Time) : Kept s (s.rotate now mod) := by
  obtain ⟨a, _, c, d, e1, e2, f⟩ := rotate_spec h now mod
  refine ⟨a, c, d, f, ?_⟩
  intro P p0 pa pc
  cases ho : s.isOpen with
  | true =>
    obtain ⟨x, y⟩ := e1 ho
    rw [x, y]
    refine ⟨?_, p0⟩
    intro z hz
    unfold archive at hz
    rw [List.mem_append] at hz
    rcases hz with hz | hz
    · exact pa z (List.mem_filter.mp hz).1
    · rw [List.mem_singleton] at hz; rw [hz]; exact pc
  | false =>
    obtain ⟨x, y⟩ := e2 ho
    rw [x, y]
    exact ⟨pa, pc⟩

theorem ready_kept {s : State} (h : Inv s) (p : Bytes) (c : Clock) :
    Kept s (ready s p c) ∧ (ready s p c).isOpen = true ∧
    (current (ready s p c) = [] ∨ ((current (ready s p c)).length : Int) + p.length < (ready s p c).maxSize) := by
  unfold ready
  dsimp only
  obtain ⟨s1, e1⟩ : ∃ s1, s1 = (if s.isOpen then s else s.rotate c.opening c.mod) := ⟨_, rfl⟩
  rw [← e1]
  have k1 : Kept s s1 ∧ s1.isOpen = true := by
    rw [e1]
    cases ho : s.isOpen with
    | true => exact ⟨Kept.refl h, ho⟩
    | false => exact ⟨rotate_kept h _ _, (rotate_spec h _ _).2.1⟩
  obtain ⟨s2, e2⟩ : ∃ s2, s2 = (if s1.created.day ≠ c.now.day then s1.rotate c.dayRot c.mod else s1) := ⟨_, rfl⟩
  rw [← e2]
  have k2 : Kept s1 s2 ∧ s2.isOpen = true := by
    rw [e2]
    split
    · exact ⟨rotate_kept k1.1.inv _ _, (rotate_spec k1.1.inv _ _).2.1⟩
    · exact ⟨Kept.refl k1.1.inv, k1.2⟩
  have k12 := k1.1.trans k2.1
  split
  · refine ⟨k12.trans (rotate_kept k2.1.inv _ _), (rotate_spec k2.1.inv _ _).2.1, .inl ?_⟩
    exact ((rotate_spec k2.1.inv _ _).2.2.2.2.1 k2.2).1
  · rename_i hs
    refine ⟨k12, k2.2, .inr ?_⟩
    have := k2.1.inv.size k2.2
    omega

theorem write_current (s : State) (p : Bytes) (c : Clock) : current (s.write p c) = current (ready s p c) ++ p := by
  rw [write_eq]
  unfold current
  dsimp only [Option.getD_some]
  rw [bufWrite_total]

theorem write_inv {s : State} (h : Inv s) (p : Bytes) (c : Clock) : Inv (s.write p c) := by
  obtain ⟨k, o, _⟩ := ready_kept h p c
  have hc := write_current s p c
  rw [write_eq] at hc ⊢
  refine ⟨k.inv.names, by simp, by simp [o], ?_, by simp [o]⟩
  intro _
  rw [hc, List.length_append]
  dsimp only
  rw [k.inv.size o]
  omega

theorem flush_facts {s : State} (h : Inv s) : Inv s.flush ∧ current s.flush = current s ∧ s.flush.archives = s.archives ∧ s.flush.names = s.names ∧
    s.flush.maxSize = s.maxSize ∧ s.flush.buf = [] := by
  unfold State.flush
  cases ho : s.isOpen with
  | true =>
    rw [if_pos rfl]
    refine ⟨⟨h.names, by simp, by simp, ?_, by simp⟩, by simp [current], rfl, rfl, rfl, rfl⟩
    intro _
    have := h.size ho
    simp [current] at this ⊢
    exact this
  | false => exact ⟨h, rfl, rfl, rfl, rfl, h.closed ho⟩

theorem close_facts {s : State} (h : Inv s) (hb : s.buf = []) : Inv s.close ∧ current s.close = current s := by
  unfold State.close
  refine ⟨⟨h.names, by simp, fun _ => hb, by simp, ?_⟩, rfl⟩
  intro _ hf
  dsimp only at hf ⊢
  cases ho : s.isOpen with
  | true => exact absurd hf (h.file ho)
  | false => exact h.size0 ho hf

theorem setMaxSize_facts {s : State} (h : Inv s) (ms : Int) : Inv (s.setMaxSize ms) ∧ current (s.setMaxSize ms) = current s ∧
    (s.setMaxSize ms).archives = s.archives ∧ (s.setMaxSize ms).names = s.names ∧ (s.setMaxSize ms).buf = s.buf := by
  unfold State.setMaxSize
  split
  · exact ⟨h, rfl, rfl, rfl, rfl⟩
  · exact ⟨⟨h.names, h.file, h.closed, h.size, h.size0⟩, rfl, rfl, rfl, rfl⟩

theorem new_inv (file : Option Bytes) : Inv (new file) :=
  ⟨by simp [new], by simp [new], by simp [new], by simp [new], by simp [new]⟩

end Zinx.LogWriter
