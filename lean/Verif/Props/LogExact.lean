import Verif.Props.LogWriter

/-! # C50, exactly -/

namespace Zinx.Props

open Zinx Zinx.LogWriter

/-- Of entries with the same name, the last one. -/
def lasts : List (Nat × Bytes) → List (Nat × Bytes)
  | [] => []
  | x :: xs => if x.1 ∈ xs.map (·.1) then lasts xs else x :: lasts xs

theorem mem_lasts {x : Nat × Bytes} : ∀ {xs : List (Nat × Bytes)}, x ∈ lasts xs → x.1 ∈ xs.map (·.1)
  | y :: ys, h => by
    unfold lasts at h
    split at h
    · exact List.mem_cons_of_mem _ (mem_lasts h)
    · rcases List.mem_cons.1 h with rfl | h
      · simp
      · exact List.mem_cons_of_mem _ (mem_lasts h)

theorem lasts_snoc (n : Nat) (c : Bytes) : ∀ xs : List (Nat × Bytes), lasts (xs ++ [(n, c)]) = archive (lasts xs) n c
  | [] => rfl
  | y :: ys => by
    have ih := lasts_snoc n c ys
    unfold archive at ih ⊢
    rw [List.cons_append, lasts, ih]
    by_cases h1 : y.1 ∈ ys.map (·.1)
    · rw [if_pos (by simp at h1 ⊢; exact .inl h1)]
      rw [lasts, if_pos h1]
    · rw [lasts, if_neg h1]
      by_cases h2 : y.1 = n
      · rw [if_pos (by simp [h2])]
        simp [h2]
      · rw [if_neg (by simp at h1 ⊢; exact ⟨h1, h2⟩)]
        simp [h2]

theorem lasts_length : ∀ xs : List (Nat × Bytes), ((lasts xs).map (·.2)).flatten.length ≤ (xs.map (·.2)).flatten.length
  | [] => Nat.le_refl _
  | y :: ys => by
    have := lasts_length ys
    unfold lasts
    split <;> simp only [List.map_cons, List.flatten_cons, List.length_append] <;> omega

/-- The last ones have everything exactly if the others are empty. -/
theorem lasts_all : ∀ xs : List (Nat × Bytes), ((lasts xs).map (·.2)).flatten = (xs.map (·.2)).flatten ↔ ∀ a x b, xs = a ++ x :: b → x.1 ∈ b.map (·.1) → x.2 = []
  | [] => by simp [lasts]
  | y :: ys => by
    have ih := lasts_all ys
    have split : (∀ a x b, y :: ys = a ++ x :: b → x.1 ∈ b.map (·.1) → x.2 = []) ↔ (y.1 ∈ ys.map (·.1) → y.2 = []) ∧ ∀ a x b, ys = a ++ x :: b → x.1 ∈ b.map (·.1) → x.2 = [] := by
      constructor
      · intro h
        exact ⟨h [] y ys rfl, fun a x b e => h (y :: a) x b (by rw [e]; rfl)⟩
      · rintro ⟨h1, h2⟩ a x b e
        cases a with
        | nil => cases e; exact h1
        | cons z a => cases e; exact h2 a x b rfl
    rw [split, ← ih, lasts]
    by_cases hy : y.1 ∈ ys.map (·.1)
    · rw [if_pos hy]
      have hl := lasts_length ys
      constructor
      · intro e
        have := congrArg List.length e
        simp only [List.map_cons, List.flatten_cons, List.length_append] at this
        have h0 : y.2 = [] := List.eq_nil_of_length_eq_zero (by omega)
        refine ⟨fun _ => h0, ?_⟩
        rw [e]
        simp [h0]
      · rintro ⟨h1, h2⟩
        rw [h2]
        simp [h1 hy]
    · rw [if_neg hy]
      simp only [List.map_cons, List.flatten_cons, List.append_cancel_left_eq]
      exact ⟨fun h => ⟨fun h' => absurd h' hy, h⟩, fun h => h.2⟩

/-- The files cut so far, with the names they were given. -/
structure Cuts (base : Bytes) (cuts : List (Nat × Bytes)) (s : State) : Prop where
  inv : Inv s
  names : s.names = cuts.map (·.1)
  archives : s.archives = lasts cuts
  total : (cuts.map (·.2)).flatten ++ current s = base

theorem rotate_names (s : State) (now mod : Time) : (s.rotate now mod).names = s.names ++ if s.isOpen then [s.created.name] else [] := by
  unfold State.rotate
  cases ho : s.isOpen with
  | true => simp
  | false =>
    simp only [Bool.false_eq_true, if_false, List.append_nil]
    split <;> rfl

theorem Cuts.rotate {base : Bytes} {cuts : List (Nat × Bytes)} {s : State} (h : Cuts base cuts s) (now mod : Time) : ∃ cuts', Cuts base cuts' (s.rotate now mod) := by
  obtain ⟨a, _, _, _, e1, e2, _⟩ := rotate_spec h.inv now mod
  have hn := rotate_names s now mod
  cases ho : s.isOpen with
  | true =>
    obtain ⟨x, y⟩ := e1 ho
    refine ⟨cuts ++ [(s.created.name, current s)], a, ?_, ?_, ?_⟩
    · rw [hn, if_pos ho, h.names]
      simp
    · rw [y, lasts_snoc, h.archives]
    · rw [x, ← h.total]
      simp
  | false =>
    obtain ⟨x, y⟩ := e2 ho
    refine ⟨cuts, a, ?_, ?_, ?_⟩
    · rw [hn, if_neg (by simp [ho]), h.names]
      simp
    · rw [y, h.archives]
    · rw [x, h.total]

theorem Cuts.ready {base : Bytes} {cuts : List (Nat × Bytes)} {s : State} (h : Cuts base cuts s) (p : Bytes) (c : Clock) : ∃ cuts', Cuts base cuts' (ready s p c) := by
  unfold LogWriter.ready
  dsimp only
  have h1 : ∃ cuts, Cuts base cuts (if s.isOpen then s else s.rotate c.opening c.mod) := by
    split
    · exact ⟨_, h⟩
    · exact h.rotate _ _
  generalize (if s.isOpen then s else s.rotate c.opening c.mod) = s1 at h1 ⊢
  obtain ⟨_, h1⟩ := h1
  have h2 : ∃ cuts, Cuts base cuts (if s1.created.day ≠ c.now.day then s1.rotate c.dayRot c.mod else s1) := by
    split
    · exact h1.rotate _ _
    · exact ⟨_, h1⟩
  generalize (if s1.created.day ≠ c.now.day then s1.rotate c.dayRot c.mod else s1) = s2 at h2 ⊢
  obtain ⟨_, h2⟩ := h2
  split
  · exact h2.rotate _ _
  · exact ⟨_, h2⟩

theorem Cuts.op {base : Bytes} {cuts : List (Nat × Bytes)} {s : State} (h : Cuts base cuts s) (o : LogWriter.Op) : ∃ cuts', Cuts (base ++ opBytes o) cuts' (s.run o.events) := by
  cases o with
  | write p c =>
    obtain ⟨cuts', k⟩ := h.ready p c
    have er : s.run (LogWriter.Op.write p c).events = s.write p c := rfl
    rw [er]
    refine ⟨cuts', write_inv h.inv p c, k.names, k.archives, ?_⟩
    rw [write_current, ← List.append_assoc, k.total]
    rfl
  | daemon =>
    have er : s.run LogWriter.Op.daemon.events = s.flush := rfl
    rw [er]
    obtain ⟨a, b, c, d, _⟩ := flush_facts h.inv
    exact ⟨cuts, a, by rw [d, h.names], by rw [c, h.archives], by rw [b, h.total]; simp [opBytes]⟩
  | close =>
    have er : s.run LogWriter.Op.close.events = s.flush.close := rfl
    rw [er]
    obtain ⟨a, b, c, d, _, g⟩ := flush_facts h.inv
    obtain ⟨x, y⟩ := close_facts a g
    exact ⟨cuts, x, by show s.flush.names = _; rw [d, h.names], by show s.flush.archives = _; rw [c, h.archives], by rw [y, b, h.total]; simp [opBytes]⟩
  | setMaxSize ms =>
    have er : s.run (LogWriter.Op.setMaxSize ms).events = s.setMaxSize ms := rfl
    rw [er]
    obtain ⟨a, b, c, d, _⟩ := setMaxSize_facts h.inv ms
    exact ⟨cuts, a, by rw [d, h.names], by rw [c, h.archives], by rw [b, h.total]; simp [opBytes]⟩

theorem Cuts.ops : ∀ (ops : List LogWriter.Op) {base : Bytes} {cuts : List (Nat × Bytes)} {s : State}, Cuts base cuts s → ∃ cuts', Cuts (base ++ logWritten ops) cuts' (s.runOps ops)
  | [], base, cuts, s, h => ⟨cuts, by simpa [logWritten, State.runOps, State.run] using h⟩
  | o :: ops, base, cuts, s, h => by
    obtain ⟨_, h1⟩ := h.op o
    obtain ⟨cuts', h2⟩ := h1.ops ops
    refine ⟨cuts', ?_⟩
    have e : s.runOps (o :: ops) = (s.run o.events).runOps ops := by simp [State.runOps, State.run, List.foldl_append]
    have w : logWritten (o :: ops) = opBytes o ++ logWritten ops := by simp [logWritten]
    rw [e, w, ← List.append_assoc]
    exact h2

/-- **C50**, exactly. Whatever the clock, the writer cuts what was in the file and what is written into files, one after the other, without losing a byte, and gives each a name. The archives are, for each name, the last
file given it. So nothing is lost exactly if every file whose name is given again later is empty. -/
theorem C50_exact (file : Option Bytes) (ops : List LogWriter.Op) :
    ∃ cuts : List (Nat × Bytes),
      cuts.map (·.1) = ((new file).runOps ops).names ∧
      (cuts.map (·.2)).flatten ++ ((new file).runOps ops).file.getD [] ++ ((new file).runOps ops).buf = file.getD [] ++ logWritten ops ∧
      (∀ n c, (n, c) ∈ ((new file).runOps ops).archives → ∃ a b, cuts = a ++ (n, c) :: b ∧ n ∉ b.map (·.1)) ∧
      (∀ a n c b, cuts = a ++ (n, c) :: b → n ∉ b.map (·.1) → (n, c) ∈ ((new file).runOps ops).archives) ∧
      ((((new file).runOps ops).archives.map (·.2)).flatten ++ ((new file).runOps ops).file.getD [] ++ ((new file).runOps ops).buf = file.getD [] ++ logWritten ops ↔
        ∀ a n c b, cuts = a ++ (n, c) :: b → n ∈ b.map (·.1) → c = []) := by
  have h0 : Cuts (file.getD []) [] (new file) := ⟨new_inv file, rfl, rfl, by simp [current, new]⟩
  obtain ⟨cuts, h⟩ := h0.ops ops
  have ht := h.total
  unfold current at ht
  rw [← List.append_assoc] at ht
  refine ⟨cuts, h.names.symm, ht, ?_, ?_, ?_⟩
  · rw [h.archives]
    have : ∀ (cuts : List (Nat × Bytes)) n c, (n, c) ∈ lasts cuts → ∃ a b, cuts = a ++ (n, c) :: b ∧ n ∉ b.map (·.1) := by
      intro cuts n c
      induction cuts with
      | nil => intro h; cases h
      | cons y ys ih =>
        intro h
        unfold lasts at h
        split at h
        · obtain ⟨a, b, e, hn⟩ := ih h
          exact ⟨y :: a, b, by rw [e]; rfl, hn⟩
        · rename_i hy
          rcases List.mem_cons.1 h with e | h
          · subst e
            exact ⟨[], ys, rfl, hy⟩
          · obtain ⟨a, b, e, hn⟩ := ih h
            exact ⟨y :: a, b, by rw [e]; rfl, hn⟩
    exact this cuts
  · rw [h.archives]
    intro a n c b e hn
    rw [e]
    clear ht h h0 e
    induction a with
    | nil =>
      rw [List.nil_append, lasts, if_neg hn]
      exact List.mem_cons_self
    | cons y ys ih =>
      rw [List.cons_append, lasts]
      split
      · exact ih
      · exact List.mem_cons_of_mem _ ih
  · rw [← ht, List.append_cancel_right_eq, List.append_cancel_right_eq, h.archives, lasts_all]
    exact ⟨fun h a n c b e hn => h a (n, c) b e hn, fun h a x b e hn => h a x.1 x.2 b e hn⟩

/-- A name given twice: the first file was empty, and nothing is lost. A write that comes on another day and does not fit cuts twice. -/
example :
    let s := (new none).runOps [.setMaxSize 2, .write [1] (constClock ⟨1, 10⟩), .write [2, 3] ⟨⟨2, 11⟩, ⟨2, 11⟩, ⟨2, 11⟩, ⟨2, 11⟩, ⟨2, 11⟩⟩, .write [4] ⟨⟨2, 11⟩, ⟨2, 11⟩, ⟨2, 11⟩, ⟨2, 11⟩, ⟨2, 12⟩⟩]
    s.names = [10, 11, 11] ∧ s.archives = [(10, [1]), (11, [2, 3])] ∧ s.file = some [] ∧ s.buf = [4] := by decide

end Zinx.Props
