import Verif.Model.Fair

/-! An infinite execution from a finite one: it stutters after the end. For examples. -/

namespace Zinx

theorem Exec.ofSteps {S L : Type} {step : S → L → S → Prop} {s : S} {ls : List L} {t : S} (h : Steps step s ls t) :
    ∃ e : Exec step, e.run 0 = s ∧ (∀ n, e.act n = ls[n]?) ∧ (∀ n, e.trace n = ls.take n) ∧ (∀ n, ls.length ≤ n → e.run n = t) := by
  suffices H : ∃ e : Exec step, e.run 0 = s ∧ (∀ n, e.act n = ls[n]?) ∧ (∀ n, ls.length ≤ n → e.run n = t) by
    obtain ⟨e, h1, h2, h3⟩ := H
    refine ⟨e, h1, h2, fun n => ?_, h3⟩
    induction n with
    | zero => rfl
    | succ n ih =>
      unfold Exec.trace
      rw [ih, h2, List.take_add_one]
  induction h with
  | nil s => exact ⟨⟨fun _ => s, fun _ => none, fun _ => rfl⟩, rfl, fun n => by simp, fun _ _ => rfl⟩
  | @cons s u t l ls hs _ ih =>
    obtain ⟨e, h1, h2, h3⟩ := ih
    refine ⟨⟨fun | 0 => s | n + 1 => e.run n, fun | 0 => some l | n + 1 => e.act n, ?_⟩, rfl, ?_, ?_⟩
    · intro n
      cases n with
      | zero => show step s l (e.run 0); rw [h1]; exact hs
      | succ n => exact e.next n
    · intro n
      cases n with
      | zero => rfl
      | succ n => exact h2 n
    · intro n hn
      cases n with
      | zero => simp at hn
      | succ n => exact h3 n (by simpa using hn)

/-- The same, with something that holds of every state on the way. -/
theorem Exec.ofStepsAll {S L : Type} {step : S → L → S → Prop} {Q : S → Prop} {s : S} {ls : List L} {t : S} (h : StepsAll step Q s ls t) :
    ∃ e : Exec step, e.run 0 = s ∧ (∀ n, e.act n = ls[n]?) ∧ (∀ n, Q (e.run n)) ∧ (∀ n, ls.length ≤ n → e.run n = t) := by
  induction h with
  | @nil s hq => exact ⟨⟨fun _ => s, fun _ => none, fun _ => rfl⟩, rfl, fun n => by simp, fun _ => hq, fun _ _ => rfl⟩
  | @cons s u t l ls hq hs _ ih =>
    obtain ⟨e, h1, h2, h5, h3⟩ := ih
    refine ⟨⟨fun | 0 => s | n + 1 => e.run n, fun | 0 => some l | n + 1 => e.act n, ?_⟩, rfl, ?_, ?_, ?_⟩
    · intro n
      cases n with
      | zero => show step s l (e.run 0); rw [h1]; exact hs
      | succ n => exact e.next n
    · intro n
      cases n with
      | zero => rfl
      | succ n => exact h2 n
    · intro n
      cases n with
      | zero => exact hq
      | succ n => exact h5 n
    · intro n hn
      cases n with
      | zero => simp at hn
      | succ n => exact h3 n (by simpa using hn)

/-- If at the end no `A` action is possible, the execution is weakly fair for `A`. -/
theorem Exec.weakFair_of_end {S L : Type} {step : S → L → S → Prop} {e : Exec step} {A : L → Prop} {N : Nat} {t : S} (h : ∀ n, N ≤ n → e.run n = t) (hE : ¬ Enabled step A t) : e.WeakFair A := by
  intro n hn
  have := hn (n + N) (by omega)
  rw [h _ (by omega)] at this
  exact absurd this hE

theorem Exec.strongFair_of_end {S L : Type} {step : S → L → S → Prop} {e : Exec step} {A : L → Prop} {N : Nat} {t : S} (h : ∀ n, N ≤ n → e.run n = t) (hE : ¬ Enabled step A t) : e.StrongFair A := by
  intro n hn
  obtain ⟨k, hk, hk'⟩ := hn (n + N) (by omega)
  rw [h _ (by omega)] at hk'
  exact absurd hk' hE

/-- A finite execution through a given state, as an execution that stops at its end. -/
theorem Exec.ofStepsMid {S L : Type} {step : S → L → S → Prop} {s : S} {ls : List L} {u : S} {ks : List L} {t : S} (h : Steps step s ls u) (hk : Steps step u ks t) :
    ∃ e : Exec step, e.run 0 = s ∧ e.run ls.length = u ∧ ∀ n, ls.length + ks.length ≤ n → e.run n = t := by
  induction h with
  | nil s =>
    obtain ⟨e, h1, _, _, h4⟩ := Exec.ofSteps hk
    exact ⟨e, h1, h1, fun n hn => h4 n (by simpa using hn)⟩
  | @cons s u t l ls hs _ ih =>
    obtain ⟨e, h1, h2, h3⟩ := ih hk
    refine ⟨⟨fun | 0 => s | n + 1 => e.run n, fun | 0 => some l | n + 1 => e.act n, ?_⟩, rfl, h2, ?_⟩
    · intro n
      cases n with
      | zero =>
        show step s l (e.run 0); rw [h1]; exact hs
      | succ n => exact e.next n
    · intro n hn
      cases n with
      | zero => simp at hn
      | succ n => exact h3 n (by simp at hn; omega)

theorem StepsAll.states {S L : Type} {step : S → L → S → Prop} {Q : S → Prop} {s : S} {ls : List L} {t : S} (h : StepsAll step Q s ls t) :
    ∃ f : Nat → S, f 0 = s ∧ f ls.length = t ∧ (∀ i (h : i < ls.length), step (f i) ls[i] (f (i + 1))) ∧ ∀ i, i ≤ ls.length → Q (f i) := by
  induction h with
  | @nil s hq => exact ⟨fun _ => s, rfl, rfl, fun i h => by simp at h, fun _ _ => hq⟩
  | @cons s u t l ls hq hs _ ih =>
    obtain ⟨f, h1, h2, h3, h4⟩ := ih
    refine ⟨fun | 0 => s | n + 1 => f n, rfl, h2, ?_, ?_⟩
    · intro i hi
      cases i with
      | zero => show step s l (f 0); rw [h1]; exact hs
      | succ i => exact h3 i (by simpa using hi)
    · intro i hi
      cases i with
      | zero => exact hq
      | succ i => exact h4 i (by simpa using hi)

/-- An infinite execution that does `ls` and then goes round `cyc` for ever. -/
theorem Exec.ofLasso {S L : Type} {step : S → L → S → Prop} {Q R : S → Prop} {s t : S} {ls cyc : List L} (h : StepsAll step Q s ls t) (hc : StepsAll step R t cyc t) (hne : cyc ≠ []) (hRQ : ∀ s, R s → Q s) :
    ∃ e : Exec step, e.run 0 = s ∧ (∀ n, n ≤ ls.length → e.trace n = ls.take n) ∧ (∀ n, Q (e.run n)) ∧ (∀ n, ls.length ≤ n → R (e.run n)) ∧
      (∀ l ∈ cyc, ∀ n, ∃ m, n ≤ m ∧ e.act m = some l) ∧ (∀ n, ∃ m, n ≤ m ∧ e.run m = t) ∧ ∀ n l, l ∈ e.trace n → l ∈ ls ∨ l ∈ cyc := by
  obtain ⟨f, f1, f2, f3, f4⟩ := h.states
  obtain ⟨g, g1, g2, g3, g4⟩ := hc.states
  have hpos : 0 < cyc.length := List.length_pos_iff.2 hne
  have hlt : ∀ n, n % cyc.length < cyc.length := fun n => Nat.mod_lt _ hpos
  have hmod : ∀ n, (n + 1) % cyc.length = if n % cyc.length + 1 = cyc.length then 0 else n % cyc.length + 1 := by
    intro n
    rw [← Nat.mod_add_mod]
    split
    · rename_i h; rw [h, Nat.mod_self]
    · have := hlt n; exact Nat.mod_eq_of_lt (by omega)
  let e : Exec step :=
    { run := fun n => if n < ls.length then f n else g ((n - ls.length) % cyc.length)
      act := fun n => if h : n < ls.length then some ls[n] else some (cyc[(n - ls.length) % cyc.length]'(hlt _))
      next := by
        intro n
        by_cases hn : n < ls.length
        · simp only [hn, dif_pos, if_pos]
          have := f3 n hn
          by_cases hn1 : n + 1 < ls.length
          · rw [if_pos hn1]; exact this
          · rw [if_neg hn1]
            have e1 : n + 1 = ls.length := by omega
            have e2 : (n + 1 - ls.length) % cyc.length = 0 := by rw [e1, Nat.sub_self, Nat.zero_mod]
            have e3 : f (n + 1) = g 0 := by rw [e1, f2, g1]
            rw [e2, ← e3]
            exact this
        · have hn1 : ¬ n + 1 < ls.length := by omega
          simp only [hn, hn1, dif_neg, if_neg, not_false_eq_true]
          have := g3 _ (hlt (n - ls.length))
          have e1 : n + 1 - ls.length = n - ls.length + 1 := by omega
          rw [e1, hmod]
          split
          · rename_i hw
            have e3 : g ((n - ls.length) % cyc.length + 1) = g 0 := by rw [hw, g2, g1]
            rw [← e3]
            exact this
          · exact this }
  have hact : ∀ n (h : n < ls.length), e.act n = some ls[n] := fun n h => dif_pos h
  have hact2 : ∀ n, ¬ n < ls.length → e.act n = some (cyc[(n - ls.length) % cyc.length]'(hlt _)) := fun n h => dif_neg h
  have hR : ∀ n, ls.length ≤ n → R (e.run n) := by
    intro n hn
    show R (if n < ls.length then f n else g ((n - ls.length) % cyc.length))
    rw [if_neg (by omega)]
    exact g4 _ (Nat.le_of_lt (hlt _))
  refine ⟨e, ?_, ?_, ?_, hR, ?_, ?_, ?_⟩
  · show (if 0 < ls.length then f 0 else g ((0 - ls.length) % cyc.length)) = s
    split
    · exact f1
    · rename_i h0
      have : ls.length = 0 := by omega
      rw [Nat.zero_sub, Nat.zero_mod, g1, ← f2, this, f1]
  · intro n hn
    induction n with
    | zero => simp [Exec.trace]
    | succ n ih =>
      unfold Exec.trace
      rw [ih (by omega), hact n (by omega), List.take_add_one]
      simp [List.getElem?_eq_getElem (show n < ls.length by omega)]
  · intro n
    by_cases hn : n < ls.length
    · show Q (if n < ls.length then f n else g ((n - ls.length) % cyc.length))
      rw [if_pos hn]
      exact f4 n (by omega)
    · exact hRQ _ (hR n (by omega))
  · intro l hl n
    obtain ⟨i, hi, hli⟩ := List.getElem_of_mem hl
    have e1 : (ls.length + (i + cyc.length * n) - ls.length) % cyc.length = i := by
      rw [Nat.add_sub_cancel_left, Nat.add_mul_mod_self_left, Nat.mod_eq_of_lt hi]
    refine ⟨ls.length + (i + cyc.length * n), ?_, ?_⟩
    · have : n ≤ cyc.length * n := Nat.le_mul_of_pos_left n hpos
      omega
    · rw [hact2 _ (by omega)]
      simp only [e1, hli]
  · intro n
    refine ⟨ls.length + cyc.length * n, ?_, ?_⟩
    · have : n ≤ cyc.length * n := Nat.le_mul_of_pos_left n hpos
      omega
    · show (if ls.length + cyc.length * n < ls.length then _ else g ((ls.length + cyc.length * n - ls.length) % cyc.length)) = t
      rw [if_neg (by omega), Nat.add_sub_cancel_left, Nat.mul_mod_right, g1]
  · intro n l hl
    obtain ⟨m, _, hm⟩ := e.mem_trace hl
    by_cases h : m < ls.length
    · rw [hact m h] at hm
      cases hm
      exact .inl (List.getElem_mem _)
    · rw [hact2 m h] at hm
      cases hm
      exact .inr (List.getElem_mem _)

theorem Exec.weakFair_of_often {S L : Type} {step : S → L → S → Prop} {e : Exec step} {A : L → Prop} {l : L} (h : ∀ n, ∃ m, n ≤ m ∧ e.act m = some l) (hA : A l) : e.WeakFair A :=
  fun n _ => let ⟨m, h1, h2⟩ := h n; ⟨m, l, h1, h2, hA⟩

theorem Exec.strongFair_of_often {S L : Type} {step : S → L → S → Prop} {e : Exec step} {A : L → Prop} {l : L} (h : ∀ n, ∃ m, n ≤ m ∧ e.act m = some l) (hA : A l) : e.StrongFair A :=
  fun n _ => let ⟨m, h1, h2⟩ := h n; ⟨m, l, h1, h2, hA⟩

/-- If from some point on no `A` action is possible, the execution is strongly fair for `A`. -/
theorem Exec.strongFair_of_never {S L : Type} {step : S → L → S → Prop} {e : Exec step} {A : L → Prop} {N : Nat} (h : ∀ n, N ≤ n → ¬ Enabled step A (e.run n)) : e.StrongFair A := by
  intro n hn
  obtain ⟨k, hk, hk'⟩ := hn (n + N) (by omega)
  exact absurd hk' (h k (by omega))

theorem Exec.weakFair_of_never {S L : Type} {step : S → L → S → Prop} {e : Exec step} {A : L → Prop} {N : Nat} (h : ∀ n, N ≤ n → ¬ Enabled step A (e.run n)) : e.WeakFair A := by
  intro n hn
  exact absurd (hn (n + N) (by omega)) (h _ (by omega))

end Zinx
