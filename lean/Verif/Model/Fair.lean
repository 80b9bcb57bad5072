import Verif.Model.Sys

/-!
# Infinite executions and fairness

An infinite execution of a transition system may stutter (`none`), so that it also covers executions that stop. Fairness assumptions say that actions that
stay possible are done eventually.
-/

namespace Zinx

section
variable {S L : Type}

/-- An infinite execution: states and the actions between them. Vocabulary; no code of zinx. -/
structure Exec (step : S → L → S → Prop) where
  run : Nat → S
  act : Nat → Option L
  next : ∀ n, match act n with
    | none => run (n + 1) = run n
    | some l => step (run n) l (run (n + 1))

/-- An action of the kind `A` is possible. Vocabulary; no code of zinx. -/
def Enabled (step : S → L → S → Prop) (A : L → Prop) (s : S) : Prop := ∃ l t, A l ∧ step s l t

variable {step : S → L → S → Prop}

/-- Weak fairness: if from some point on an `A` action is possible all the time, one is done. Vocabulary; no code of zinx. -/
def Exec.WeakFair (e : Exec step) (A : L → Prop) : Prop :=
  ∀ n, (∀ m, n ≤ m → Enabled step A (e.run m)) → ∃ m l, n ≤ m ∧ e.act m = some l ∧ A l

/-- Strong fairness: if an `A` action is possible again and again, one is done. Vocabulary; no code of zinx. -/
def Exec.StrongFair (e : Exec step) (A : L → Prop) : Prop :=
  ∀ n, (∀ m, n ≤ m → ∃ k, m ≤ k ∧ Enabled step A (e.run k)) → ∃ m l, n ≤ m ∧ e.act m = some l ∧ A l

/-- The first `n` steps, stuttering left out. Vocabulary; no code of zinx. -/
def Exec.trace (e : Exec step) : Nat → List L
  | 0 => []
  | n + 1 => e.trace n ++ (e.act n).toList

theorem Exec.steps (e : Exec step) : ∀ n, Steps step (e.run 0) (e.trace n) (e.run n) := by
  intro n
  induction n with
  | zero => exact .nil _
  | succ n ih =>
    unfold Exec.trace
    have hn := e.next n
    cases ha : e.act n with
    | none => rw [ha] at hn; rw [hn]; show Steps step _ (_ ++ []) _; rw [List.append_nil]; exact ih
    | some l => rw [ha] at hn; exact ih.snoc hn

theorem Exec.mem_trace (e : Exec step) {n : Nat} {l : L} (h : l ∈ e.trace n) : ∃ m, m < n ∧ e.act m = some l := by
  induction n with
  | zero => cases h
  | succ n ih =>
    unfold Exec.trace at h
    rw [List.mem_append] at h
    rcases h with h | h
    · obtain ⟨m, hm, h2⟩ := ih h
      exact ⟨m, by omega, h2⟩
    · rw [Option.mem_toList] at h
      exact ⟨n, by omega, h⟩

/-- Steps of an execution keep invariants. -/
theorem Exec.invariant (e : Exec step) {P : S → Prop} (h : ∀ s l t, P s → step s l t → P t) {n : Nat} (h0 : P (e.run n)) : ∀ m, n ≤ m → P (e.run m) := by
  intro m hm
  induction m with
  | zero =>
    have : n = 0 := by omega
    rw [← this]; exact h0
  | succ m ih =>
    by_cases e1 : n = m + 1
    · rw [← e1]; exact h0
    · have hp := ih (by omega)
      have hn := e.next m
      cases ha : e.act m with
      | none => rw [ha] at hn; rw [hn]; exact hp
      | some l => rw [ha] at hn; exact h _ l _ hp hn

/-- Before the first `Q` state the execution stays in `P`, if `P` can only be left for `Q`. -/
theorem Exec.stays (e : Exec step) {P Q : S → Prop} (h : ∀ s l t, P s → step s l t → P t ∨ Q t) {n : Nat} (h0 : P (e.run n))
    (hq : ∀ m, n ≤ m → ¬ Q (e.run m)) : ∀ m, n ≤ m → P (e.run m) := by
  intro m hm
  induction m with
  | zero =>
    have : n = 0 := by omega
    rw [← this]; exact h0
  | succ m ih =>
    by_cases e1 : n = m + 1
    · rw [← e1]; exact h0
    · have hp := ih (by omega)
      have hn := e.next m
      cases ha : e.act m with
      | none => rw [ha] at hn; rw [hn]; exact hp
      | some l =>
        rw [ha] at hn
        rcases h _ l _ hp hn with h1 | h1
        · exact h1
        · exact absurd h1 (hq (m + 1) hm)

/-- The rule for strong fairness: `P` is left only for `Q`; `A` actions lead from `P` to `Q`; if `P`
holds for ever, an `A` action becomes possible again and again. -/
theorem Exec.leads_strong (e : Exec step) {A : L → Prop} (hf : e.StrongFair A) {P Q : S → Prop} (h1 : ∀ s l t, P s → step s l t → P t ∨ Q t)
    (h2 : ∀ s l t, P s → step s l t → A l → Q t)
    (h3 : ∀ n, (∀ m, n ≤ m → P (e.run m)) → ∃ m, n ≤ m ∧ Enabled step A (e.run m)) {n : Nat} (h0 : P (e.run n)) : ∃ m, n ≤ m ∧ Q (e.run m) := by
  apply Classical.byContradiction
  intro hno
  have hq : ∀ m, n ≤ m → ¬ Q (e.run m) := fun m hm hqm => hno ⟨m, hm, hqm⟩
  have hP := e.stays h1 h0 hq
  obtain ⟨m, l, hm, ha, hA⟩ := hf n (fun m hm => h3 m (fun k hk => hP k (by omega)))
  have hn := e.next m
  rw [ha] at hn
  exact hq (m + 1) (by omega) (h2 _ l _ (hP m hm) hn hA)

/-- The rule for weak fairness: in `P` an `A` action is possible all the time. -/
theorem Exec.leads_weak (e : Exec step) {A : L → Prop} (hf : e.WeakFair A) {P Q : S → Prop} (h1 : ∀ s l t, P s → step s l t → P t ∨ Q t)
    (h2 : ∀ s l t, P s → step s l t → A l → Q t) (h3 : ∀ s, P s → Enabled step A s) {n : Nat} (h0 : P (e.run n)) : ∃ m, n ≤ m ∧ Q (e.run m) := by
  apply Classical.byContradiction
  intro hno
  have hq : ∀ m, n ≤ m → ¬ Q (e.run m) := fun m hm hqm => hno ⟨m, hm, hqm⟩
  have hP := e.stays h1 h0 hq
  obtain ⟨m, l, hm, ha, hA⟩ := hf n (fun m hm => h3 _ (hP m hm))
  have hn := e.next m
  rw [ha] at hn
  exact hq (m + 1) (by omega) (h2 _ l _ (hP m hm) hn hA)

/-- The rule for weak fairness with a measure: `P` is left only for `Q`, the measure never grows, and `A` actions make it smaller or lead to `Q`. -/
theorem Exec.leads_weak_dec (e : Exec step) {A : L → Prop} (hf : e.WeakFair A) {P Q : S → Prop} (μ : S → Nat)
    (h1 : ∀ s l t, P s → step s l t → P t ∧ μ t ≤ μ s ∨ Q t) (h2 : ∀ s l t, P s → step s l t → A l → P t ∧ μ t < μ s ∨ Q t) (h3 : ∀ s, P s → Enabled step A s)
    {n : Nat} (h0 : P (e.run n)) : ∃ m, n ≤ m ∧ Q (e.run m) := by
  suffices H : ∀ v n, P (e.run n) → μ (e.run n) ≤ v → ∃ m, n ≤ m ∧ Q (e.run m) from H _ n h0 (Nat.le_refl _)
  intro v
  induction v with
  | zero =>
    intro n hn hv
    refine e.leads_weak hf (P := fun s => P s ∧ μ s = 0) (Q := Q) (fun s l t hp hs => ?_) (fun s l t hp hs hA => ?_) (fun s hp => h3 s hp.1) ⟨hn, by omega⟩
    · rcases h1 s l t hp.1 hs with h | h
      · exact .inl ⟨h.1, by omega⟩
      · exact .inr h
    · rcases h2 s l t hp.1 hs hA with h | h
      · omega
      · exact h
  | succ v ih =>
    intro n hn hv
    obtain ⟨m, hm, hq⟩ := e.leads_weak hf (P := fun s => P s ∧ μ s ≤ v + 1) (Q := fun s => Q s ∨ P s ∧ μ s ≤ v)
      (fun s l t hp hs => by
        rcases h1 s l t hp.1 hs with h | h
        · exact .inl ⟨h.1, by omega⟩
        · exact .inr (.inl h))
      (fun s l t hp hs hA => by
        rcases h2 s l t hp.1 hs hA with h | h
        · exact .inr ⟨h.1, by omega⟩
        · exact .inl h)
      (fun s hp => h3 s hp.1) ⟨hn, hv⟩
    rcases hq with hq | ⟨hq, hv'⟩
    · exact ⟨m, hm, hq⟩
    · obtain ⟨k, hk, h⟩ := ih m hq hv'
      exact ⟨k, by omega, h⟩

/-- Steps that also record the labels. Vocabulary; no code of zinx. -/
def recording (step : S → L → S → Prop) (p : S × List L) (l : L) (q : S × List L) : Prop := step p.1 l q.1 ∧ q.2 = p.2 ++ [l]

/-- The same execution, its states extended by the labels so far. Vocabulary; no code of zinx. -/
def Exec.recorded (e : Exec step) : Exec (recording step) where
  run n := (e.run n, e.trace n)
  act := e.act
  next n := by
    have hn := e.next n
    cases ha : e.act n with
    | none =>
      rw [ha] at hn
      show (_, e.trace n ++ _) = _
      rw [ha]; show (_, e.trace n ++ []) = _
      rw [List.append_nil]; show (e.run (n + 1), _) = _; rw [hn]
    | some l =>
      rw [ha] at hn
      refine ⟨hn, ?_⟩
      show e.trace n ++ _ = _
      rw [ha]; rfl

theorem enabled_recorded {A : L → Prop} {p : S × List L} : Enabled (recording step) A p ↔ Enabled step A p.1 :=
  ⟨fun ⟨l, t, hA, hs⟩ => ⟨l, t.1, hA, hs.1⟩, fun ⟨l, t, hA, hs⟩ => ⟨l, (t, p.2 ++ [l]), hA, hs, rfl⟩⟩

theorem Exec.WeakFair.recorded {e : Exec step} {A : L → Prop} (h : e.WeakFair A) : e.recorded.WeakFair A :=
  fun n hn => h n (fun m hm => enabled_recorded.1 (hn m hm))

theorem Exec.StrongFair.recorded {e : Exec step} {A : L → Prop} (h : e.StrongFair A) : e.recorded.StrongFair A :=
  fun n hn => h n (fun m hm => let ⟨k, hk, hE⟩ := hn m hm; ⟨k, hk, enabled_recorded.1 hE⟩)

end

end Zinx
