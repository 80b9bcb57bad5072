import Verif.Model.Basic

/-!
# Transition systems

Goroutines are modelled as labelled transition systems: one step is one atomic action of one goroutine.
-/

namespace Zinx

/-- `Steps step s ls t`: the actions `ls`, in order, lead from `s` to `t`. Vocabulary; no code of zinx. -/
inductive Steps {S L : Type} (step : S → L → S → Prop) : S → List L → S → Prop where
  | nil (s : S) : Steps step s [] s
  | cons {s t u : S} {l : L} {ls : List L} : step s l t → Steps step t ls u → Steps step s (l :: ls) u

/-- The same, with `Q` true in every state on the way, first and last included. Vocabulary; no code of zinx. -/
inductive StepsAll {S L : Type} (step : S → L → S → Prop) (Q : S → Prop) : S → List L → S → Prop where
  | nil {s : S} : Q s → StepsAll step Q s [] s
  | cons {s t u : S} {l : L} {ls : List L} : Q s → step s l t → StepsAll step Q t ls u → StepsAll step Q s (l :: ls) u

/-- `t` can be reached from `s`. Vocabulary; no code of zinx. -/
def Reaches {S L : Type} (step : S → L → S → Prop) (s t : S) : Prop := ∃ ls, Steps step s ls t

section
variable {S L : Type} {step : S → L → S → Prop}

theorem Steps.append {s t u : S} {l1 l2 : List L} (h1 : Steps step s l1 t) (h2 : Steps step t l2 u) : Steps step s (l1 ++ l2) u := by
  induction h1 with
  | nil => exact h2
  | cons h _ ih => exact .cons h (ih h2)

theorem Steps.snoc {s t u : S} {ls : List L} {l : L} (h1 : Steps step s ls t) (h2 : step t l u) : Steps step s (ls ++ [l]) u :=
  h1.append (.cons h2 (.nil _))

theorem Steps.split {s u : S} : ∀ {l1 l2 : List L}, Steps step s (l1 ++ l2) u → ∃ t, Steps step s l1 t ∧ Steps step t l2 u := by
  intro l1
  induction l1 generalizing s with
  | nil => intro l2 h; exact ⟨s, .nil s, h⟩
  | cons l ls ih =>
    intro l2 h
    cases h with
    | cons h1 h2 =>
      obtain ⟨t, h3, h4⟩ := ih h2
      exact ⟨t, .cons h1 h3, h4⟩

theorem Steps.unsnoc {s u : S} {ls : List L} {l : L} (h : Steps step s (ls ++ [l]) u) : ∃ t, Steps step s ls t ∧ step t l u := by
  obtain ⟨t, h1, h2⟩ := h.split
  cases h2 with
  | cons h3 h4 => cases h4; exact ⟨t, h1, h3⟩

/-- A property kept by every step holds after any number of steps. -/
theorem Steps.invariant {P : S → Prop} (hstep : ∀ s l t, P s → step s l t → P t) {s t : S} {ls : List L}
    (h : Steps step s ls t) (h0 : P s) : P t := by
  induction h with
  | nil => exact h0
  | cons h _ ih => exact ih (hstep _ _ _ h0 h)

/-- The same for a property of the state and the actions done so far. -/
theorem Steps.invariant_trace {P : List L → S → Prop} (hstep : ∀ ls s l t, P ls s → step s l t → P (ls ++ [l]) t)
    {s t : S} {ls : List L} (h : Steps step s ls t) (h0 : P [] s) : P ls t := by
  have gen : ∀ {s t : S} {ls : List L}, Steps step s ls t → ∀ pre, P pre s → P (pre ++ ls) t := by
    intro s t ls h
    induction h with
    | nil => intro pre h; rw [List.append_nil]; exact h
    | cons h _ ih =>
      intro pre hp
      have := ih _ (hstep _ _ _ _ hp h)
      simpa using this
  simpa using gen h [] h0

theorem StepsAll.steps {Q : S → Prop} {s t : S} {ls : List L} (h : StepsAll step Q s ls t) : Steps step s ls t := by
  induction h with
  | nil _ => exact .nil _
  | cons _ h2 _ ih => exact .cons h2 ih

theorem StepsAll.first {Q : S → Prop} {s t : S} {ls : List L} (h : StepsAll step Q s ls t) : Q s := by
  cases h with
  | nil h => exact h
  | cons h _ _ => exact h

theorem StepsAll.last {Q : S → Prop} {s t : S} {ls : List L} (h : StepsAll step Q s ls t) : Q t := by
  induction h with
  | nil h => exact h
  | cons _ _ _ ih => exact ih

/-- An invariant that needs `Q` before and after each step. -/
theorem StepsAll.invariant {Q P : S → Prop} (hstep : ∀ s l t, Q s → P s → step s l t → P t) {s t : S} {ls : List L}
    (h : StepsAll step Q s ls t) (h0 : P s) : P t := by
  induction h with
  | nil _ => exact h0
  | cons hq hs _ ih => exact ih (hstep _ _ _ hq h0 hs)

theorem Reaches.refl (s : S) : Reaches step s s := ⟨[], .nil s⟩

theorem Reaches.tail {s t u : S} {l : L} (h : Reaches step s t) (h2 : step t l u) : Reaches step s u := by
  obtain ⟨ls, h⟩ := h
  exact ⟨ls ++ [l], h.snoc h2⟩

theorem Reaches.trans {s t u : S} (h : Reaches step s t) (h2 : Reaches step t u) : Reaches step s u := by
  obtain ⟨l1, h⟩ := h
  obtain ⟨l2, h2⟩ := h2
  exact ⟨_, h.append h2⟩

theorem Reaches.invariant {P : S → Prop} (hstep : ∀ s l t, P s → step s l t → P t) {s t : S} (h : Reaches step s t) (h0 : P s) : P t := by
  obtain ⟨ls, h⟩ := h
  exact h.invariant hstep h0

end

end Zinx
