import Verif.Lemmas.Callbacks

/-! # C41: close callbacks -/

namespace Zinx.Props

open Zinx.Callbacks

/-- The callbacks that are due after a history of calls, in order: an `Add` with a callback appends, a `Remove` deletes the first one with this handler and
key. Says nothing about pointers. -/
def callbacksDue {α : Type} [DecidableEq α] (l : List (α × α × Nat)) : List (Op α) → List (α × α × Nat)
  | [] => l
  | .add _ _ none :: os => callbacksDue l os
  | .add h k (some c) :: os => callbacksDue (l ++ [(h, k, c)]) os
  | .remove h k :: os => callbacksDue (l.eraseP fun e => decide (e.1 = h ∧ e.2.1 = k)) os

theorem callbacks_run {α : Type} [DecidableEq α] (ops : List (Op α)) : ∀ (s : State α) (ps : List Nat), Inv s ps →
    ∃ s' ps', s.run ops = some s' ∧ Inv s' ps' ∧ ps'.map (entry s'.heap) = callbacksDue (ps.map (entry s.heap)) ops := by
  induction ops with
  | nil => intro s ps hi; exact ⟨s, ps, rfl, hi, rfl⟩
  | cons o os ih =>
    intro s ps hi
    match o with
    | .add h k none => exact ih s ps hi
    | .add h k (some c) =>
      obtain ⟨s1, h1, h2, h3⟩ := add_spec hi h k c
      obtain ⟨s2, ps2, h4, h5, h6⟩ := ih s1 _ h2
      refine ⟨s2, ps2, ?_, h5, ?_⟩
      · unfold State.run State.op; dsimp only; rw [h1]; exact h4
      · rw [h6, h3]; rfl
    | .remove h k =>
      obtain ⟨s1, ps1, h1, h2, h3⟩ := remove_spec hi h k
      obtain ⟨s2, ps2, h4, h5, h6⟩ := ih s1 _ h2
      refine ⟨s2, ps2, ?_, h5, ?_⟩
      · unfold State.run State.op; dsimp only; rw [h1]; exact h4
      · rw [h6, h3]; rfl

/-- After any history of calls (none of which dereferences nil or fails to end), invoking runs exactly the callbacks due, each once and in order, and the
count is their number; if one panics, those before it have run and the others do not. -/
theorem C41_callbacks {α : Type} [DecidableEq α] (x : Node α) (ops : List (Op α)) :
    ∃ s, (init x).run ops = some s ∧ s.count = some (callbacksDue [] ops).length ∧
      (∀ panics, (∀ e ∈ callbacksDue [] ops, panics e.2.2 = false) → s.invoke panics = some ((callbacksDue [] ops).map (·.2.2))) ∧
      ∀ panics pre e post, callbacksDue [] ops = pre ++ e :: post → (∀ d ∈ pre, panics d.2.2 = false) → panics e.2.2 = true →
        s.invoke panics = some ((pre ++ [e]).map (·.2.2)) := by
  obtain ⟨s, ps, h1, h2, h3⟩ := callbacks_run ops (init x) [] ⟨rfl, List.nodup_nil, nofun, rfl⟩
  have hd : callbacksDue [] ops = ps.map (entry s.heap) := h3.symm
  refine ⟨s, h1, ?_, ?_, ?_⟩
  · unfold State.count
    rw [countLoop_spec ps s.size s.first h2.seg (length_le_size h2), hd, List.length_map]
  · intro panics hp
    obtain ⟨done, h4, h5, _⟩ := invokeLoop_spec panics ps s.size s.first h2.seg (length_le_size h2)
    unfold State.invoke
    rw [h4, h5, hd, List.map_map]
    · rfl
    · intro a ha
      exact hp (entry s.heap a) (by rw [hd]; exact List.mem_map_of_mem ha)
  · intro panics pre e post he hpre hpe
    obtain ⟨done, h4, _, h6⟩ := invokeLoop_spec panics ps s.size s.first h2.seg (length_le_size h2)
    rw [hd, List.map_eq_append_iff] at he
    obtain ⟨l1, l2, hl, hl1, hl2⟩ := he
    rw [List.map_eq_cons_iff] at hl2
    obtain ⟨a, as, hl3, ha, _⟩ := hl2
    subst hl3
    unfold State.invoke
    rw [h4, h6 l1 a as hl, ← hl1, ← ha, List.map_append, List.map_append, List.map_map]
    · rfl
    · intro b hb
      exact hpre (entry s.heap b) (by rw [← hl1]; exact List.mem_map_of_mem hb)
    · rw [← ha] at hpe; exact hpe

/-- Removing the middle, the last and an absent entry, and adding after that. -/
example : ((init (⟨0, 0, 0, none⟩ : Node Nat)).run
      [.add 1 1 (some 10), .add 1 2 (some 11), .add 1 1 (some 12), .add 2 2 none, .remove 1 2, .remove 7 7, .add 3 3 (some 13), .remove 3 3,
        .add 4 4 (some 14), .remove 1 1]).bind (·.invoke fun _ => false) = some [12, 14] := by decide

example : callbacksDue [] [Op.add 1 1 (some 10), .add 1 2 (some 11), .add 1 1 (some 12), .remove 1 1] = [(1, 2, 11), (1, 1, 12)] := by decide

end Zinx.Props
