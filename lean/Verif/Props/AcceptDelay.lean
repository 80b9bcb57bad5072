import Verif.Model.AcceptDelay

/-! # C62: accept back-off -/

namespace Zinx.Props

open Zinx Zinx.AcceptDelay

/-- `n+1` doublings of 5 ms, capped. -/
theorem up_closed (n : Nat) : (List.replicate (n + 1) Event.failure).foldl AcceptDelay.next 0 = min (5000000 * 2 ^ n) 1000000000 := by
  induction n with
  | zero => decide
  | succ n ih =>
    rw [List.replicate_succ', List.foldl_append, ih]
    show up (min (5000000 * 2 ^ n) 1000000000) = _
    have p1 : (1 : Int) ≤ 2 ^ n := by
      have : (0 : Int) < 2 ^ n := Int.pow_pos (by decide)
      omega
    have p2 : (2 : Int) ^ (n + 1) = 2 * 2 ^ n := by rw [Int.pow_succ]; omega
    rw [p2]
    obtain ⟨x, hx⟩ : ∃ x : Int, x = 2 ^ n := ⟨_, rfl⟩
    rw [← hx] at p1 ⊢
    unfold up
    have h0 : min (5000000 * x) 1000000000 ≠ 0 := by omega
    rw [if_neg h0]
    have hw : wrap64 (2 * min (5000000 * x) 1000000000) = 2 * min (5000000 * x) 1000000000 := by
      unfold wrap64
      rw [Int.bmod_eq_of_le]
      · omega
      · omega
    simp only [hw]
    unfold maxDelay
    split <;> omega

/-- **C62.** For every history: after `n ≥ 1` failures in a row the loop sleeps min(5 ms · 2^(n-1), 1 s); a success resets the delay to nothing. -/
theorem C62_backoff (es : List Event) (n : Nat) (h : es = [] ∨ ∃ es', es = es' ++ [.success]) :
    after es = 0 ∧ after (es ++ List.replicate (n + 1) .failure) = min (5000000 * 2 ^ n) 1000000000 := by
  have h0 : after es = 0 := by
    rcases h with rfl | ⟨es', rfl⟩
    · rfl
    · unfold after
      rw [List.foldl_append]; rfl
  refine ⟨h0, ?_⟩
  unfold after at h0 ⊢
  rw [List.foldl_append, h0]
  exact up_closed n

/-- Every history falls under C62: it is a history that is empty or ends with a success, followed by failures only. -/
theorem C62_every_history (es : List Event) :
    ∃ es' n, es = es' ++ List.replicate n .failure ∧ (es' = [] ∨ ∃ es'', es' = es'' ++ [.success]) := by
  have key : ∀ es : List Event, ∃ es' n, es.reverse = es' ++ List.replicate n .failure ∧ (es' = [] ∨ ∃ es'', es' = es'' ++ [.success]) := by
    intro es
    induction es with
    | nil => exact ⟨[], 0, rfl, .inl rfl⟩
    | cons e es ih =>
      obtain ⟨a, n, h1, h2⟩ := ih
      cases e with
      | success => exact ⟨es.reverse ++ [.success], 0, by simp, .inr ⟨_, rfl⟩⟩
      | failure =>
        refine ⟨a, n + 1, ?_, h2⟩
        rw [List.reverse_cons, h1, List.replicate_succ', List.append_assoc]
  have := key es.reverse
  rw [List.reverse_reverse] at this
  exact this

/-- Nine failures reach the cap; a success in between starts again at 5 ms. -/
example : after (List.replicate 8 .failure) = 640000000 ∧ after (List.replicate 9 .failure) = 1000000000 ∧
    after ([.failure, .failure, .success] ++ List.replicate 1 .failure) = 5000000 := by decide

end Zinx.Props
