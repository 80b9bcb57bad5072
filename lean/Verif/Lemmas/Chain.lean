import Verif.Spec.Chain

/-! # Lemmas about the interceptor chain -/

namespace Zinx.Chain

open Zinx

variable {W : Type}

theorem ExactlyOnce.atMostOnce : {c : Code W} → ExactlyOnce c → AtMostOnce c
  | .ret _, h => h.elim
  | .panic, h => h.elim
  | .act _ _, h => fun w => (h w).atMostOnce
  | .proceed _ _, h => h

theorem proceed_lt (is : List (Interceptor W)) (pos : Nat) (req : IcReq) (w : W) (h : pos < is.length) :
    (proceed is pos req w).trace =
      .enter pos req w :: (exec pos (fun q w' => proceed is (pos + 1) q w') (is[pos] req) w).trace := by
  rw [proceed]; simp [h]

theorem proceed_ge (is : List (Interceptor W)) (pos : Nat) (req : IcReq) (w : W) (h : ¬ pos < is.length) :
    proceed is pos req w = ⟨some req, w, []⟩ := by
  rw [proceed]; simp [h]

/-- The shape of a piece of trace produced by a chain of `n` interceptors from position `pos` on, the piece being entered (if at
all) by `enter pos req w`. Stated structurally for the induction. -/
inductive Good (n : Nat) : Nat → List (Event W) → Prop where
  | nil (p) : Good n p []
  | call (p q w t u) : p + 1 < n → Good n (p + 1) t → Good n p u →
      Good n p (.proceed p q w :: .enter (p + 1) q w :: (t ++ u))
  | fall (p q w u) : ¬ p + 1 < n → Good n p u → Good n p (.proceed p q w :: u)

theorem exec_good (n : Nat) (pos : Nat) (next : IcReq → W → Run W)
    (hlt : pos + 1 < n → ∀ q w, ∃ t, (next q w).trace = .enter (pos + 1) q w :: t ∧ Good n (pos + 1) t)
    (hge : ¬ pos + 1 < n → ∀ q w, (next q w).trace = []) :
    ∀ (c : Code W) (w : W), Good n pos (exec pos next c w).trace
  | .ret _, _ => .nil _
  | .panic, _ => .nil _
  | .act f k, w => exec_good n pos next hlt hge (k (f w)) (f w)
  | .proceed q k, w => by
    have ih := exec_good n pos next hlt hge (k (next q w).resp) (next q w).world
    simp only [exec]
    by_cases h : pos + 1 < n
    · obtain ⟨t, ht, hg⟩ := hlt h q w
      rw [ht]
      exact .call pos q w t _ h hg ih
    · rw [hge h q w]
      exact .fall pos q w _ h ih

theorem proceed_good (is : List (Interceptor W)) : ∀ (k pos : Nat), is.length - pos = k → pos < is.length →
    ∀ req w, ∃ t, (proceed is pos req w).trace = .enter pos req w :: t ∧ Good is.length pos t := by
  intro k
  induction k with
  | zero => intro pos h1 h2; omega
  | succ k ih =>
    intro pos h1 h2 req w
    refine ⟨_, proceed_lt is pos req w h2, ?_⟩
    apply exec_good
    · intro h q w'
      exact ih (pos + 1) (by omega) h q w'
    · intro h q w'
      rw [proceed_ge is _ _ _ h]

theorem Good.proceed_then_enter {n p : Nat} {t : List (Event W)} (hg : Good n p t) :
    ∀ i p' q w, t[i]? = some (.proceed p' q w) → p' + 1 < n → t[i + 1]? = some (.enter (p' + 1) q w) := by
  induction hg with
  | nil => simp
  | call p q w t u hlt h1 h2 ih1 ih2 =>
    intro i p' q' w' h hn
    match i with
    | 0 => simp only [List.getElem?_cons_zero, Option.some.injEq, Event.proceed.injEq] at h; obtain ⟨rfl, rfl, rfl⟩ := h; rfl
    | 1 => simp at h
    | i + 2 =>
      simp only [List.getElem?_cons_succ] at h ⊢
      by_cases hi : i < t.length
      · rw [List.getElem?_append_left hi] at h
        have := ih1 i p' q' w' h hn
        have hi' : i + 1 < t.length := by
          rcases Nat.lt_or_ge (i + 1) t.length with h' | h'
          · exact h'
          · rw [List.getElem?_eq_none h'] at this; simp at this
        rw [List.getElem?_append_left hi']; exact this
      · rw [List.getElem?_append_right (by omega)] at h ⊢
        have := ih2 _ p' q' w' h hn
        rw [← this]; congr 1; omega
  | fall p q w u hge h2 ih =>
    intro i p' q' w' h hn
    match i with
    | 0 => simp only [List.getElem?_cons_zero, Option.some.injEq, Event.proceed.injEq] at h; obtain ⟨rfl, rfl, rfl⟩ := h; exact absurd hn hge
    | i + 1 => simp only [List.getElem?_cons_succ] at h ⊢; exact ih i p' q' w' h hn

theorem Good.enter_after_proceed {n p : Nat} {t : List (Event W)} (hg : Good n p t) :
    ∀ i p' q w, t[i]? = some (.enter p' q w) →
      p < p' ∧ p' < n ∧ ∃ j, i = j + 1 ∧ t[j]? = some (.proceed (p' - 1) q w) := by
  induction hg with
  | nil => simp
  | call p q w t u hlt h1 h2 ih1 ih2 =>
    intro i p' q' w' h
    match i with
    | 0 => simp at h
    | 1 =>
      simp only [List.getElem?_cons_succ, List.getElem?_cons_zero, Option.some.injEq, Event.enter.injEq] at h
      obtain ⟨rfl, rfl, rfl⟩ := h
      exact ⟨by omega, hlt, 0, rfl, rfl⟩
    | i + 2 =>
      simp only [List.getElem?_cons_succ] at h
      by_cases hi : i < t.length
      · rw [List.getElem?_append_left hi] at h
        obtain ⟨h3, h4, j, rfl, hj⟩ := ih1 i p' q' w' h
        refine ⟨by omega, h4, j + 2, rfl, ?_⟩
        simp only [List.getElem?_cons_succ]
        rw [List.getElem?_append_left (by omega)]; exact hj
      · rw [List.getElem?_append_right (by omega)] at h
        obtain ⟨h3, h4, j, hji, hj⟩ := ih2 _ p' q' w' h
        refine ⟨h3, h4, j + t.length + 2, by omega, ?_⟩
        simp only [List.getElem?_cons_succ]
        rw [List.getElem?_append_right (by omega), ← hj]; congr 1; omega
  | fall p q w u hge h2 ih =>
    intro i p' q' w' h
    match i with
    | 0 => simp at h
    | i + 1 =>
      simp only [List.getElem?_cons_succ] at h
      obtain ⟨h3, h4, j, rfl, hj⟩ := ih i p' q' w' h
      exact ⟨h3, h4, j + 1, rfl, hj⟩

theorem Good.proceed_pos {n p : Nat} {t : List (Event W)} (hg : Good n p t) :
    ∀ (i p' : Nat) (q : IcReq) (w : W), t[i]? = some (.proceed p' q w) → p' = p ∨ ∃ j q' w', j < i ∧ t[j]? = some (.enter p' q' w') := by
  induction hg with
  | nil => simp
  | call p q w t u hlt h1 h2 ih1 ih2 =>
    intro i p' q' w' h
    match i with
    | 0 => simp only [List.getElem?_cons_zero, Option.some.injEq, Event.proceed.injEq] at h; exact .inl h.1.symm
    | 1 => simp at h
    | i + 2 =>
      simp only [List.getElem?_cons_succ] at h
      by_cases hi : i < t.length
      · rw [List.getElem?_append_left hi] at h
        rcases ih1 i p' q' w' h with rfl | ⟨j, q2, w2, h3, h4⟩
        · exact .inr ⟨1, q, w, by omega, rfl⟩
        · refine .inr ⟨j + 2, q2, w2, by omega, ?_⟩
          simp only [List.getElem?_cons_succ]
          rw [List.getElem?_append_left (by omega)]; exact h4
      · rw [List.getElem?_append_right (by omega)] at h
        rcases ih2 _ p' q' w' h with rfl | ⟨j, q2, w2, h3, h4⟩
        · exact .inl rfl
        · refine .inr ⟨j + t.length + 2, q2, w2, by omega, ?_⟩
          simp only [List.getElem?_cons_succ]
          rw [List.getElem?_append_right (by omega), ← h4]; congr 1; omega
  | fall p q w u hge h2 ih =>
    intro i p' q' w' h
    match i with
    | 0 => simp only [List.getElem?_cons_zero, Option.some.injEq, Event.proceed.injEq] at h; exact .inl h.1.symm
    | i + 1 =>
      simp only [List.getElem?_cons_succ] at h
      rcases ih i p' q' w' h with h' | ⟨j, q2, w2, h3, h4⟩
      · exact .inl h'
      · exact .inr ⟨j + 1, q2, w2, by omega, h4⟩

/-! ### Interceptors that proceed at most / exactly once -/

theorem exec_noProceed (pos : Nat) (next : IcReq → W → Run W) :
    ∀ (c : Code W) (w : W), NoProceed c → (exec pos next c w).trace = []
  | .ret _, _, _ => rfl
  | .panic, _, _ => rfl
  | .act f k, w, h => exec_noProceed pos next (k (f w)) (f w) (h w)
  | .proceed _ _, _, h => h.elim

theorem exec_atMostOnce (pos : Nat) (next : IcReq → W → Run W) :
    ∀ (c : Code W) (w : W), AtMostOnce c →
      enters (exec pos next c w).trace = [] ∨ ∃ q w', enters (exec pos next c w).trace = enters (next q w').trace
  | .ret _, _, _ => .inl rfl
  | .panic, _, _ => .inl rfl
  | .act f k, w, h => exec_atMostOnce pos next (k (f w)) (f w) (h w)
  | .proceed q k, w, h => by
    refine .inr ⟨q, w, ?_⟩
    simp only [exec, exec_noProceed pos next _ _ (h _), List.append_nil]
    rfl

theorem exec_exactlyOnce (pos : Nat) (next : IcReq → W → Run W) :
    ∀ (c : Code W) (w : W), ExactlyOnce c → ∃ q w', enters (exec pos next c w).trace = enters (next q w').trace
  | .ret _, _, h => h.elim
  | .panic, _, h => h.elim
  | .act f k, w, h => exec_exactlyOnce pos next (k (f w)) (f w) (h w)
  | .proceed q k, w, h => by
    refine ⟨q, w, ?_⟩
    simp only [exec, exec_noProceed pos next _ _ (h _), List.append_nil]
    rfl

theorem enters_atMostOnce (is : List (Interceptor W)) (h : ∀ i ∈ is, ∀ q, AtMostOnce (i q)) :
    ∀ (k pos : Nat), is.length - pos = k → ∀ req w, ∃ m, pos + m ≤ max pos is.length ∧
      enters (proceed is pos req w).trace = List.range' pos m := by
  intro k
  induction k with
  | zero =>
    intro pos h1 req w
    refine ⟨0, by omega, ?_⟩
    rw [proceed_ge is _ _ _ (by omega)]; rfl
  | succ k ih =>
    intro pos h1 req w
    have hlt : pos < is.length := by omega
    rw [proceed_lt is pos req w hlt]
    rcases exec_atMostOnce pos (fun q w' => proceed is (pos + 1) q w') (is[pos] req) w
      (h _ (List.getElem_mem hlt) req) with h' | ⟨q, w', h'⟩
    · refine ⟨1, by omega, ?_⟩
      show pos :: enters _ = _
      rw [h']; rfl
    · obtain ⟨m, hm, hm'⟩ := ih (pos + 1) (by omega) q w'
      refine ⟨m + 1, by omega, ?_⟩
      show pos :: enters _ = _
      rw [h', hm', List.range'_succ]

theorem enters_exactlyOnce (is : List (Interceptor W)) (h : ∀ i ∈ is, ∀ q, ExactlyOnce (i q)) :
    ∀ (k pos : Nat), is.length - pos = k → ∀ req w,
      enters (proceed is pos req w).trace = List.range' pos (is.length - pos) := by
  intro k
  induction k with
  | zero =>
    intro pos h1 req w
    rw [proceed_ge is _ _ _ (by omega), h1]; rfl
  | succ k ih =>
    intro pos h1 req w
    have hlt : pos < is.length := by omega
    rw [proceed_lt is pos req w hlt]
    obtain ⟨q, w', h'⟩ := exec_exactlyOnce pos (fun q w' => proceed is (pos + 1) q w') (is[pos] req) w
      (h _ (List.getElem_mem hlt) req)
    show pos :: enters _ = _
    rw [h', ih (pos + 1) (by omega) q w']
    have : is.length - pos = (is.length - (pos + 1)) + 1 := by omega
    rw [this, List.range'_succ]

/-! ### The builder -/

theorem Builder.interceptors_eq (b : Builder W) : b.interceptors = b.head.toList ++ b.body ++ b.tail.toList := by
  unfold Builder.interceptors
  cases b.head <;> cases b.tail <;> cases b.body <;> simp

end Zinx.Chain
