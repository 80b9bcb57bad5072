import Verif.Spec.Request

/-! # Lemmas: stage machine and handler lists -/

namespace Zinx.Request

open Zinx

variable {W : Type}

/-! ## Stages -/

theorem foldl_applyCtl (ops : List Ctl) (p : Int × Bool) :
    (ops.foldl applyCtl p) =
      match ops.getLast? with
      | none => p
      | some .abort => (3, (ops.foldl applyCtl p).2)
      | some (.goto t) => (t, false) := by
  rcases List.eq_nil_or_concat ops with rfl | ⟨l, x, rfl⟩
  · rfl
  · simp only [List.concat_eq_append, List.foldl_append, List.foldl_cons, List.foldl_nil, List.getLast?_append, List.getLast?_singleton, Option.some_or]
    cases x <;> simp [applyCtl]

theorem callIter_stage (r : Router W) (s : Nat) (hs : s < 3) (w : W) (ran : List Nat) :
    callIter r { steps := s, needNext := true, world := w, ran := ran, status := .running } =
      if (r s w).panics then
        { steps := ((r s w).ops.foldl applyCtl ((s : Int), true)).1, needNext := ((r s w).ops.foldl applyCtl ((s : Int), true)).2,
          world := (r s w).world, ran := ran ++ [s], status := .panicked }
      else
        { steps := (next ((r s w).ops.foldl applyCtl ((s : Int), true))).1,
          needNext := (next ((r s w).ops.foldl applyCtl ((s : Int), true))).2,
          world := (r s w).world, ran := ran ++ [s], status := .running } := by
  unfold callIter
  simp only
  rw [if_pos (by omega), if_pos (by omega)]
  rfl

/-- Model state `st` corresponds to specification state (`cur`, world, stages run). -/
def Corr (st : CallState W) (cur : Option Nat) (w : W) (ran : List Nat) : Prop :=
  st.world = w ∧ st.ran = ran ∧
  match cur with
  | some s => s < 3 ∧ st.status = .running ∧ st.needNext = true ∧ (st.steps = s ∨ (st.steps < 0 ∧ s = 0))
  | none => (st.status = .running ∧ 3 ≤ st.steps) ∨ (st.status = .returned ∧ st.steps = 0) ∨ st.status = .panicked

theorem corr_stage (r : Router W) (s : Nat) (hs : s < 3) (w : W) (ran : List Nat) :
    Corr (callIter r { steps := s, needNext := true, world := w, ran := ran, status := .running })
      (nextStage s (r s w)) (r s w).world (ran ++ [s]) := by
  rw [callIter_stage r s hs w ran]
  unfold nextStage
  by_cases hp : (r s w).panics
  · simp [hp, Corr]
  · rw [if_neg hp, if_neg hp]
    rw [foldl_applyCtl]
    split
    · rename_i h
      rw [h]
      simp only [next]
      by_cases h3 : s + 1 < 3
      · rw [if_pos h3]
        refine ⟨rfl, rfl, h3, rfl, by simp, .inl ?_⟩
        simp
      · rw [if_neg h3]
        refine ⟨rfl, rfl, .inl ⟨rfl, ?_⟩⟩
        simp; omega
    · rename_i h
      rw [h]
      refine ⟨rfl, rfl, .inl ⟨rfl, ?_⟩⟩
      simp only [next]
      split <;> simp
    · rename_i t h
      rw [h]
      simp only [next, ↓reduceIte]
      by_cases h1 : 3 ≤ t
      · rw [if_pos h1]; exact ⟨rfl, rfl, .inl ⟨rfl, h1⟩⟩
      · rw [if_neg h1]
        by_cases h2 : t < 0
        · rw [if_pos h2]; exact ⟨rfl, rfl, by omega, rfl, rfl, .inr ⟨h2, rfl⟩⟩
        · rw [if_neg h2]; exact ⟨rfl, rfl, by omega, rfl, rfl, .inl (by show t = _; omega)⟩

theorem callIters_add (r : Router W) (n m : Nat) (st : CallState W) :
    callIters r (n + m) st = callIters r m (callIters r n st) := by
  induction n generalizing st with
  | zero => rw [Nat.zero_add]; rfl
  | succ n ih => rw [Nat.succ_add]; exact ih _

theorem callIters_succ' (r : Router W) (n : Nat) (st : CallState W) :
    callIters r (n + 1) st = callIter r (callIters r n st) := callIters_add r n 1 st

/-- Silent iterations bring a negative stage number up to zero. -/
theorem settle (r : Router W) (k : Nat) (w : W) (ran : List Nat) :
    callIters r k { steps := -(k : Int), needNext := true, world := w, ran := ran, status := .running } =
      { steps := 0, needNext := true, world := w, ran := ran, status := .running } := by
  induction k with
  | zero => rfl
  | succ k ih =>
    rw [← ih]
    show callIters r k (callIter r _) = _
    congr 1
    unfold callIter
    simp only
    rw [if_pos (by omega), if_neg (by omega)]
    simp only [next]
    rw [if_neg (by simp)]
    simp; omega

theorem corr_settle (r : Router W) {st : CallState W} {s : Nat} {w : W} {ran : List Nat} (h : Corr st (some s) w ran) :
    ∃ k, callIters r k st = { steps := s, needNext := true, world := w, ran := ran, status := .running } := by
  obtain ⟨h1, h2, h3, h4, h5, h6⟩ := h
  obtain ⟨st1, st2, st3, st4, st5⟩ := st
  simp only at h1 h2 h4 h5 h6
  subst h1 h2 h4 h5
  rcases h6 with h6 | ⟨h6, rfl⟩
  · exact ⟨0, by subst h6; rfl⟩
  · refine ⟨(-st1).toNat, ?_⟩
    have := settle r (-st1).toNat st3 st4
    have e : -(((-st1).toNat : Nat) : Int) = st1 := by omega
    rw [e] at this
    exact this

/-- Completeness: the model gets as far as the specification. -/
theorem stages_reached (r : Router W) : ∀ (m : Nat) (cur : Option Nat) (w : W) (ran : List Nat) (st : CallState W),
    Corr st cur w ran → ∃ n, Corr (callIters r n st) (stages r m cur w).2.1 (stages r m cur w).2.2 (ran ++ (stages r m cur w).1) := by
  intro m
  induction m with
  | zero => intro cur w ran st h; exact ⟨0, by simpa [stages, callIters] using h⟩
  | succ m ih =>
    intro cur w ran st h
    cases cur with
    | none => exact ⟨0, by simpa [stages, callIters] using h⟩
    | some s =>
      obtain ⟨k, hk⟩ := corr_settle r h
      have h1 := corr_stage r s h.2.2.1 w ran
      obtain ⟨n, hn⟩ := ih _ _ _ _ h1
      refine ⟨k + (1 + n), ?_⟩
      rw [callIters_add, callIters_add, hk]
      simpa [callIters, stages, List.append_assoc] using hn

/-- Soundness: the model never gets anywhere else. -/
theorem stages_sound (r : Router W) (st : CallState W) (cur : Option Nat) (w : W) (ran : List Nat) (h : Corr st cur w ran) :
    ∀ n, ∃ m, m ≤ n ∧
      Corr (callIters r n st) (stages r m cur w).2.1 (stages r m cur w).2.2 (ran ++ (stages r m cur w).1) := by
  intro n
  induction n generalizing st cur w ran with
  | zero => exact ⟨0, by omega, by simpa [stages, callIters] using h⟩
  | succ n ih =>
    show ∃ m, _ ∧ Corr (callIters r n (callIter r st)) _ _ _
    cases cur with
    | none =>
      have h' : Corr (callIter r st) none w ran := by
        obtain ⟨h1, h2, h3⟩ := h
        unfold callIter
        rcases h3 with ⟨h3, h4⟩ | ⟨h3, h4⟩ | h3
        · simp only [h3]
          rw [if_neg (by omega)]
          exact ⟨h1, h2, .inr (.inl ⟨rfl, rfl⟩)⟩
        · simp only [h3]; exact ⟨h1, h2, .inr (.inl ⟨h3, h4⟩)⟩
        · simp only [h3]; exact ⟨h1, h2, .inr (.inr h3)⟩
      obtain ⟨m, hm, hc⟩ := ih _ _ _ _ h'
      exact ⟨m, by omega, hc⟩
    | some s =>
      have h0 := h
      obtain ⟨h1, h2, h3, h4, h5, h6⟩ := h0
      obtain ⟨st1, st2, st3, st4, st5⟩ := st
      simp only at h1 h2 h4 h5 h6
      subst h1 h2 h4 h5
      rcases h6 with h6 | ⟨h6, rfl⟩
      · subst h6
        obtain ⟨m, hm, hc⟩ := ih _ _ _ _ (corr_stage r s h3 st3 st4)
        exact ⟨m + 1, by omega, by simpa [stages, List.append_assoc] using hc⟩
      · have h' : Corr (callIter r { steps := st1, needNext := true, world := st3, ran := st4, status := .running }) (some 0) st3 st4 := by
          unfold callIter
          simp only
          rw [if_pos (by omega), if_neg (by omega)]
          simp only [next]
          rw [if_neg (by simp)]
          refine ⟨rfl, rfl, by omega, rfl, rfl, ?_⟩
          by_cases he : st1 + 1 = 0
          · exact .inl (by simpa using he)
          · exact .inr ⟨by show st1 + 1 < 0; omega, rfl⟩
        obtain ⟨m, hm, hc⟩ := ih _ _ _ _ h'
        exact ⟨m, by omega, hc⟩

/-! ## Handler lists -/

theorem int8_small {x : Int} (h1 : -128 ≤ x) (h2 : x ≤ 127) : int8 x = x := by
  unfold int8; rw [Int.bmod_def]; omega

theorem numbered_drop (hs : List (Handler W)) : ∀ (k n : Nat), (numbered k hs).drop n = numbered (k + n) (hs.drop n) := by
  induction hs with
  | nil => intro k n; simp [numbered]
  | cons h hs ih =>
    intro k n
    cases n with
    | zero => rfl
    | succ n => simp only [numbered, List.drop_succ_cons]; rw [ih]; congr 1; omega

theorem numbered_length (hs : List (Handler W)) : ∀ k, (numbered k hs).length = hs.length := by
  induction hs with
  | nil => intro k; rfl
  | cons h hs ih => intro k; simp [numbered, ih]

theorem numbered_fst (hs : List (Handler W)) : ∀ k, (numbered k hs).map Prod.fst = List.range' k hs.length := by
  induction hs with
  | nil => intro k; rfl
  | cons h hs ih => intro k; simp [numbered, ih, List.range'_succ]

/-- Pending handlers when the request's index is `i` inside a handler. -/
def pending (hs : List (Handler W)) (i : Int) : List (Nat × Handler W) := (numbered 0 hs).drop (i + 1).toNat

theorem pending_cons (hs : List (Handler W)) (i : Nat) (h : i < hs.length) :
    pending hs ((i : Int) - 1) = (i, hs[i]) :: pending hs i := by
  unfold pending
  have e1 : ((i : Int) - 1 + 1).toNat = i := by omega
  have e2 : ((i : Int) + 1).toNat = i + 1 := by omega
  rw [e1, e2, numbered_drop, numbered_drop, List.drop_eq_getElem_cons h]
  simp [numbered]

theorem pending_nil (hs : List (Handler W)) (i : Int) (h : (hs.length : Int) ≤ i + 1) : pending hs i = [] := by
  unfold pending
  rw [List.drop_eq_nil_iff, numbered_length]; omega

theorem pending_length (hs : List (Handler W)) (i : Int) : (pending hs i).length = hs.length - (i + 1).toNat := by
  unfold pending; rw [List.length_drop, numbered_length]

/-- How a model result matches a specification result. -/
structure Match (hs : List (Handler W)) (m : SlicesRun W) (s : SpecRun W) : Prop where
  panicked : m.panicked = s.panicked
  world : m.world = s.world
  trace : m.trace = s.trace
  index : -1 ≤ m.index
  rest : s.rest = pending hs m.index

theorem specLoop_nil (n : Nat) (w : W) : specLoop n [] w = ⟨false, [], w, []⟩ := by cases n <;> rfl

theorem exec_match (hs : List (Handler W)) (β : Nat) (fuel : Nat) (a : Nat)
    (nxtM : Int → W → Option (SlicesRun W)) (nxtS : List (Nat × Handler W) → W → SpecRun W)
    (hnext : ∀ (i : Int) (w : W) (N : Nat), -1 ≤ i → hs.length - (i + 1).toNat ≤ fuel →
      i + (a : Int) + 1 ≤ hs.length + N + β → a ≤ N →
      hs.length + N + nextCalls (nxtS (pending hs i) w).trace + β ≤ 127 →
      (HEvent.abort ∈ (nxtS (pending hs i) w).trace → β = 1) →
      ∃ m, nxtM i w = some m ∧ Match hs m (nxtS (pending hs i) w) ∧
        m.index + a ≤ hs.length + N + nextCalls (nxtS (pending hs i) w).trace + β ∧
        i ≤ m.index) :
    ∀ (c : Handler W) (i : Int) (w : W) (N : Nat), -1 ≤ i → hs.length - (i + 1).toNat ≤ fuel → 1 ≤ a →
      i + (a : Int) ≤ hs.length + N + β → a ≤ N + 1 →
      hs.length + N + nextCalls (specExec nxtS c (pending hs i) w).trace + β ≤ 127 →
      (HEvent.abort ∈ (specExec nxtS c (pending hs i) w).trace → β = 1) →
      ∃ m, execHandler hs.length nxtM c i w = some m ∧ Match hs m (specExec nxtS c (pending hs i) w) ∧
        m.index + a ≤ hs.length + N + nextCalls (specExec nxtS c (pending hs i) w).trace + β ∧
        (i ≤ m.index ∨ (hs.length : Int) ≤ m.index)
  | .ret, i, w, N, h1, h2, h3, h4, h5, h6, h7 => by
    refine ⟨⟨false, i, w, []⟩, rfl, ⟨rfl, rfl, rfl, h1, rfl⟩, ?_, .inl (by simp)⟩
    simp [specExec, nextCalls]; omega
  | .panic, i, w, N, h1, h2, h3, h4, h5, h6, h7 => by
    refine ⟨⟨true, i, w, [.panic]⟩, rfl, ⟨rfl, rfl, rfl, h1, rfl⟩, ?_, .inl (by simp)⟩
    simp [specExec, nextCalls]; omega
  | .act f k, i, w, N, h1, h2, h3, h4, h5, h6, h7 =>
    exec_match hs β fuel a nxtM nxtS hnext (k (f w)) i (f w) N h1 h2 h3 h4 h5 h6 h7
  | .abort k, i, w, N, h1, h2, h3, h4, h5, h6, h7 => by
    have hβ : β = 1 := h7 (by simp [specExec])
    have hp : ([] : List (Nat × Handler W)) = pending hs (hs.length : Int) := (pending_nil hs _ (by omega)).symm
    simp only [specExec, nextCalls] at h6 h7
    rw [hp] at h6 h7
    have h6' : hs.length + N + nextCalls (specExec nxtS k (pending hs (hs.length : Int)) w).trace + β ≤ 127 := by
      rw [List.count_cons_of_ne (by simp)] at h6; exact h6
    have hlen : int8 hs.length = (hs.length : Int) := int8_small (by omega) (by omega)
    obtain ⟨m, hm1, hm2, hm3, hm4⟩ := exec_match hs β fuel a nxtM nxtS hnext k (hs.length : Int) w N (by omega) (by omega) h3
      (by omega) h5 h6' (fun h => by omega)
    refine ⟨{ m with trace := .abort :: m.trace }, ?_, ?_, ?_, ?_⟩
    · simp only [execHandler, hlen, hm1]
    · simp only [specExec]
      rw [hp]
      exact ⟨hm2.panicked, hm2.world, by simp [hm2.trace], hm2.index, hm2.rest⟩
    · simp only [specExec, nextCalls]
      rw [hp, List.count_cons_of_ne (by simp)]
      exact hm3
    · right; rcases hm4 with h | h <;> exact h
  | .next k, i, w, N, h1, h2, h3, h4, h5, h6, h7 => by
    simp only [specExec] at h6 h7
    simp only [specExec]
    generalize hA : nxtS (pending hs i) w = A at *
    have hcount : nextCalls (HEvent.next :: (A.trace ++ .resume A.panicked :: (specExec nxtS (k A.panicked) A.rest A.world).trace)) =
        1 + nextCalls A.trace + nextCalls (specExec nxtS (k A.panicked) A.rest A.world).trace := by
      simp only [nextCalls, List.count_cons_self, List.count_append]
      rw [List.count_cons_of_ne (by simp)]; omega
    rw [hcount] at h6 ⊢
    have := hnext i w (N + 1) h1 h2 (by omega) (by omega) (by rw [hA]; omega)
      (by rw [hA]; intro h; exact h7 (by simp [h]))
    rw [hA] at this
    obtain ⟨m, hm1, hm2, hm3, hm4⟩ := this
    have hr : A.rest = pending hs m.index := hm2.rest
    rw [hr] at h6 h7 ⊢
    obtain ⟨m', hm1', hm2', hm3', hm4'⟩ := exec_match hs β fuel a nxtM nxtS hnext (k A.panicked) m.index A.world
      (N + 1 + nextCalls A.trace) hm2.index (by omega) h3 (by omega) (by omega) (by omega)
      (fun h => h7 (by simp [h]))
    refine ⟨{ m' with trace := .next :: (m.trace ++ .resume m.panicked :: m'.trace) }, ?_, ?_, ?_, ?_⟩
    · simp only [execHandler, hm1]
      rw [hm2.panicked, hm2.world, hm1']
    · exact ⟨hm2'.panicked, hm2'.world, by simp [hm2'.trace, hm2.trace, hm2.panicked], hm2'.index, hm2'.rest⟩
    · simp only; omega
    · rcases hm4' with h | h
      · exact .inl (by simp only; omega)
      · exact .inr h

theorem slicesLoop_panic {hs : List (Handler W)} {fuel j : Nat} {w : W} {a : SlicesRun W} (hj : j < hs.length)
    (hl : int8 hs.length = (hs.length : Int))
    (he : execHandler hs.length (fun j w' => slicesLoop hs fuel (int8 (j + 1)) w') hs[j] (j : Int) w = some a)
    (hp : a.panicked = true) : slicesLoop hs (fuel + 1) (j : Int) w = some { a with trace := .start j :: a.trace } := by
  rw [slicesLoop, hl, if_pos (by omega), if_neg (by omega)]
  simp only [Int.toNat_natCast, List.getElem?_eq_getElem hj, he, hp, if_true]

theorem slicesLoop_ok {hs : List (Handler W)} {fuel j : Nat} {w : W} {a b : SlicesRun W} (hj : j < hs.length)
    (hl : int8 hs.length = (hs.length : Int))
    (he : execHandler hs.length (fun j w' => slicesLoop hs fuel (int8 (j + 1)) w') hs[j] (j : Int) w = some a)
    (hp : ¬ a.panicked = true) (hb : slicesLoop hs fuel (int8 (a.index + 1)) a.world = some b) :
    slicesLoop hs (fuel + 1) (j : Int) w = some { b with trace := .start j :: (a.trace ++ b.trace) } := by
  rw [slicesLoop, hl, if_pos (by omega), if_neg (by omega)]
  simp only [Int.toNat_natCast, List.getElem?_eq_getElem hj, he, hp, hb]
  simp

theorem loop_match (hs : List (Handler W)) (β : Nat) :
    ∀ (n : Nat) (i : Int) (w : W) (N a : Nat), -1 ≤ i → hs.length - (i + 1).toNat ≤ n →
      i + (a : Int) + 1 ≤ hs.length + N + β → a ≤ N →
      hs.length + N + nextCalls (specLoop n (pending hs i) w).trace + β ≤ 127 →
      (HEvent.abort ∈ (specLoop n (pending hs i) w).trace → β = 1) →
      ∃ m, slicesLoop hs (n + 1) (int8 (i + 1)) w = some m ∧ Match hs m (specLoop n (pending hs i) w) ∧
        m.index + a ≤ hs.length + N + nextCalls (specLoop n (pending hs i) w).trace + β ∧ i ≤ m.index := by
  intro n
  induction n with
  | zero =>
    intro i w N a h1 h2 h3 h4 h5 h6
    have hp : pending hs i = [] := pending_nil hs i (by omega)
    rw [hp] at h5 h6 ⊢
    have h8 : int8 (i + 1) = i + 1 := int8_small (by omega) (by omega)
    have h9 : int8 hs.length = (hs.length : Int) := int8_small (by omega) (by omega)
    refine ⟨⟨false, i + 1, w, []⟩, ?_, ⟨rfl, rfl, rfl, by simp; omega, ?_⟩, ?_, by simp; omega⟩
    · simp only [slicesLoop, h8, h9]
      rw [if_neg (by omega)]
    · exact (pending_nil hs _ (by show (hs.length : Int) ≤ i + 1 + 1; omega)).symm
    · simp [specLoop, nextCalls]; omega
  | succ n ih =>
    intro i w N a h1 h2 h3 h4 h5 h6
    have h8 : int8 (i + 1) = i + 1 := int8_small (by omega) (by omega)
    have h9 : int8 hs.length = (hs.length : Int) := int8_small (by omega) (by omega)
    by_cases hend : (hs.length : Int) ≤ i + 1
    · have hp : pending hs i = [] := pending_nil hs i hend
      rw [hp] at h5 h6 ⊢
      refine ⟨⟨false, i + 1, w, []⟩, ?_, ⟨rfl, rfl, rfl, by simp; omega, ?_⟩, ?_, by simp; omega⟩
      · simp only [slicesLoop, h8, h9]
        rw [if_neg (by omega)]
      · rw [specLoop_nil]; exact (pending_nil hs _ (by simp; omega)).symm
      · simp [specLoop_nil, nextCalls]; omega
    · obtain ⟨j, hj⟩ : ∃ j : Nat, i + 1 = j := ⟨(i + 1).toNat, by omega⟩
      have hjl : j < hs.length := by omega
      have hi : i = (j : Int) - 1 := by omega
      have hpc : pending hs i = (j, hs[j]) :: pending hs j := by rw [hi]; exact pending_cons hs j hjl
      rw [hpc] at h5 h6 ⊢
      simp only [specLoop] at h5 h6 ⊢
      -- the handler body
      have hnext : ∀ (i : Int) (w : W) (N : Nat), -1 ≤ i → hs.length - (i + 1).toNat ≤ n →
          i + ((a + 1 : Nat) : Int) + 1 ≤ hs.length + N + β → a + 1 ≤ N →
          hs.length + N + nextCalls (specLoop n (pending hs i) w).trace + β ≤ 127 →
          (HEvent.abort ∈ (specLoop n (pending hs i) w).trace → β = 1) →
          ∃ m, (fun j w' => slicesLoop hs (n + 1) (int8 (j + 1)) w') i w = some m ∧ Match hs m (specLoop n (pending hs i) w) ∧
            m.index + ((a + 1 : Nat) : Int) ≤ hs.length + N + nextCalls (specLoop n (pending hs i) w).trace + β ∧ i ≤ m.index :=
        fun i w N g1 g2 g3 g4 g5 g6 => ih i w N (a + 1) g1 g2 g3 g4 g5 g6
      have hcnt : nextCalls (specExec (specLoop n) hs[j] (pending hs j) w).trace ≤
          nextCalls (if (specExec (specLoop n) hs[j] (pending hs j) w).panicked then
              { specExec (specLoop n) hs[j] (pending hs j) w with
                trace := .start j :: (specExec (specLoop n) hs[j] (pending hs j) w).trace }
            else
              { specLoop n (specExec (specLoop n) hs[j] (pending hs j) w).rest (specExec (specLoop n) hs[j] (pending hs j) w).world with
                trace := .start j :: ((specExec (specLoop n) hs[j] (pending hs j) w).trace ++
                  (specLoop n (specExec (specLoop n) hs[j] (pending hs j) w).rest
                    (specExec (specLoop n) hs[j] (pending hs j) w).world).trace) } : SpecRun W).trace := by
        split
        · simp [nextCalls, List.count_cons_of_ne]
        · simp [nextCalls, List.count_cons_of_ne, List.count_append]
      dsimp only at hcnt
      obtain ⟨m, hm1, hm2, hm3, hm4⟩ := exec_match hs β n (a + 1) _ (specLoop n) hnext hs[j] (j : Int) w N (by omega)
        (by omega) (by omega) (by omega) (by omega) (by omega)
        (fun h => h6 (by split <;> simp [h]))
      generalize hA : specExec (specLoop n) hs[j] (pending hs j) w = A at *
      by_cases hpan : A.panicked
      · rw [if_pos hpan] at h5 h6 ⊢
        refine ⟨{ m with trace := .start j :: m.trace }, ?_, ?_, ?_, ?_⟩
        · rw [h8, hj]
          exact slicesLoop_panic hjl h9 hm1 (by rw [hm2.panicked]; exact hpan)
        · exact ⟨hm2.panicked, hm2.world, by simp [hm2.trace], hm2.index, hm2.rest⟩
        · simp only [nextCalls] at hm3 ⊢
          rw [List.count_cons_of_ne (by simp)]; omega
        · simp only; rcases hm4 with h | h <;> omega
      · rw [if_neg hpan] at h5 h6 hcnt ⊢
        have hcount : nextCalls (HEvent.start j :: (A.trace ++ (specLoop n A.rest A.world).trace)) =
            nextCalls A.trace + nextCalls (specLoop n A.rest A.world).trace := by
          simp only [nextCalls]
          rw [List.count_cons_of_ne (by simp), List.count_append]
        simp only at h5 h6
        rw [hcount] at h5 
        simp only
        rw [hcount]
        rw [hm2.rest] at h5 h6 ⊢
        have hge : (j : Int) ≤ m.index := by rcases hm4 with h | h <;> omega
        obtain ⟨m', hm1', hm2', hm3', hm4'⟩ := ih m.index A.world (N + nextCalls A.trace) a hm2.index (by omega) (by omega)
          (by omega) (by omega) (fun h => h6 (by simp [h]))
        refine ⟨{ m' with trace := .start j :: (m.trace ++ m'.trace) }, ?_, ?_, ?_, ?_⟩
        · rw [h8, hj]
          exact slicesLoop_ok hjl h9 hm1 (by rw [hm2.panicked]; exact hpan) (by rw [hm2.world]; exact hm1')
        · exact ⟨hm2'.panicked, hm2'.world, by simp [hm2'.trace, hm2.trace], hm2'.index, hm2'.rest⟩
        · simp only; omega
        · simp only; omega

/-! ### Order of starts in the specification -/

/-- What a specification run does to the pending list: it starts the first `m` of them; unless it aborts the others stay
pending; after an `Abort` or a regular return from `Next` nothing is started and nothing is pending. -/
structure Ordered (rest : List (Nat × Handler W)) (r : SpecRun W) : Prop where
  started : ∃ m, m ≤ rest.length ∧ starts r.trace = (rest.take m).map Prod.fst ∧
    (HEvent.abort ∉ r.trace → r.rest = rest.drop m)
  mark : ∀ y, y = .abort ∨ y = .resume false → ∀ u v, r.trace = u ++ y :: v → starts v = [] ∧ r.rest = []
  complete : ∀ u v, r.trace = u ++ .resume false :: v → HEvent.abort ∉ u → starts u = rest.map Prod.fst

theorem starts_append (a b : List HEvent) : starts (a ++ b) = starts a ++ starts b := by simp [starts]

theorem Ordered.abortRest {rest : List (Nat × Handler W)} {r : SpecRun W} (h : Ordered rest r) (ha : HEvent.abort ∈ r.trace) :
    r.rest = [] := by
  obtain ⟨u, v, huv⟩ := List.append_of_mem ha
  exact (h.mark _ (.inl rfl) u v huv).2

theorem Ordered.nil_starts {r : SpecRun W} (h : Ordered [] r) : starts r.trace = [] ∧ r.rest = [] := by
  obtain ⟨m, _, h2, h3⟩ := h.started
  refine ⟨by simpa using h2, ?_⟩
  by_cases ha : HEvent.abort ∈ r.trace
  · exact h.abortRest ha
  · simpa using h3 ha

theorem split_append {y : HEvent} {a b u v : List HEvent} (h : a ++ b = u ++ y :: v) :
    (∃ v', a = u ++ y :: v' ∧ v = v' ++ b) ∨ (∃ u', b = u' ++ y :: v ∧ u = a ++ u') := by
  rcases List.append_eq_append_iff.mp h with ⟨c, hc1, hc2⟩ | ⟨c, hc1, hc2⟩
  · exact .inr ⟨c, hc2, hc1⟩
  · cases c with
    | nil => exact .inr ⟨[], by simpa using hc2.symm, by simpa using hc1.symm⟩
    | cons z c' =>
      simp only [List.cons_append, List.cons.injEq] at hc2
      exact .inl ⟨c', by rw [hc1, hc2.1], hc2.2⟩

theorem split_cons {x y : HEvent} {t u v : List HEvent} (h : x :: t = u ++ y :: v) :
    (x = y ∧ u = [] ∧ t = v) ∨ ∃ u', u = x :: u' ∧ t = u' ++ y :: v := by
  cases u with
  | nil => simp at h; exact .inl ⟨h.1, rfl, h.2⟩
  | cons z u' => simp at h; exact .inr ⟨u', by rw [h.1], h.2⟩

/-- Composition of two consecutive pieces. -/
theorem Ordered.seq {rest : List (Nat × Handler W)} {a b r : SpecRun W}
    (ha : Ordered rest a) (hb : Ordered a.rest b) (hr : r.rest = b.rest) (ht : r.trace = a.trace ++ b.trace) :
    Ordered rest r := by
  obtain ⟨m1, hm1, hs1, hr1⟩ := ha.started
  obtain ⟨m2, hm2, hs2, hr2⟩ := hb.started
  refine ⟨?_, ?_, ?_⟩
  · by_cases hab : HEvent.abort ∈ a.trace
    · have hn := ha.abortRest hab
      rw [hn] at hb
      refine ⟨m1, hm1, ?_, fun h => absurd (by rw [ht]; simp [hab]) h⟩
      rw [ht, starts_append, hs1, hb.nil_starts.1, List.append_nil]
    · have hr1' := hr1 hab
      refine ⟨m1 + m2, ?_, ?_, ?_⟩
      · rw [hr1', List.length_drop] at hm2; omega
      · rw [ht, starts_append, hs1, hs2, hr1', List.take_add, List.map_append]
      · intro h
        rw [hr, hr2 (fun h' => h (by rw [ht]; simp [h'])), hr1', List.drop_drop]
  · intro y hy u v huv
    rw [ht] at huv
    rcases split_append huv with ⟨v', h1, h2⟩ | ⟨u', h1, h2⟩
    · obtain ⟨h3, h4⟩ := ha.mark y hy u v' h1
      rw [h4] at hb
      obtain ⟨h5, h6⟩ := hb.nil_starts
      exact ⟨by rw [h2, starts_append, h3, h5]; rfl, by rw [hr, h6]⟩
    · obtain ⟨h3, h4⟩ := hb.mark y hy u' v h1
      exact ⟨h3, by rw [hr, h4]⟩
  · intro u v huv hab
    rw [ht] at huv
    rcases split_append huv with ⟨v', h1, h2⟩ | ⟨u', h1, h2⟩
    · exact ha.complete u v' h1 hab
    · rw [h2] at hab
      have hab1 : HEvent.abort ∉ a.trace := fun h => hab (by simp [h])
      have hab2 : HEvent.abort ∉ u' := fun h => hab (by simp [h])
      rw [h2, starts_append, hs1, hb.complete u' v h1 hab2, hr1 hab1, ← List.map_append, List.take_append_drop]

/-- Putting an event in front that neither starts a handler nor is a mark. -/
theorem Ordered.silent {rest : List (Nat × Handler W)} {a r : SpecRun W} {x : HEvent} (ha : Ordered rest a)
    (hx : x = .next ∨ x = .resume true ∨ x = .panic) (hr : r.rest = a.rest) (ht : r.trace = x :: a.trace) : Ordered rest r := by
  obtain ⟨m1, hm1, hs1, hr1⟩ := ha.started
  refine ⟨⟨m1, hm1, ?_, ?_⟩, ?_, ?_⟩
  · rw [ht, ← hs1]; rcases hx with rfl | rfl | rfl <;> rfl
  · intro h; rw [hr]; exact hr1 (fun h' => h (by rw [ht]; simp [h']))
  · intro y hy u v huv
    rw [ht] at huv
    rcases split_cons huv with ⟨h1, _, _⟩ | ⟨u', h1, h2⟩
    · rcases hx with rfl | rfl | rfl <;> rcases hy with rfl | rfl <;> simp at h1
    · rw [hr]; exact ha.mark y hy u' v h2
  · intro u v huv hab
    rw [ht] at huv
    rcases split_cons huv with ⟨h1, _, _⟩ | ⟨u', h1, h2⟩
    · rcases hx with rfl | rfl | rfl <;> simp at h1
    · rw [← ha.complete u' v h2 (fun h => hab (by rw [h1]; simp [h])), h1]
      rcases hx with rfl | rfl | rfl <;> rfl

/-- Putting a mark in front of a run with nothing pending. -/
theorem Ordered.ofNil {rest : List (Nat × Handler W)} {a r : SpecRun W} {x : HEvent} (ha : Ordered [] a)
    (hx : x = .abort ∨ (x = .resume false ∧ rest = [])) (hr : r.rest = a.rest) (ht : r.trace = x :: a.trace) :
    Ordered rest r := by
  obtain ⟨h1, h2⟩ := ha.nil_starts
  have hst : starts r.trace = [] := by rw [ht]; rcases hx with rfl | ⟨rfl, _⟩ <;> exact h1
  refine ⟨⟨0, by omega, by simpa using hst, ?_⟩, ?_, ?_⟩
  · intro h
    rcases hx with rfl | ⟨rfl, rfl⟩
    · exact absurd (by rw [ht]; simp) h
    · rw [hr, h2]; rfl
  · intro y hy u v huv
    refine ⟨?_, by rw [hr, h2]⟩
    have h3 : starts (u ++ y :: v) = [] := by rw [← huv]; exact hst
    rw [starts_append] at h3
    have h4 := (List.append_eq_nil_iff.mp h3).2
    rcases hy with rfl | rfl <;> exact h4
  · intro u v huv hab
    rcases hx with rfl | ⟨rfl, rfl⟩
    · rw [ht] at huv
      rcases split_cons huv with ⟨h3, _, _⟩ | ⟨u', h3, _⟩
      · simp at h3
      · exact absurd (by rw [h3]; simp) hab
    · rw [huv, starts_append] at hst
      exact (List.append_eq_nil_iff.mp hst).1

/-- Putting the start of the first pending handler in front. -/
theorem Ordered.start {rest : List (Nat × Handler W)} {a r : SpecRun W} {i : Nat} {h : Handler W} (ha : Ordered rest a)
    (hr : r.rest = a.rest) (ht : r.trace = .start i :: a.trace) : Ordered ((i, h) :: rest) r := by
  obtain ⟨m1, hm1, hs1, hr1⟩ := ha.started
  refine ⟨⟨m1 + 1, by simp; omega, ?_, ?_⟩, ?_, ?_⟩
  · rw [ht]; show i :: starts a.trace = _; rw [hs1]; simp
  · intro hn; rw [hr, hr1 (fun h' => hn (by rw [ht]; simp [h']))]; simp
  · intro y hy u v huv
    rw [ht] at huv
    rcases split_cons huv with ⟨h1, _, _⟩ | ⟨u', h1, h2⟩
    · rcases hy with rfl | rfl <;> simp at h1
    · rw [hr]; exact ha.mark y hy u' v h2
  · intro u v huv hab
    rw [ht] at huv
    rcases split_cons huv with ⟨h1, _, _⟩ | ⟨u', h1, h2⟩
    · simp at h1
    · rw [h1]
      show i :: starts u' = _
      rw [ha.complete u' v h2 (fun h => hab (by rw [h1]; simp [h]))]; rfl

theorem Ordered.empty (rest : List (Nat × Handler W)) (p : Bool) (w : W) : Ordered rest ⟨p, rest, w, []⟩ :=
  ⟨⟨0, by omega, rfl, fun _ => rfl⟩, by intro y _ u v h; simp at h, by intro u v h; simp at h⟩

theorem exec_ordered (n : Nat) (nxt : List (Nat × Handler W) → W → SpecRun W)
    (hnext : ∀ rest w, rest.length ≤ n → Ordered rest (nxt rest w) ∧ ((nxt rest w).panicked = false → (nxt rest w).rest = [])
      ∧ (nxt rest w).rest.length ≤ rest.length) :
    ∀ (c : Handler W) (rest : List (Nat × Handler W)) (w : W), rest.length ≤ n →
      Ordered rest (specExec nxt c rest w) ∧ (specExec nxt c rest w).rest.length ≤ rest.length
  | .ret, rest, w, _ => ⟨.empty rest _ _, Nat.le_refl _⟩
  | .panic, rest, w, _ => ⟨(Ordered.empty rest true w).silent (.inr (.inr rfl)) rfl rfl, Nat.le_refl _⟩
  | .act f k, rest, w, h => exec_ordered n nxt hnext (k (f w)) rest (f w) h
  | .abort k, rest, w, h => by
    have h1 := (exec_ordered n nxt hnext k [] w (by simp)).1
    refine ⟨h1.ofNil (.inl rfl) rfl rfl, ?_⟩
    simp only [specExec]
    rw [h1.nil_starts.2]; simp
  | .next k, rest, w, h => by
    obtain ⟨h1, h2, h3⟩ := hnext rest w h
    obtain ⟨h4, h5⟩ := exec_ordered n nxt hnext (k (nxt rest w).panicked) (nxt rest w).rest (nxt rest w).world (by omega)
    refine ⟨?_, by simp only [specExec]; omega⟩
    simp only [specExec]
    generalize hr' : specExec nxt (k (nxt rest w).panicked) (nxt rest w).rest (nxt rest w).world = r' at *
    have h6 : Ordered (nxt rest w).rest ⟨r'.panicked, r'.rest, r'.world, .resume (nxt rest w).panicked :: r'.trace⟩ := by
      cases hp : (nxt rest w).panicked with
      | true => exact h4.silent (.inr (.inl rfl)) rfl rfl
      | false =>
        have hn := h2 hp
        rw [hn] at h4
        exact h4.ofNil (.inr ⟨rfl, hn⟩) rfl rfl
    exact (h1.seq h6 (r := ⟨r'.panicked, r'.rest, r'.world, (nxt rest w).trace ++ .resume (nxt rest w).panicked :: r'.trace⟩)
      rfl rfl).silent (.inl rfl) rfl rfl

theorem loop_ordered : ∀ (n : Nat) (rest : List (Nat × Handler W)) (w : W), rest.length ≤ n →
    Ordered rest (specLoop n rest w) ∧ ((specLoop n rest w).panicked = false → (specLoop n rest w).rest = []) ∧
      (specLoop n rest w).rest.length ≤ rest.length := by
  intro n
  induction n with
  | zero =>
    intro rest w h
    have : rest = [] := by simpa using h
    subst this
    rw [specLoop_nil]
    exact ⟨.empty [] _ _, fun _ => rfl, Nat.le_refl _⟩
  | succ n ih =>
    intro rest w h
    match rest with
    | [] => rw [specLoop_nil]; exact ⟨.empty [] _ _, fun _ => rfl, Nat.le_refl _⟩
    | (i, hd) :: rest =>
      have hl : rest.length ≤ n := by simp at h; omega
      obtain ⟨h1, h2⟩ := exec_ordered n (specLoop n) ih hd rest w hl
      simp only [specLoop]
      generalize specExec (specLoop n) hd rest w = A at *
      by_cases hp : A.panicked
      · rw [if_pos hp]
        refine ⟨h1.start rfl rfl, fun h => ?_, by simp only [List.length_cons]; omega⟩
        rw [hp] at h; simp at h
      · rw [if_neg hp]
        obtain ⟨h3, h4, h5⟩ := ih A.rest A.world (by omega)
        refine ⟨?_, h4, by simp only [List.length_cons]; omega⟩
        generalize specLoop n A.rest A.world = B at *
        exact (h1.seq h3 (r := ⟨B.panicked, B.rest, B.world, A.trace ++ B.trace⟩) rfl rfl).start rfl rfl

/-! ### Panics without recovery -/

/-- After a panic nothing starts and the run ends panicking. -/
def PanicEnds (r : SpecRun W) : Prop := ∀ u v, r.trace = u ++ .panic :: v → starts v = [] ∧ r.panicked = true

theorem exec_panicEnds (nxt : List (Nat × Handler W) → W → SpecRun W)
    (P : Nat × Handler W → Prop)
    (hnext : ∀ rest w, (∀ x ∈ rest, P x) → PanicEnds (nxt rest w) ∧ ∀ x ∈ (nxt rest w).rest, P x) :
    ∀ (c : Handler W) (rest : List (Nat × Handler W)) (w : W), NonRecovering c → (∀ x ∈ rest, P x) →
      PanicEnds (specExec nxt c rest w) ∧ ∀ x ∈ (specExec nxt c rest w).rest, P x
  | .ret, rest, w, _, hP => ⟨by intro u v h; simp [specExec] at h, hP⟩
  | .panic, rest, w, _, hP => ⟨by
      intro u v h
      simp only [specExec] at h
      rcases split_cons h with ⟨_, _, h2⟩ | ⟨u', _, h2⟩
      · exact ⟨by rw [← h2]; rfl, rfl⟩
      · simp at h2, hP⟩
  | .act f k, rest, w, hc, hP => exec_panicEnds nxt P hnext (k (f w)) rest (f w) (hc w) hP
  | .abort k, rest, w, hc, hP => by
    obtain ⟨h1, h2⟩ := exec_panicEnds nxt P hnext k [] w hc (by simp)
    refine ⟨?_, h2⟩
    intro u v h
    simp only [specExec] at h
    rcases split_cons h with ⟨h0, _, _⟩ | ⟨u', _, h3⟩
    · simp at h0
    · exact h1 u' v h3
  | .next k, rest, w, hc, hP => by
    obtain ⟨h1, h2⟩ := hnext rest w hP
    obtain ⟨hc1, hc2⟩ := hc
    cases hp : (nxt rest w).panicked with
    | true =>
      have he : specExec nxt (.next k) rest w =
          ⟨true, (nxt rest w).rest, (nxt rest w).world, .next :: ((nxt rest w).trace ++ [.resume true, .panic])⟩ := by
        simp [specExec, hp, hc1]
      rw [he]
      refine ⟨?_, h2⟩
      intro u v h
      refine ⟨?_, rfl⟩
      rcases split_cons h with ⟨h0, _, _⟩ | ⟨u', _, h3⟩
      · simp at h0
      · rcases split_append h3 with ⟨v', h4, h5⟩ | ⟨u'', h4, h5⟩
        · rw [h5, starts_append, (h1 _ _ h4).1]; rfl
        · have hv : starts [HEvent.resume true, HEvent.panic] = [] := rfl
          rw [h4, starts_append] at hv
          exact (List.append_eq_nil_iff.mp hv).2
    | false =>
      obtain ⟨h3, h4⟩ := exec_panicEnds nxt P hnext (k false) (nxt rest w).rest (nxt rest w).world hc2 h2
      have he : specExec nxt (.next k) rest w =
          { specExec nxt (k false) (nxt rest w).rest (nxt rest w).world with
            trace := .next :: ((nxt rest w).trace ++ .resume false ::
              (specExec nxt (k false) (nxt rest w).rest (nxt rest w).world).trace) } := by
        simp [specExec, hp]
      rw [he]
      refine ⟨?_, h4⟩
      intro u v h
      rcases split_cons h with ⟨h0, _, _⟩ | ⟨u', _, h5⟩
      · simp at h0
      · rcases split_append h5 with ⟨v', h6, _⟩ | ⟨u'', h6, _⟩
        · have := (h1 _ _ h6).2
          rw [hp] at this; simp at this
        · rcases split_cons h6 with ⟨h7, _, _⟩ | ⟨u3, _, h7⟩
          · simp at h7
          · exact h3 _ _ h7

theorem loop_panicEnds : ∀ (n : Nat) (rest : List (Nat × Handler W)) (w : W), (∀ x ∈ rest, NonRecovering x.2) →
    PanicEnds (specLoop n rest w) ∧ ∀ x ∈ (specLoop n rest w).rest, NonRecovering x.2 := by
  intro n
  induction n with
  | zero =>
    intro rest w h
    match rest with
    | [] => exact ⟨by intro u v h; simp [specLoop] at h, by simp [specLoop]⟩
    | x :: rest => exact ⟨by intro u v h; simp [specLoop] at h, by simpa [specLoop] using h⟩
  | succ n ih =>
    intro rest w h
    match rest with
    | [] => exact ⟨by intro u v h; simp [specLoop] at h, by simp [specLoop]⟩
    | (i, hd) :: rest =>
      obtain ⟨h1, h2⟩ := exec_panicEnds (specLoop n) (fun x => NonRecovering x.2) (fun rest w hr => ih rest w hr) hd rest w
        (h _ List.mem_cons_self) (fun x hx => h x (List.mem_cons_of_mem _ hx))
      simp only [specLoop]
      generalize specExec (specLoop n) hd rest w = A at *
      by_cases hp : A.panicked
      · rw [if_pos hp]
        refine ⟨?_, h2⟩
        intro u v h3
        rcases split_cons h3 with ⟨h0, _, _⟩ | ⟨u', _, h4⟩
        · simp at h0
        · exact h1 _ _ h4
      · rw [if_neg hp]
        obtain ⟨h3, h4⟩ := ih A.rest A.world h2
        refine ⟨?_, h4⟩
        generalize specLoop n A.rest A.world = B at *
        intro u v h5
        rcases split_cons h5 with ⟨h0, _, _⟩ | ⟨u', _, h6⟩
        · simp at h0
        · rcases split_append h6 with ⟨v', h7, _⟩ | ⟨u'', h7, _⟩
          · exact absurd (h1 _ _ h7).2 hp
          · exact h3 _ _ h7

/-! ### Fuel -/

theorem execHandler_mono (len : Nat) (f g : Int → W → Option (SlicesRun W)) (hfg : ∀ i w m, f i w = some m → g i w = some m) :
    ∀ (c : Handler W) (i : Int) (w : W) (m : SlicesRun W), execHandler len f c i w = some m → execHandler len g c i w = some m
  | .ret, i, w, m, h => h
  | .panic, i, w, m, h => h
  | .act fn k, i, w, m, h => execHandler_mono len f g hfg (k (fn w)) i (fn w) m h
  | .abort k, i, w, m, h => by
    simp only [execHandler] at h ⊢
    cases he : execHandler len f k (int8 len) w with
    | none => simp [he] at h
    | some r => rw [he] at h; rw [execHandler_mono len f g hfg k _ w r he]; exact h
  | .next k, i, w, m, h => by
    simp only [execHandler] at h ⊢
    cases hn : f i w with
    | none => simp [hn] at h
    | some a =>
      rw [hn] at h
      rw [hfg i w a hn]
      simp only at h ⊢
      cases he : execHandler len f (k a.panicked) a.index a.world with
      | none => simp [he] at h
      | some r => rw [he] at h; rw [execHandler_mono len f g hfg _ _ _ r he]; exact h

theorem slicesLoop_mono (hs : List (Handler W)) : ∀ (n : Nat) (i : Int) (w : W) (m : SlicesRun W),
    slicesLoop hs n i w = some m → slicesLoop hs (n + 1) i w = some m := by
  intro n
  induction n with
  | zero => intro i w m h; simp [slicesLoop] at h
  | succ n ih =>
    intro i w m h
    rw [slicesLoop] at h ⊢
    by_cases h1 : i < int8 hs.length
    · rw [if_pos h1] at h ⊢
      by_cases h2 : i < 0
      · rw [if_pos h2] at h ⊢; exact h
      · rw [if_neg h2] at h ⊢
        cases hh : hs[i.toNat]? with
        | none => rw [hh] at h; exact h
        | some hd =>
          rw [hh] at h
          simp only at h ⊢
          cases he : execHandler hs.length (fun j w' => slicesLoop hs n (int8 (j + 1)) w') hd i w with
          | none => simp [he] at h
          | some a =>
            rw [he] at h
            rw [execHandler_mono hs.length _ (fun j w' => slicesLoop hs (n + 1) (int8 (j + 1)) w')
              (fun i w m hm => ih _ _ _ hm) hd i w a he]
            simp only at h ⊢
            by_cases hp : a.panicked = true
            · rw [if_pos hp] at h ⊢; exact h
            · rw [if_neg hp] at h ⊢
              cases hb : slicesLoop hs n (int8 (a.index + 1)) a.world with
              | none => simp [hb] at h
              | some b => rw [hb] at h; rw [ih _ _ _ hb]; exact h
    · rw [if_neg h1] at h ⊢; exact h

theorem slicesLoop_mono_le (hs : List (Handler W)) {n n' : Nat} (hle : n ≤ n') (i : Int) (w : W) (m : SlicesRun W)
    (h : slicesLoop hs n i w = some m) : slicesLoop hs n' i w = some m := by
  induction hle with
  | refl => exact h
  | step _ ih => exact slicesLoop_mono hs _ i w m ih

end Zinx.Request
