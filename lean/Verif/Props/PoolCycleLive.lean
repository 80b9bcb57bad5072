import Verif.Props.PoolCycle
import Verif.Props.AsyncStartLive

/-! # C118: the number of workers, and what becomes of the messages -/

namespace Zinx.Props
open Zinx Zinx.PoolCycle

/-- The workers of the first `n` places and the first `m` starts that have been started. -/
def poolWorkers (n m : Nat) (s : PoolCycle.State) : List (Nat × Nat) :=
  (List.range n).flatMap fun w => ((List.range m).map (· + 1)).filterMap fun g => if s.worker w g = .absent then none else some (w, g)

theorem length_filterMap_all {α β : Type} {f : α → Option β} : ∀ {l : List α}, (∀ a ∈ l, f a ≠ none) → (l.filterMap f).length = l.length := by
  intro l
  induction l with
  | nil => simp
  | cons a l ih =>
    intro h
    cases hf : f a with
    | none => exact absurd hf (h a (by simp))
    | some b => simp [hf, ih fun x hx => h x (by simp [hx])]

theorem sum_map_const {α : Type} (m : Nat) : ∀ l : List α, (l.map fun _ => m).sum = l.length * m := by
  intro l
  induction l with
  | nil => simp
  | cons a l ih => simp only [List.map_cons, List.sum_cons, List.length_cons, ih]; rw [Nat.add_mul]; omega

/-- **C118 (how many workers).** Between calls of `Start` there is one worker for each place and each call of `Start` so far: `n` times the number of starts. -/
theorem C118_workers {n cap : Nat} {wid : Nat → Nat} {s : PoolCycle.State} {ls : List PoolCycle.Label} (h : Steps (PoolCycle.Step n cap wid) {} ls s) (hl : s.loop = none) :
    (∀ w g, s.worker w g ≠ .absent ↔ (w, g) ∈ poolWorkers n s.starts s) ∧ (poolWorkers n s.starts s).length = n * s.starts := by
  have hi := poolShape h
  have hpres : ∀ w g, s.worker w g ≠ .absent ↔ w < n ∧ 1 ≤ g ∧ g ≤ s.starts := by
    intro w g
    rw [hi.present w g]
    constructor
    · rintro ⟨h1, h2, h3⟩
      rw [hi.outside hl w h1] at h3
      exact ⟨h1, h2, h3⟩
    · rintro ⟨h1, h2, h3⟩
      rw [hi.outside hl w h1]
      exact ⟨h1, h2, h3⟩
  constructor
  · intro w g
    rw [hpres]
    simp only [poolWorkers, List.mem_flatMap, List.mem_range, List.mem_filterMap, List.mem_map]
    constructor
    · rintro ⟨h1, h2, h3⟩
      refine ⟨w, h1, g, ⟨g - 1, by omega, by omega⟩, ?_⟩
      rw [if_neg ((hpres w g).2 ⟨h1, h2, h3⟩)]
    · rintro ⟨w', h1, g', ⟨x, h2, h3⟩, h4⟩
      split at h4
      · cases h4
      · cases h4
        exact ⟨h1, by omega, by omega⟩
  · have hrow : ∀ w, w < n → (((List.range s.starts).map (· + 1)).filterMap fun g => if s.worker w g = .absent then none else some (w, g)).length = s.starts := by
      intro w hw
      rw [length_filterMap_all]
      · simp
      · intro g hg
        simp only [List.mem_map, List.mem_range] at hg
        obtain ⟨x, h1, h2⟩ := hg
        rw [if_neg ((hpres w g).2 ⟨hw, by omega, by omega⟩)]
        simp
    rw [poolWorkers, List.length_flatMap]
    have : (List.range n).map (fun w => (((List.range s.starts).map (· + 1)).filterMap fun g => if s.worker w g = .absent then none else some (w, g)).length) = (List.range n).map fun _ => s.starts := by
      apply List.map_congr_left
      intro w hw
      exact hrow w (List.mem_range.1 hw)
    rw [this, sum_map_const, List.length_range]

/-- **C118 (old workers wait for ever).** Once the queue of an earlier start is empty, its worker is waiting and no reader has looked the queue up, nothing is ever put in it again: the worker waits in all later states. -/
theorem C118_old {n cap : Nat} {wid : Nat → Nat} {s t : PoolCycle.State} {ls : List PoolCycle.Label} (h : Steps (PoolCycle.Step n cap wid) s ls t) {w g : Nat} (hg : g < s.cur w) (hw : s.worker w g = .idle)
    (hq : s.queue w g = []) (hh : ∀ c, wid c = w → s.hand c ≠ some g) : t.worker w g = .idle ∧ t.queue w g = [] := by
  have key := h.invariant (P := fun s => g < s.cur w ∧ s.worker w g = .idle ∧ s.queue w g = [] ∧ ∀ c, wid c = w → s.hand c ≠ some g) ?_ ⟨hg, hw, hq, hh⟩
  · exact ⟨key.2.1, key.2.2.1⟩
  · rintro s l t ⟨a1, a2, a3, a4⟩ hs
    cases hs <;> refine ⟨?_, ?_, ?_, ?_⟩ <;> (intros; simp only [upd, upd2] at *; grind)

/-! ## A whole start -/

/-- `StartWorkerPool` can run through at any time. -/
theorem pool_loops {n cap : Nat} {wid : Nat → Nat} : ∀ (m : Nat) {i : Nat} {s : PoolCycle.State}, i + m = n → s.loop = some i →
    ∃ ls t, Steps (PoolCycle.Step n cap wid) s ls t ∧ (∀ l ∈ ls, l = .ret ∨ ∃ i, l = .make i) ∧ t.loop = none ∧ t.starts = s.starts + 1 ∧ t.read = s.read ∧ t.next = s.next ∧ t.hand = s.hand ∧ t.queue = s.queue := by
  intro m
  induction m with
  | zero =>
    intro i s hm hl
    have : i = n := by omega
    subst this
    exact ⟨_, _, .cons (.ret hl) (.nil _), by simp, rfl, rfl, rfl, rfl, rfl, rfl⟩
  | succ m ih =>
    intro i s hm hl
    have hs := PoolCycle.Step.make (n := n) (cap := cap) (wid := wid) i hl (by omega)
    obtain ⟨ls, t, h1, h2, h3, h4⟩ := ih (i := i + 1) (by omega) (s := { s with loop := some (i + 1), cur := upd s.cur i (s.cur i + 1), worker := upd2 s.worker i (s.cur i + 1) .idle }) rfl
    refine ⟨_, t, .cons hs h1, ?_, h3, h4⟩
    intro l hl
    rcases List.mem_cons.1 hl with e | e
    · exact .inr ⟨i, e⟩
    · exact h2 l e

theorem pool_start {n cap : Nat} {wid : Nat → Nat} {s : PoolCycle.State} (hl : s.loop = none) :
    ∃ ls t, Steps (PoolCycle.Step n cap wid) s ls t ∧ (∀ l ∈ ls, l = .call ∨ l = .ret ∨ ∃ i, l = .make i) ∧ t.loop = none ∧ t.starts = s.starts + 1 ∧ t.read = s.read ∧ t.next = s.next ∧ t.hand = s.hand ∧ t.queue = s.queue := by
  obtain ⟨ls, t, h1, h2, h3⟩ := pool_loops (n := n) (cap := cap) (wid := wid) n (i := 0) (by omega) (s := { s with loop := some 0 }) rfl
  refine ⟨_, t, .cons (.call hl) h1, ?_, h3⟩
  intro l hl
  rcases List.mem_cons.1 hl with e | e
  · exact .inl e
  · exact .inr (h2 l e)

/-- **C118 (refuted: the number of workers).** With a pool, there is no bound on the number of workers, even without any connection. -/
theorem C118_refuted_workers {n cap : Nat} {wid : Nat → Nat} (hn : 0 < n) (B : Nat) :
    ∃ ls s, Steps (PoolCycle.Step n cap wid) {} ls s ∧ (∀ l ∈ ls, l = .call ∨ l = .ret ∨ ∃ i, l = .make i) ∧ s.loop = none ∧ B ≤ (poolWorkers n s.starts s).length := by
  have key : ∀ m, ∃ ls s, Steps (PoolCycle.Step n cap wid) {} ls s ∧ (∀ l ∈ ls, l = .call ∨ l = .ret ∨ ∃ i, l = .make i) ∧ s.loop = none ∧ s.starts = m := by
    intro m
    induction m with
    | zero => exact ⟨[], {}, .nil _, by simp, rfl, rfl⟩
    | succ m ih =>
      obtain ⟨ls, s, h1, h2, h3, h4⟩ := ih
      obtain ⟨ls', t, x1, x2, x3, x4, -⟩ := pool_start (n := n) (cap := cap) (wid := wid) h3
      refine ⟨ls ++ ls', t, h1.append x1, ?_, x3, by omega⟩
      intro l hl
      rcases List.mem_append.1 hl with e | e
      · exact h2 l e
      · exact x2 l e
  obtain ⟨ls, s, h1, h2, h3, h4⟩ := key B
  refine ⟨ls, s, h1, h2, h3, ?_⟩
  rw [(C118_workers h1 h3).2, h4]
  exact Nat.le_mul_of_pos_left B hn

theorem handledOf_starting {c : Nat} {ls : List PoolCycle.Label} (h : ∀ l ∈ ls, l = .call ∨ l = .ret ∨ ∃ i, l = .make i) : handledOf c ls = [] := by
  rw [handledOf, List.filterMap_eq_nil_iff]
  intro l hl
  rcases h l hl with e | e | ⟨i, e⟩ <;> subst e <;> rfl

/-- **C118 (refuted: the order).** For every pool, capacity and assignment, and every connection: its first message is put in the queue of the first start, the server is started again, the second message, of the same read,
is put in the new queue; the new worker begins with the second message before the old worker has taken the first. -/
theorem C118_refuted {n cap : Nat} {wid : Nat → Nat} (c : Nat) (hc : wid c < n) :
    ∃ ls s, Steps (PoolCycle.Step n cap wid) {} ls s ∧ handledOf c ls = [(true, 1)] ∧ (∀ c' m, .read c' m ∈ ls → c' = c ∧ m = 1) ∧ s.starts = 2 := by
  obtain ⟨l1, s1, x1, x2, x3, x4, x5, x6, x7, x8⟩ := pool_start (n := n) (cap := cap) (wid := wid) (s := {}) rfl
  have i1 := poolShape x1
  have c1 : s1.cur (wid c) = 1 := by rw [i1.outside x3 _ hc, x4]
  simp only at x4
  -- read two messages, hand over the first
  have y1 := PoolCycle.Step.read (n := n) (cap := cap) (wid := wid) (s := s1) c 1 (by omega) (by rw [x5, x6])
  have y2 := PoolCycle.Step.pick (n := n) (cap := cap) (wid := wid) (s := { s1 with read := upd s1.read c (s1.read c + 1 + 1) }) c (by simp [upd, x6]) (by simp [x7])
  have y3 := PoolCycle.Step.put (n := n) (cap := cap) (wid := wid) (s := { s1 with read := upd s1.read c (s1.read c + 1 + 1), hand := upd s1.hand c (some (s1.cur (wid c))) }) c 1 (by simp [upd, c1]) (by omega) (by simp [x8]; omega)
  -- start again
  obtain ⟨l2, s2, z1, z2, z3, z4, z5, z6, z7, z8⟩ := pool_start (n := n) (cap := cap) (wid := wid)
    (s := { s1 with read := upd s1.read c (s1.read c + 1 + 1), hand := upd (upd s1.hand c (some (s1.cur (wid c)))) c none, next := upd s1.next c (s1.next c + 1), queue := upd2 s1.queue (wid c) 1 (s1.queue (wid c) 1 ++ [(c, s1.next c)]) }) x3
  have hsofar := x1.append (.cons y1 (.cons y2 (.cons y3 z1)))
  have i2 := poolShape hsofar
  have c2 : s2.cur (wid c) = 2 := by rw [i2.outside z3 _ hc, z4]; simp only; omega
  have n2 : s2.next c = 1 := by rw [z6]; simp [upd, x6]
  have r2 : s2.read c = 2 := by rw [z5]; simp [upd, x5]
  have q2 : s2.queue (wid c) 2 = [] := by rw [z8]; simp [upd2, x8]
  have w2 : s2.worker (wid c) 2 = .idle := by
    have ha := (i2.present (wid c) 2).2 ⟨hc, by omega, by omega⟩
    cases hw : s2.worker (wid c) 2 with
    | absent => exact absurd hw ha
    | idle => rfl
    | busy c' k' =>
      exfalso
      have hev : ∀ {ls : List PoolCycle.Label} {s : PoolCycle.State}, Steps (PoolCycle.Step n cap wid) {} ls s → (∀ l ∈ ls, ¬ PoolHandles l) → ∀ w g c k, s.worker w g ≠ .busy c k := by
        intro ls s h
        refine h.invariant_trace (P := fun ls s => (∀ l ∈ ls, ¬ PoolHandles l) → ∀ w g c k, s.worker w g ≠ .busy c k) ?_ (by simp)
        intro ls s l t ih hs hl w g c k
        have ih := ih (fun l h => hl l (by simp [h])) w g c k
        have := hl l (by simp)
        cases hs <;> simp [PoolHandles] at this <;> simp only [upd2] <;> grind
      refine hev hsofar ?_ _ _ _ _ hw
      intro l hl
      simp only [List.mem_append, List.mem_cons] at hl
      rcases hl with hl | rfl | rfl | rfl | hl
      · rcases x2 l hl with e | e | ⟨i, e⟩ <;> subst e <;> simp [PoolHandles]
      · simp [PoolHandles]
      · simp [PoolHandles]
      · simp [PoolHandles]
      · rcases z2 l hl with e | e | ⟨i, e⟩ <;> subst e <;> simp [PoolHandles]
  have u1 := PoolCycle.Step.pick (n := n) (cap := cap) (wid := wid) (s := s2) c (by omega) (by rw [z7]; simp [upd])
  have u2 := PoolCycle.Step.put (n := n) (cap := cap) (wid := wid) (s := { s2 with hand := upd s2.hand c (some (s2.cur (wid c))) }) c 2 (by simp [upd, c2]) (by omega) (by simp [q2]; omega)
  have u3 := PoolCycle.Step.begin (n := n) (cap := cap) (wid := wid)
    (s := { s2 with hand := upd (upd s2.hand c (some (s2.cur (wid c)))) c none, next := upd s2.next c (s2.next c + 1), queue := upd2 s2.queue (wid c) 2 (s2.queue (wid c) 2 ++ [(c, s2.next c)]) }) (wid c) 2 c 1 [] w2 (by simp [upd2, q2, n2])
  refine ⟨_, _, hsofar.append (.cons u1 (.cons u2 (.cons u3 (.nil _)))), ?_, ?_, ?_⟩
  · have e1 := handledOf_starting (c := c) x2
    have e2 := handledOf_starting (c := c) z2
    simp only [handledOf] at e1 e2 ⊢
    simp [e1, e2]
  · intro c' m hm
    simp only [List.mem_append, List.mem_cons] at hm
    rcases hm with (hm | hm | hm | hm | hm) | hm | hm | hm | hm
    · rcases x2 _ hm with e | e | ⟨i, e⟩ <;> cases e
    · cases hm; exact ⟨rfl, rfl⟩
    · cases hm
    · cases hm
    · rcases z2 _ hm with e | e | ⟨i, e⟩ <;> cases e
    · cases hm
    · cases hm
    · cases hm
    · cases hm
  · show s2.starts = 2
    rw [z4]
    simp only
    omega

/-! ## Every message once -/

/-- What has become of the messages of connection `c`. -/
structure PoolDone (wid : Nat → Nat) (c : Nat) (evs : List (Bool × Nat)) (s : PoolCycle.State) : Prop where
  nodup : evs.Nodup
  begun : ∀ k, (true, k) ∈ evs → k < s.next c ∧ ∀ g, (c, k) ∉ s.queue (wid c) g
  all : ∀ k, k < s.next c → (true, k) ∈ evs ∨ ∃ g, (c, k) ∈ s.queue (wid c) g
  ended : ∀ k, (false, k) ∈ evs → (true, k) ∈ evs ∧ ∀ g, s.worker (wid c) g ≠ .busy c k
  busy : ∀ k, (true, k) ∈ evs → (false, k) ∈ evs ∨ ∃ g, s.worker (wid c) g = .busy c k
  known : ∀ g k, s.worker (wid c) g = .busy c k → (true, k) ∈ evs

theorem poolDone_step {n cap : Nat} {wid : Nat → Nat} {s t : PoolCycle.State} {l : PoolCycle.Label} {c : Nat} {evs : List (Bool × Nat)} (hi : PoolInv n wid s) (hp : PoolDone wid c evs s)
    (hs : PoolCycle.Step n cap wid s l t) : PoolDone wid c (evs ++ handledOf c [l]) t := by
  obtain ⟨a1, a2, a3, a4, a5, a6⟩ := hp
  have c1 := hi.home
  have c3 := hi.first
  have c4 := hi.across
  have c5 := hi.sorted
  cases hs with
  | call h | ret h | read c' m h0 h | pick c' h hx => simp only [handledOf, List.filterMap_cons, List.filterMap_nil, List.append_nil]; exact ⟨a1, a2, a3, a4, a5, a6⟩
  | make i h hl =>
    simp only [handledOf, List.filterMap_cons, List.filterMap_nil, List.append_nil]
    have hsame : ∀ g k, upd2 s.worker i (s.cur i + 1) .idle (wid c) g = .busy c k ↔ s.worker (wid c) g = .busy c k := by
      intro g k
      simp only [upd2]
      split
      · rename_i e
        have := hi.present (wid c) g
        have : s.worker (wid c) g = .absent := by
          apply Classical.byContradiction
          intro h
          have := (this.1 h).2.2
          rw [e.1] at this
          omega
        simp [this]
      · exact Iff.rfl
    exact ⟨a1, a2, a3, fun k hk => ⟨(a4 k hk).1, fun g hg => (a4 k hk).2 g ((hsame g k).1 hg)⟩, fun k hk => (a5 k hk).imp id fun ⟨g, hg⟩ => ⟨g, (hsame g k).2 hg⟩, fun g k hk => a6 g k ((hsame g k).1 hk)⟩
  | put c' g h hg hr =>
    simp only [handledOf, List.filterMap_cons, List.filterMap_nil, List.append_nil]
    refine ⟨a1, fun k hk => ?_, fun k hk => ?_, a4, a5, a6⟩
    · obtain ⟨h1, h2⟩ := a2 k hk
      refine ⟨?_, fun g' hg' => ?_⟩
      · simp only [upd]
        split
        · rename_i e; subst e; omega
        · exact h1
      · simp only [upd2] at hg'
        split at hg'
        · rename_i e
          rcases List.mem_append.1 hg' with hg' | hg'
          · rw [← e.1] at hg'; exact h2 g hg'
          · simp at hg'
            obtain ⟨rfl, rfl⟩ := hg'
            omega
        · exact h2 g' hg'
    · simp only [upd] at hk
      by_cases e : c = c'
      · subst e
        rw [if_pos rfl] at hk
        by_cases hk' : k = s.next c
        · exact .inr ⟨g, by simp [upd2, hk']⟩
        · rcases a3 k (by omega) with h | ⟨g', hg'⟩
          · exact .inl h
          · refine .inr ⟨g', ?_⟩
            simp only [upd2]
            split
            · rename_i e; rw [e.2] at hg'; simp [hg']
            · exact hg'
      · rw [if_neg e] at hk
        rcases a3 k hk with h | ⟨g', hg'⟩
        · exact .inl h
        · refine .inr ⟨g', ?_⟩
          simp only [upd2]
          split
          · rename_i e; rw [e.1, e.2] at hg'; simp [hg']
          · exact hg'
  | begin w g c' k rest h1 h2 =>
    by_cases hc : c' = c
    · subst hc
      have hq : (c', k) ∈ s.queue w g := by rw [h2]; simp
      obtain ⟨rfl, hlt, -⟩ := c1 w g c' k (.inl hq)
      have hnew : (true, k) ∉ evs := fun e => (a2 k e).2 g hq
      have hnew2 : (false, k) ∉ evs := fun e => hnew (a4 k e).1
      have hgone : ∀ g', (c', k) ∉ upd2 s.queue (wid c') g rest (wid c') g' := by
        intro g' hg'
        simp only [upd2] at hg'
        split at hg'
        · have := c5 (wid c') g
          rw [h2] at this
          exact absurd ((List.pairwise_cons.1 this).1 _ hg' rfl) (Nat.lt_irrefl k)
        · rename_i e
          have hne : g' ≠ g := fun x => e (by simp [x])
          rcases Nat.lt_or_gt_of_ne hne with h | h
          · exact absurd (c4 _ _ _ _ _ _ h (.inl hg') (.inl hq)) (Nat.lt_irrefl k)
          · exact absurd (c4 _ _ _ _ _ _ h (.inl hq) (.inl hg')) (Nat.lt_irrefl k)
      have hless : ∀ g' j, (c', j) ∈ upd2 s.queue (wid c') g rest (wid c') g' → (c', j) ∈ s.queue (wid c') g' := by
        intro g' j hj
        simp only [upd2] at hj
        split at hj
        · rename_i e; rw [e.2, h2]; simp [hj]
        · exact hj
      simp only [handledOf, List.filterMap_cons, List.filterMap_nil, if_pos]
      refine ⟨?_, ?_, ?_, ?_, ?_, ?_⟩
      · rw [List.nodup_append]
        exact ⟨a1, by simp, by intro a ha b hb; simp at hb; subst hb; exact fun e => hnew (e ▸ ha)⟩
      · intro j hj
        simp at hj
        rcases hj with hj | rfl
        · exact ⟨(a2 j hj).1, fun g' hg' => (a2 j hj).2 g' (hless g' j hg')⟩
        · exact ⟨hlt, hgone⟩
      · intro j hj
        by_cases hjk : j = k
        · exact .inl (by simp [hjk])
        · rcases a3 j hj with h | ⟨g', hg'⟩
          · exact .inl (by simp [h])
          · refine .inr ⟨g', ?_⟩
            simp only [upd2]
            split
            · rename_i e
              rw [e.2, h2] at hg'
              simp [hjk] at hg'
              exact hg'
            · exact hg'
      · intro j hj
        simp at hj
        refine ⟨by simp [(a4 j hj).1], fun g' hg' => ?_⟩
        simp only [upd2] at hg'
        split at hg'
        · cases hg'
          exact hnew2 hj
        · exact (a4 j hj).2 g' hg'
      · intro j hj
        simp at hj
        rcases hj with hj | rfl
        · rcases a5 j hj with h | ⟨g', hg'⟩
          · exact .inl (by simp [h])
          · refine .inr ⟨g', ?_⟩
            simp only [upd2]
            split
            · rename_i e
              rw [e.2, h1] at hg'
              cases hg'
            · exact hg'
        · exact .inr ⟨g, by simp [upd2]⟩
      · intro g' j hj
        simp only [upd2] at hj
        split at hj
        · cases hj; simp
        · simp [a6 g' j hj]
    · simp only [handledOf, List.filterMap_cons, List.filterMap_nil, List.append_nil, if_neg hc]
      have hsame : ∀ g' k', upd2 s.worker w g (.busy c' k) (wid c) g' = .busy c k' ↔ s.worker (wid c) g' = .busy c k' := by
        intro g' k'
        simp only [upd2]
        split
        · rename_i e
          rw [e.1, e.2, h1]
          simp [hc]
        · exact Iff.rfl
      have hsameq : ∀ g' j, (c, j) ∈ upd2 s.queue w g rest (wid c) g' ↔ (c, j) ∈ s.queue (wid c) g' := by
        intro g' j
        simp only [upd2]
        split
        · rename_i e
          rw [e.1, e.2, h2]
          have hc' : c ≠ c' := fun e => hc e.symm
          simp [hc']
        · exact Iff.rfl
      exact ⟨a1, fun k hk => ⟨(a2 k hk).1, fun g hg => (a2 k hk).2 g ((hsameq g k).1 hg)⟩, fun k hk => (a3 k hk).imp id fun ⟨g, hg⟩ => ⟨g, (hsameq g k).2 hg⟩, fun k hk => ⟨(a4 k hk).1, fun g hg => (a4 k hk).2 g ((hsame g k).1 hg)⟩,
        fun k hk => (a5 k hk).imp id fun ⟨g, hg⟩ => ⟨g, (hsame g k).2 hg⟩, fun g k hk => a6 g k ((hsame g k).1 hk)⟩
  | finish w g c' k h1 =>
    by_cases hc : c' = c
    · subst hc
      obtain ⟨rfl, hlt, -⟩ := c1 w g c' k (.inr h1)
      have hold : (true, k) ∈ evs := a6 g k h1
      have hnew : (false, k) ∉ evs := fun e => (a4 k e).2 g h1
      simp only [handledOf, List.filterMap_cons, List.filterMap_nil, if_pos]
      refine ⟨?_, ?_, ?_, ?_, ?_, ?_⟩
      · rw [List.nodup_append]
        exact ⟨a1, by simp, by intro a ha b hb; simp at hb; subst hb; exact fun e => hnew (e ▸ ha)⟩
      · intro j hj
        simp at hj
        exact a2 j hj
      · intro j hj
        exact (a3 j hj).imp (fun h => by simp [h]) id
      · intro j hj
        simp at hj
        rcases hj with hj | rfl
        · refine ⟨by simp [(a4 j hj).1], fun g' hg' => ?_⟩
          simp only [upd2] at hg'
          split at hg'
          · cases hg'
          · exact (a4 j hj).2 g' hg'
        · refine ⟨by simp [hold], fun g' hg' => ?_⟩
          simp only [upd2] at hg'
          split at hg'
          · cases hg'
          · rename_i e
            have hne : g' ≠ g := fun x => e (by simp [x])
            rcases Nat.lt_or_gt_of_ne hne with h | h
            · exact absurd (c4 _ _ _ _ _ _ h (.inr hg') (.inr h1)) (Nat.lt_irrefl _)
            · exact absurd (c4 _ _ _ _ _ _ h (.inr h1) (.inr hg')) (Nat.lt_irrefl _)
      · intro j hj
        simp at hj
        by_cases hjk : j = k
        · exact .inl (by simp [hjk])
        · rcases a5 j hj with h | ⟨g', hg'⟩
          · exact .inl (by simp [h])
          · refine .inr ⟨g', ?_⟩
            simp only [upd2]
            split
            · rename_i e
              rw [e.2, h1] at hg'
              cases hg'
              exact absurd rfl hjk
            · exact hg'
      · intro g' j hj
        simp only [upd2] at hj
        split at hj
        · cases hj
        · simp [a6 g' j hj]
    · simp only [handledOf, List.filterMap_cons, List.filterMap_nil, List.append_nil, if_neg hc]
      have hsame : ∀ g' k', upd2 s.worker w g .idle (wid c) g' = .busy c k' ↔ s.worker (wid c) g' = .busy c k' := by
        intro g' k'
        simp only [upd2]
        split
        · rename_i e
          rw [e.1, e.2, h1]
          simp [hc]
        · exact Iff.rfl
      exact ⟨a1, a2, a3, fun k hk => ⟨(a4 k hk).1, fun g hg => (a4 k hk).2 g ((hsame g k).1 hg)⟩, fun k hk => (a5 k hk).imp id fun ⟨g, hg⟩ => ⟨g, (hsame g k).2 hg⟩, fun g k hk => a6 g k ((hsame g k).1 hk)⟩

theorem poolDone {n cap : Nat} {wid : Nat → Nat} {s : PoolCycle.State} {ls : List PoolCycle.Label} (h : Steps (PoolCycle.Step n cap wid) {} ls s) (c : Nat) : PoolDone wid c (handledOf c ls) s := by
  have key : PoolInv n wid s ∧ PoolDone wid c (handledOf c ls) s := by
    refine h.invariant_trace (P := fun ls s => PoolInv n wid s ∧ PoolDone wid c (handledOf c ls) s) ?_ ⟨poolInv (cap := cap) (.nil _), by constructor <;> simp [handledOf]⟩
    rintro ls s l t ⟨hi, hp⟩ hs
    rw [handledOf_snoc]
    exact ⟨poolInv_step hi hs, poolDone_step hi hp hs⟩
  exact key.2

/-- **C118 (once).** Whatever starts there are: no message is begun or ended twice, none is ended without having been begun, and only messages that were handed over are begun. -/
theorem C118_once {n cap : Nat} {wid : Nat → Nat} {s : PoolCycle.State} {ls : List PoolCycle.Label} (h : Steps (PoolCycle.Step n cap wid) {} ls s) (c : Nat) :
    (handledOf c ls).Nodup ∧ (∀ k, (false, k) ∈ handledOf c ls → (true, k) ∈ handledOf c ls) ∧ ∀ k, (true, k) ∈ handledOf c ls → k < s.next c := by
  obtain ⟨a1, a2, a3, a4, a5, a6⟩ := poolDone h c
  exact ⟨a1, fun k hk => (a4 k hk).1, fun k hk => (a2 k hk).1⟩

/-! ## Every message is handled -/

/-- What the worker of queue `g` of place `w` does. -/
def poolActs (w g : Nat) (l : PoolCycle.Label) : Prop :=
  match l with
  | .begin w' g' _ _ | .finish w' g' _ _ => w' = w ∧ g' = g
  | _ => False

/-- Every worker runs and handlers return; every reader that can go on again and again goes on. -/
structure PoolFair {n cap : Nat} {wid : Nat → Nat} (e : Exec (PoolCycle.Step n cap wid)) : Prop where
  worker : ∀ w g, e.WeakFair (poolActs w g)
  pick : ∀ c, e.WeakFair (· = .pick c)
  put : ∀ c, e.StrongFair fun l => ∃ k g, l = .put c k g

section
variable {n cap : Nat} {wid : Nat → Nat} {e : Exec (PoolCycle.Step n cap wid)}

theorem pool_step {m : Nat} {l : PoolCycle.Label} (ha : e.act m = some l) : PoolCycle.Step n cap wid (e.run m) l (e.run (m + 1)) := by
  have := e.next m
  rwa [ha] at this

/-- What is queued is begun. -/
theorem pool_begins (h0 : e.run 0 = {}) (hf : PoolFair e) {w g : Nat} {o : Nat × Nat} : ∀ (v : Nat) {m : Nat} {pre post : List (Nat × Nat)}, (e.run m).queue w g = pre ++ o :: post →
    2 * pre.length + (if (e.run m).worker w g = .idle then 0 else 1) ≤ v → ∃ j, m ≤ j ∧ e.act j = some (.begin w g o.1 o.2) := by
  intro v
  induction v with
  | zero | succ v ih =>
    intro m pre post hq hv
    have hi := poolInv (h0 ▸ e.steps m)
    have hpre : (e.run m).worker w g ≠ .absent := by
      have := hi.home w g o.1 o.2 (.inl (by rw [hq]; simp))
      refine (hi.present w g).2 ⟨?_, this.2.2⟩
      apply Classical.byContradiction
      intro hge
      have := hi.big w (by omega)
      omega
    obtain ⟨j, l, hj, ha, hA, more, hq', hb', hinv⟩ := exec_leads_act e (hf.worker w g) (P := fun s => ∃ more, s.queue w g = pre ++ o :: more ∧ s.worker w g = (e.run m).worker w g ∧ PoolShape n s)
      (by
        rintro s l t ⟨more, h2, h3, h4⟩ hs hA
        have h5 := poolShape_step h4 hs
        rw [← h3] at hpre ⊢
        have hcur := ((h4.present w g).1 hpre)
        cases hs <;> simp [upd2, poolActs] at * <;> grind)
      (by
        rintro s ⟨more, h2, h3, h4⟩
        cases hb : s.worker w g with
        | absent => rw [h3] at hb; exact absurd hb hpre
        | idle =>
          cases pre with
          | nil => exact ⟨.begin w g o.1 o.2, _, ⟨rfl, rfl⟩, .begin w g _ _ _ hb h2⟩
          | cons p pre => exact ⟨.begin w g p.1 p.2, _, ⟨rfl, rfl⟩, .begin w g _ _ _ hb h2⟩
        | busy c k => exact ⟨.finish w g c k, _, ⟨rfl, rfl⟩, .finish w g c k hb⟩)
      ⟨post, hq, rfl, hi.toPoolShape⟩
    have hs := pool_step ha
    rw [← hb'] at hv
    have key : l = .begin w g o.1 o.2 ∨ ∃ pre' post', (e.run (j + 1)).queue w g = pre' ++ o :: post' ∧
        2 * pre'.length + (if (e.run (j + 1)).worker w g = .idle then 0 else 1) + 1 ≤ 2 * pre.length + (if (e.run j).worker w g = .idle then 0 else 1) := by
      generalize e.run (j + 1) = t at hs
      generalize e.run j = s at hs hq' hb' hv
      cases hs with
      | begin w' g' c k rest h1 h2 =>
        simp only [poolActs] at hA
        obtain ⟨rfl, rfl⟩ := hA
        rw [hq'] at h2
        cases pre with
        | nil => simp at h2; exact .inl (by rw [h2.1])
        | cons p pre =>
          simp at h2
          refine .inr ⟨pre, more, by simp [upd2, h2.2], ?_⟩
          simp [upd2, h1]
          omega
      | finish w' g' c k h1 =>
        simp only [poolActs] at hA
        obtain ⟨rfl, rfl⟩ := hA
        exact .inr ⟨pre, more, hq', by simp [upd2, h1]⟩
      | _ => exact hA.elim
    rcases key with h | ⟨pre', post', h2, h3⟩
    · exact ⟨j, hj, h ▸ ha⟩
    · first
      | omega
      | obtain ⟨k, hk, h⟩ := ih h2 (by omega)
        exact ⟨k, by omega, h⟩

theorem pool_bounded (h0 : e.run 0 = {}) (m w g : Nat) : ((e.run m).queue w g).length ≤ max cap 1 := by
  have h := e.steps m
  rw [h0] at h
  refine h.invariant (P := fun s => (s.queue w g).length ≤ max cap 1) ?_ (by simp)
  intro s l t hi hs
  cases hs <;> simp only [upd2] <;> (try split) <;> simp_all <;> omega

/-- A queue has room again and again. -/
theorem pool_room (h0 : e.run 0 = {}) (hf : PoolFair e) (w g m : Nat) : ∃ j, m ≤ j ∧ ((e.run j).queue w g).length < max cap 1 := by
  by_cases hl : ((e.run m).queue w g).length < max cap 1
  · exact ⟨m, Nat.le_refl m, hl⟩
  · cases hq : (e.run m).queue w g with
    | nil => rw [hq] at hl; simp at hl
    | cons o rest =>
      obtain ⟨j, hj, h⟩ := pool_begins h0 hf _ (pre := []) hq (Nat.le_refl _)
      refine ⟨j + 1, by omega, ?_⟩
      have hs := pool_step h
      have hb := pool_bounded h0 j w g
      generalize e.run (j + 1) = t at hs
      generalize e.run j = s at hs hb
      cases hs with
      | begin _ _ _ _ rest h1 h3 =>
        rw [h3] at hb
        simp [upd2] at *
        omega

/-- A message that has been read is handed over. -/
theorem pool_put (h0 : e.run 0 = {}) (hf : PoolFair e) {c m : Nat} (hc : wid c < n) (hm : (e.run m).next c < (e.run m).read c) : ∃ j g, m ≤ j ∧ e.act j = some (.put c ((e.run m).next c) g) := by
  have hpick : ∃ j g, m ≤ j ∧ (e.run j).hand c = some g ∧ (e.run j).next c = (e.run m).next c := by
    cases hh : (e.run m).hand c with
    | some g => exact ⟨m, g, Nat.le_refl m, hh, rfl⟩
    | none =>
      obtain ⟨j, l, hj, ha, hA, h1, h2, h3⟩ := exec_leads_act e (hf.pick c) (P := fun s => s.hand c = none ∧ s.next c = (e.run m).next c ∧ s.next c < s.read c)
        (by
          rintro s l t ⟨h1, h2, h3⟩ hs hA
          rw [← h2]
          cases hs <;> simp [upd] at * <;> grind)
        (fun s ⟨h1, h2, h3⟩ => ⟨_, _, rfl, .pick c h3 h1⟩) ⟨hh, rfl, hm⟩
      subst hA
      have hs := pool_step ha
      refine ⟨j + 1, (e.run j).cur (wid c), by omega, ?_⟩
      generalize e.run (j + 1) = t at hs
      generalize e.run j = s at hs h1 h2 h3 ⊢
      cases hs
      simp [upd, h2]
  obtain ⟨j, g, hj, hh, hn⟩ := hpick
  apply Classical.byContradiction
  intro hno
  have hP : ∀ i, j ≤ i → (e.run i).hand c = some g ∧ (e.run i).next c = (e.run m).next c := by
    intro i hi
    induction i with
    | zero => have : j = 0 := by omega
              subst this; exact ⟨hh, hn⟩
    | succ i ih =>
      by_cases e1 : j = i + 1
      · rw [← e1]; exact ⟨hh, hn⟩
      · have hp := ih (by omega)
        have hs := e.next i
        cases ha : e.act i with
        | none => rw [ha] at hs; rw [hs]; exact hp
        | some l =>
          rw [ha] at hs
          have hne : ∀ g, l ≠ .put c ((e.run m).next c) g := fun g e2 => hno ⟨i, g, by omega, e2 ▸ ha⟩
          rw [← hp.2] at hne ⊢
          have hp := hp.1
          generalize e.run (i + 1) = t at hs
          generalize e.run i = s at hs hp hne ⊢
          cases hs <;> simp [upd] at * <;> grind
  obtain ⟨i, l, hi, ha, k, g', hA⟩ := hf.put c j fun i hi => by
    obtain ⟨i', hi', hr⟩ := pool_room h0 hf (wid c) g i
    have hg := (poolInv (h0 ▸ e.steps i')).hand_pos c g hc (hP i' (by omega)).1
    exact ⟨i', hi', _, _, ⟨_, g, rfl⟩, .put c g (hP i' (by omega)).1 hg hr⟩
  subst hA
  have hs := pool_step ha
  have hp := (hP i hi).2
  have : k = (e.run m).next c := by
    rw [← hp]
    generalize e.run (i + 1) = t at hs
    generalize e.run i = s at hs
    cases hs
    rfl
  exact hno ⟨i, g', by omega, this ▸ ha⟩

theorem pool_read_mono {c m : Nat} : (e.run m).read c ≤ (e.run (m + 1)).read c := by
  have hs := e.next m
  cases ha : e.act m with
  | none => rw [ha] at hs; rw [hs]; exact Nat.le_refl _
  | some l =>
    rw [ha] at hs
    generalize e.run (m + 1) = t at hs
    generalize e.run m = s at hs
    cases hs <;> simp [upd]
    split
    · rename_i e; rw [e]; omega
    · exact Nat.le_refl _

theorem pool_read_le {c m j : Nat} (h : m ≤ j) : (e.run m).read c ≤ (e.run j).read c := by
  induction j with
  | zero => have : m = 0 := by omega
            subst this; exact Nat.le_refl _
  | succ j ih =>
    by_cases e1 : m = j + 1
    · subst e1; exact Nat.le_refl _
    · exact Nat.le_trans (ih (by omega)) pool_read_mono

/-- **C118 (every message is handled).** However often the server is started again meanwhile: every message that has been read is begun and ended, if workers and readers run and handlers return. -/
theorem C118_handled (h0 : e.run 0 = {}) (hf : PoolFair e) {c k m : Nat} (hc : wid c < n) (hk : k < (e.run m).read c) :
    ∃ g i j, i < j ∧ e.act i = some (.begin (wid c) g c k) ∧ e.act j = some (.finish (wid c) g c k) := by
  -- handed over
  have hput : ∀ d, ∃ j, m ≤ j ∧ (k < (e.run j).next c ∨ (e.run m).next c + d ≤ (e.run j).next c) := by
    intro d
    induction d with
    | zero => exact ⟨m, Nat.le_refl m, .inr (by omega)⟩
    | succ d ih =>
      obtain ⟨j, hj, h⟩ := ih
      by_cases hk' : k < (e.run j).next c
      · exact ⟨j, hj, .inl hk'⟩
      · have h := h.resolve_left hk'
        obtain ⟨i, g, hi, ha⟩ := pool_put h0 hf hc (m := j) (by have := pool_read_le (e := e) (c := c) hj; omega)
        have hs := pool_step ha
        refine ⟨i + 1, by omega, .inr ?_⟩
        have : (e.run (i + 1)).next c = (e.run j).next c + 1 := by
          generalize e.run (i + 1) = t at hs
          generalize hx : (e.run j).next c = x at hs
          generalize e.run i = s at hs
          cases hs
          simp [upd]
        omega
  obtain ⟨j, hj, h⟩ := hput (k + 1)
  have hkn : k < (e.run j).next c := by omega
  -- begun
  have hbeg : ∃ i g, e.act i = some (.begin (wid c) g c k) := by
    have hd := poolDone (h0 ▸ e.steps j) c
    rcases hd.all k hkn with h | ⟨g, hg⟩
    · simp only [handledOf, List.mem_filterMap] at h
      obtain ⟨l, hl, hx⟩ := h
      obtain ⟨i, hi, ha⟩ := e.mem_trace hl
      cases l <;> simp at hx
      rename_i w g c' k'
      obtain ⟨rfl, rfl⟩ := hx
      have hs := pool_step ha
      have hw : w = wid c' := by
        have hinv := poolInv (h0 ▸ e.steps i)
        generalize e.run (i + 1) = t at hs
        generalize e.run i = s at hs hinv
        cases hs with
        | begin _ _ _ _ rest h1 h2 => exact (hinv.home w g c' k' (.inl (by rw [h2]; simp))).1
      subst hw
      exact ⟨i, g, ha⟩
    · obtain ⟨pre, post, hq⟩ := List.append_of_mem hg
      obtain ⟨i, hi, ha⟩ := pool_begins h0 hf _ hq (Nat.le_refl _)
      exact ⟨i, g, ha⟩
  obtain ⟨i, g, ha⟩ := hbeg
  have hs := pool_step ha
  have hbusy : (e.run (i + 1)).worker (wid c) g = .busy c k ∧ PoolShape n (e.run (i + 1)) := by
    refine ⟨?_, poolShape (h0 ▸ e.steps (i + 1))⟩
    generalize e.run (i + 1) = t at hs
    generalize e.run i = s at hs
    cases hs
    simp [upd2]
  obtain ⟨j', l, hj', hf2, hA, hbj, -⟩ := exec_leads_act e (hf.worker (wid c) g) (P := fun s => s.worker (wid c) g = .busy c k ∧ PoolShape n s)
    (by
      rintro s l t ⟨h, h2⟩ hs hA
      refine ⟨?_, poolShape_step h2 hs⟩
      have := (h2.present (wid c) g).1 (by rw [h]; simp)
      cases hs <;> simp [upd2, poolActs] at * <;> grind)
    (fun s h => ⟨.finish (wid c) g c k, _, ⟨rfl, rfl⟩, .finish (wid c) g _ _ h.1⟩) hbusy
  have hs3 := pool_step hf2
  have : l = .finish (wid c) g c k := by
    generalize e.run (j' + 1) = t at hs3
    generalize e.run j' = s at hs3 hbj
    cases hs3 <;> simp [poolActs] at hA <;> simp_all
  exact ⟨g, i, j', by omega, ha, this ▸ hf2⟩

end

/-! ## Examples -/

/-- Two starts; the two messages of one read are handled in the wrong order, both to the end. -/
theorem pool_example : ∃ t, Steps (PoolCycle.Step 1 1 fun _ => 0) {} [.call, .make 0, .ret, .read 0 1, .pick 0, .put 0 0 1, .call, .make 0, .ret, .pick 0, .put 0 1 2, .begin 0 2 0 1, .finish 0 2 0 1, .begin 0 1 0 0, .finish 0 1 0 0] t ∧
    (∀ w g, t.queue w g = [] ∧ (t.worker w g = .idle ∨ t.worker w g = .absent)) ∧ ∀ c, t.hand c = none ∧ t.next c = t.read c := by
  refine ⟨_, .cons (.call rfl) (.cons (.make 0 rfl (by decide)) (.cons (.ret rfl) (.cons (.read 0 1 (by decide) rfl) (.cons (.pick 0 (by decide) rfl) (.cons (.put 0 1 rfl (by decide) (by decide)) (.cons (.call rfl)
    (.cons (.make 0 rfl (by decide)) (.cons (.ret rfl) (.cons (.pick 0 (by decide) rfl) (.cons (.put 0 2 rfl (by decide) (by decide)) (.cons (.begin 0 2 0 1 [] rfl rfl) (.cons (.finish 0 2 0 1 rfl)
    (.cons (.begin 0 1 0 0 [] rfl rfl) (.cons (.finish 0 1 0 0 rfl) (.nil _))))))))))))))), ?_, ?_⟩
  · intro w g
    simp only [upd2, upd]
    by_cases h1 : w = 0 ∧ g = 1
    · obtain ⟨rfl, rfl⟩ := h1; exact ⟨rfl, .inl rfl⟩
    · by_cases h2 : w = 0 ∧ g = 2
      · obtain ⟨rfl, rfl⟩ := h2; exact ⟨rfl, .inl rfl⟩
      · simp [h1, h2]
  · intro c
    simp only [upd]
    by_cases h1 : c = 0
    · subst h1; exact ⟨rfl, rfl⟩
    · simp [h1]

example : ∃ e : Exec (PoolCycle.Step 1 1 fun _ => 0), e.run 0 = {} ∧ PoolFair e ∧ e.act 3 = some (.read 0 1) ∧ e.act 7 = some (.make 0) := by
  obtain ⟨t, h, ht, hp⟩ := pool_example
  obtain ⟨e, h1, h2, h3, h4⟩ := Exec.ofSteps h
  refine ⟨e, h1, ⟨fun w g => Exec.weakFair_of_end h4 ?_, fun c => Exec.weakFair_of_end h4 ?_, fun c => Exec.strongFair_of_end h4 ?_⟩, by rw [h2]; rfl, by rw [h2]; rfl⟩
  · rintro ⟨l, u, hA, hs⟩
    clear h h1 h2 h3 h4
    have hx : ∀ c k, t.worker w g ≠ .busy c k := by
      intro c k hk
      rcases (ht w g).2 with h | h <;> rw [h] at hk <;> cases hk
    have := (ht w g).1
    clear ht
    cases hs <;> simp_all [poolActs]
  · rintro ⟨l, u, hA, hs⟩
    clear h h1 h2 h3 h4
    have := hp c
    cases hs <;> simp_all
  · rintro ⟨l, u, ⟨k, g, hA⟩, hs⟩
    clear h h1 h2 h3 h4
    have := hp c
    cases hs <;> simp_all

/-- A quiet start between the two messages of one read. -/
example : ∃ ls s, Steps (QuietStep 1 1 (fun _ => 0) 0) {} ls s ∧ handledOf 0 ls = [(true, 0), (false, 0), (true, 1)] ∧ s.starts = 2 := by
  refine ⟨_, _, .cons ⟨.call rfl, by simp⟩ (.cons ⟨.make 0 rfl (by decide), fun _ => ⟨by simp [PoolHeld], rfl⟩⟩ (.cons ⟨.ret rfl, by simp⟩ (.cons ⟨.read 0 1 (by decide) rfl, by simp⟩ (.cons ⟨.pick 0 (by decide) rfl, by simp⟩
    (.cons ⟨.put 0 1 rfl (by decide) (by decide), by simp⟩ (.cons ⟨.begin 0 1 0 0 [] rfl rfl, by simp⟩ (.cons ⟨.finish 0 1 0 0 rfl, by simp⟩ (.cons ⟨.call rfl, by simp⟩
    (.cons ⟨.make 0 rfl (by decide), fun _ => ⟨?_, rfl⟩⟩ (.cons ⟨.ret rfl, by simp⟩ (.cons ⟨.pick 0 (by decide) rfl, by simp⟩ (.cons ⟨.put 0 2 rfl (by decide) (by decide), by simp⟩
    (.cons ⟨.begin 0 2 0 1 [] rfl rfl, by simp⟩ (.nil _)))))))))))))), rfl, rfl⟩
  intro g k
  simp only [PoolHeld, upd2]
  by_cases h : g = 1
  · subst h; simp
  · simp [h]

/-- Split over two queues: the hypotheses of C118_exact with its right side true. -/
example : ∃ ls s, Steps (PoolCycle.Step 1 1 fun _ => 0) {} ls s ∧ OneByOne (handledOf 0 ls) ∧ SplitOver (fun _ => 0) s 0 := by
  refine ⟨_, _, .cons (.call rfl) (.cons (.make 0 rfl (by decide)) (.cons (.ret rfl) (.cons (.read 0 1 (by decide) rfl) (.cons (.pick 0 (by decide) rfl) (.cons (.put 0 1 rfl (by decide) (by decide)) (.cons (.call rfl)
    (.cons (.make 0 rfl (by decide)) (.cons (.ret rfl) (.cons (.pick 0 (by decide) rfl) (.cons (.put 0 2 rfl (by decide) (by decide)) (.nil _))))))))))), ?_, 1, 2, 0, 1, by decide, .inl ?_, .inl ?_⟩
  · intro i x hx; simp [handledOf] at hx
  · simp [upd2]
  · simp [upd2, upd]

/-- A waiting worker of an earlier start (the hypotheses of C118_old). -/
example : ∃ ls s, Steps (PoolCycle.Step 1 1 fun _ => 0) {} ls s ∧ 1 < s.cur 0 ∧ s.worker 0 1 = .idle ∧ s.queue 0 1 = [] ∧ ∀ c, s.hand c ≠ some 1 :=
  ⟨_, _, .cons (.call rfl) (.cons (.make 0 rfl (by decide)) (.cons (.ret rfl) (.cons (.call rfl) (.cons (.make 0 rfl (by decide)) (.cons (.ret rfl) (.nil _)))))), by decide, rfl, rfl, by simp⟩

end Zinx.Props
