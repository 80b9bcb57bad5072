import Verif.Model.Stations
import Verif.Lemmas.ExecOf

/-! # C110: message workers and asynchronous workers do not hold each other up for ever -/

namespace Zinx.Props

open Zinx Zinx.Stations

/-- What has been put on the queue of station `x`, and taken from it. -/
def handedTo (x : Nat) (ls : List Stations.Label) : Nat := ls.countP fun | .arrive y => y = x | .push _ y => y = x | _ => false

def takenFrom (x : Nat) (ls : List Stations.Label) : Nat := ls.countP fun | .take y => y = x | _ => false

/-- Every station of the set waits for room on the full queue of a station of the set. -/
def Circle (cfg : Cfg) (s : Stations.State) (C : Nat → Prop) : Prop := (∃ x, C x) ∧ ∀ x, C x → ∃ y, C y ∧ s.worker x = .send y ∧ cfg.cap y ≤ s.len y

theorem circle_step {cfg : Cfg} {C : Nat → Prop} {s t : Stations.State} {l : Stations.Label} (h : Circle cfg s C) (hs : Stations.Step cfg s l t) : Circle cfg t C ∧ ∀ x, C x → l ≠ .take x := by
  obtain ⟨h1, h2⟩ := h
  refine ⟨⟨h1, fun x hx => ?_⟩, fun x hx e => ?_⟩
  · obtain ⟨y, hy, h3, h4⟩ := h2 x hx
    obtain ⟨z, hz, h5, h6⟩ := h2 y hy
    refine ⟨y, hy, ?_⟩
    cases hs <;> simp only [upd] <;> grind
  · obtain ⟨y, hy, h3, h4⟩ := h2 x hx
    cases hs <;> grind

/-- **C110 (for ever).** Stations that wait for each other in a circle take nothing any more. -/
theorem C110_jam (cfg : Cfg) (C : Nat → Prop) (s t : Stations.State) (h : Circle cfg s C) (ls : List Stations.Label) (hs : Steps (Stations.Step cfg) s ls t) :
    Circle cfg t C ∧ ∀ x, C x → .take x ∉ ls := by
  induction hs with
  | nil => exact ⟨h, by simp⟩
  | cons hs _ ih =>
    have := circle_step h hs
    refine ⟨(ih this.1).1, fun x hx hm => ?_⟩
    rcases List.mem_cons.1 hm with e | hm
    · exact this.2 x hx e.symm
    · exact (ih this.1).2 x hx hm

/-- What is assumed of the scheduler and of user code: stations take what there is; handlers, operations and callbacks return; a sender is not for ever denied room that there is again and again. -/
structure StationFair {cfg : Cfg} (e : Exec (Stations.Step cfg)) : Prop where
  take : ∀ x, e.WeakFair (· = .take x)
  finish : ∀ x, e.StrongFair (· = .finish x)
  push : ∀ x y, e.StrongFair (· = .push x y)

section
variable {cfg : Cfg} (e : Exec (Stations.Step cfg))

/-- Station `x` waits for room at `y` from `N` on. -/
def HeldUp (x y N : Nat) : Prop := ∀ m, N ≤ m → (e.run m).worker x = .send y ∧ cfg.cap y ≤ (e.run m).len y

theorem worker_next {s t : Stations.State} {l : Stations.Label} (hs : Stations.Step cfg s l t) (x : Nat) :
    (s.worker x = .idle → t.worker x = .idle ∨ l = .take x) ∧ (∀ y, s.worker x = .send y → t.worker x = .send y ∨ l = .push x y ∧ t.worker x = .code) ∧
    (l = .finish x → t.worker x = .idle) ∧ (0 < s.len x → 0 < t.len x ∨ l = .take x) := by
  cases hs <;> simp only [upd] <;> grind

theorem next_of (m : Nat) : (e.act m = none ∧ e.run (m + 1) = e.run m) ∨ ∃ l, e.act m = some l ∧ Stations.Step cfg (e.run m) l (e.run (m + 1)) := by
  have := e.next m
  cases h : e.act m with
  | none => rw [h] at this; exact .inl ⟨rfl, this⟩
  | some l => rw [h] at this; exact .inr ⟨l, rfl, this⟩

theorem idle_or_held (hf : StationFair e) (x n : Nat) : (∃ y N, HeldUp e x y N) ∨ ∃ m, n ≤ m ∧ (e.run m).worker x = .idle := by
  by_cases hi : ∃ m, n ≤ m ∧ (e.run m).worker x = .idle
  · exact .inr hi
  refine .inl ?_
  have hi : ∀ m, n ≤ m → (e.run m).worker x ≠ .idle := fun m hm h => hi ⟨m, hm, h⟩
  -- not in its code again and again
  by_cases hc : ∀ m, n ≤ m → ∃ k, m ≤ k ∧ (e.run k).worker x = .code
  · obtain ⟨m, l, hm, ha, rfl⟩ := hf.finish x n fun m hm => by
      obtain ⟨k, hk, h⟩ := hc m hm
      exact ⟨k, hk, _, _, rfl, .finish x h⟩
    rcases next_of e m with ⟨h, _⟩ | ⟨l, h, hs⟩
    · rw [ha] at h; cases h
    · rw [ha] at h; cases h
      exact absurd ((worker_next hs x).2.2.1 rfl) (hi (m + 1) (by omega))
  · have : ∃ m, n ≤ m ∧ ∀ k, m ≤ k → (e.run k).worker x ≠ .code := Classical.byContradiction fun h => hc fun m hm => Classical.byContradiction fun h' => h ⟨m, hm, fun k hk hw => h' ⟨k, hk, hw⟩⟩
    obtain ⟨m, hm, hc⟩ := this
    obtain ⟨y, hy⟩ : ∃ y, (e.run m).worker x = .send y := by
      cases h : (e.run m).worker x with
      | idle => exact absurd h (hi m hm)
      | code => exact absurd h (hc m (by omega))
      | send y => exact ⟨y, rfl⟩
    have hy : ∀ k, (e.run (m + k)).worker x = .send y := by
      intro k
      induction k with
      | zero => exact hy
      | succ k ih =>
        rcases next_of e (m + k) with ⟨_, h⟩ | ⟨l, _, hs⟩
        · rw [← Nat.add_assoc, h]; exact ih
        · rcases (worker_next hs x).2.1 y ih with h | ⟨_, h⟩
          · exact h
          · exact absurd h (hc (m + k + 1) (by omega))
    have hy : ∀ k, m ≤ k → (e.run k).worker x = .send y := fun k hk => by
      have := hy (k - m)
      rwa [show m + (k - m) = k by omega] at this
    by_cases hr : ∀ k, m ≤ k → ∃ j, k ≤ j ∧ (e.run j).len y < cfg.cap y
    · obtain ⟨k, l, hk, ha, rfl⟩ := hf.push x y m fun k hk => by
        obtain ⟨j, hj, h⟩ := hr k hk
        exact ⟨j, hj, _, _, rfl, .push x y (hy j (by omega)) h⟩
      rcases next_of e k with ⟨h, _⟩ | ⟨l, h, hs⟩
      · rw [ha] at h; cases h
      · rw [ha] at h; cases h
        have : (e.run (k + 1)).worker x = .code := by
          generalize e.run (k + 1) = t at hs
          cases hs; simp [upd]
        exact absurd this (hc (k + 1) (by omega))
    · have : ∃ k, m ≤ k ∧ ∀ j, k ≤ j → cfg.cap y ≤ (e.run j).len y :=
        Classical.byContradiction fun h => hr fun k hk => Classical.byContradiction fun h' => h ⟨k, hk, fun j hj => Nat.le_of_not_lt fun hl => h' ⟨j, hj, hl⟩⟩
      obtain ⟨k, hk, hfull⟩ := this
      exact ⟨y, k, fun j hj => ⟨hy j (by omega), hfull j hj⟩⟩

/-- A station that is not held up takes something from its queue, if there is something. -/
theorem takes_next (hf : StationFair e) {x : Nat} (hx : ∀ y N, ¬ HeldUp e x y N) {n : Nat} (hl : 0 < (e.run n).len x) : ∃ m, n ≤ m ∧ e.act m = some (.take x) := by
  apply Classical.byContradiction
  intro hno
  have hno : ∀ m, n ≤ m → e.act m ≠ some (.take x) := fun m hm h => hno ⟨m, hm, h⟩
  have hlen : ∀ k, 0 < (e.run (n + k)).len x := by
    intro k
    induction k with
    | zero => exact hl
    | succ k ih =>
      rcases next_of e (n + k) with ⟨_, h⟩ | ⟨l, ha, hs⟩
      · rw [← Nat.add_assoc, h]; exact ih
      · rcases (worker_next hs x).2.2.2 ih with h | h
        · exact h
        · exact absurd (h ▸ ha) (hno (n + k) (by omega))
  rcases idle_or_held e hf x n with ⟨y, N, h⟩ | ⟨m, hm, hi⟩
  · exact hx y N h
  have hidle : ∀ k, (e.run (m + k)).worker x = .idle := by
    intro k
    induction k with
    | zero => exact hi
    | succ k ih =>
      rcases next_of e (m + k) with ⟨_, h⟩ | ⟨l, ha, hs⟩
      · rw [← Nat.add_assoc, h]; exact ih
      · rcases (worker_next hs x).1 ih with h | h
        · exact h
        · exact absurd (h ▸ ha) (hno (m + k) (by omega))
  obtain ⟨k, l, hk, ha, rfl⟩ := hf.take x m fun k hk => by
    have h1 := hidle (k - m)
    have h2 := hlen (k - n)
    rw [show m + (k - m) = k by omega] at h1
    rw [show n + (k - n) = k by omega] at h2
    exact ⟨_, _, rfl, .take x h1 h2⟩
  exact hno k (by omega) ha

theorem station_known {ls : List Stations.Label} {s : Stations.State} (h : Steps (Stations.Step cfg) {} ls s) :
    (∀ x, 0 < s.len x → x < cfg.n) ∧ (∀ x, s.worker x ≠ .idle → x < cfg.n) ∧ (∀ x y, s.worker x = .send y → y < cfg.n) ∧ ∀ x, s.len x ≤ cfg.cap x := by
  refine h.invariant (P := fun s => (∀ x, 0 < s.len x → x < cfg.n) ∧ (∀ x, s.worker x ≠ .idle → x < cfg.n) ∧ (∀ x y, s.worker x = .send y → y < cfg.n) ∧ ∀ x, s.len x ≤ cfg.cap x) ?_ ?_
  · intro s l t ⟨h2, h3, h4, h5⟩ hs
    cases hs <;> simp only [upd] at * <;> grind
  · simp

theorem station_counts {ls : List Stations.Label} {s : Stations.State} (h : Steps (Stations.Step cfg) {} ls s) (x : Nat) : handedTo x ls = takenFrom x ls + s.len x := by
  refine h.invariant_trace (P := fun ls s => handedTo x ls = takenFrom x ls + s.len x) ?_ ?_
  · intro ls s l t h1 hs
    have e1 : handedTo x (ls ++ [l]) = handedTo x ls + handedTo x [l] := by simp [handedTo, List.countP_append]
    have e2 : takenFrom x (ls ++ [l]) = takenFrom x ls + takenFrom x [l] := by simp [takenFrom, List.countP_append]
    rw [e1, e2]
    cases hs <;> simp only [upd, handedTo, takenFrom, List.countP_singleton, decide_eq_true_eq] at * <;> grind
  · simp [handedTo, takenFrom]

theorem taken_grows {m n : Nat} (h : m ≤ n) (x : Nat) : takenFrom x (e.trace m) ≤ takenFrom x (e.trace n) := by
  induction n with
  | zero =>
    have : m = 0 := by omega
    subst this; exact Nat.le_refl _
  | succ n ih =>
    by_cases hm : m = n + 1
    · subst hm; exact Nat.le_refl _
    · have := ih (by omega)
      simp only [Exec.trace, takenFrom, List.countP_append] at *
      omega

/-- All that a station has been given by some time is taken, if it is not held up. -/
theorem takes_all (h0 : e.run 0 = {}) (hf : StationFair e) {x : Nat} (hx : ∀ y N, ¬ HeldUp e x y N) (n : Nat) : ∃ m, n ≤ m ∧ handedTo x (e.trace n) ≤ takenFrom x (e.trace m) := by
  suffices H : ∀ k m, n ≤ m → handedTo x (e.trace n) ≤ takenFrom x (e.trace m) + k → ∃ m, n ≤ m ∧ handedTo x (e.trace n) ≤ takenFrom x (e.trace m) from
    H _ n (Nat.le_refl _) (Nat.le_add_left _ (takenFrom x (e.trace n)))
  intro k
  induction k with
  | zero => exact fun m hm h => ⟨m, hm, h⟩
  | succ k ih =>
    intro m hm h
    by_cases hd : handedTo x (e.trace n) ≤ takenFrom x (e.trace m)
    · exact ⟨m, hm, hd⟩
    · have hl : 0 < (e.run m).len x := by
        have h1 := station_counts (h0 ▸ e.steps m) x
        have h2 : handedTo x (e.trace n) ≤ handedTo x (e.trace m) := by
          clear h hd h1
          induction m with
          | zero =>
            have : n = 0 := by omega
            subst this; exact Nat.le_refl _
          | succ m ih =>
            by_cases he : n = m + 1
            · subst he; exact Nat.le_refl _
            · have := ih (by omega)
              simp only [Exec.trace, handedTo, List.countP_append] at *
              omega
        omega
      obtain ⟨m', hm', ha⟩ := takes_next e hf hx hl
      refine ih (m' + 1) (by omega) ?_
      have := taken_grows e hm' x
      have e1 : takenFrom x (e.trace (m' + 1)) = takenFrom x (e.trace m') + 1 := by
        simp [Exec.trace, ha, takenFrom, List.countP_append]
      omega

/-- **C110 (exact).** In every fair execution, either whatever is put on a queue is taken from it, or from some time on there are stations that wait for room on each other's full queues in a circle. -/
theorem C110_exact (hcap : ∀ x, 0 < cfg.cap x) (h0 : e.run 0 = {}) (hf : StationFair e) :
    (∀ x n, ∃ m, n ≤ m ∧ handedTo x (e.trace n) ≤ takenFrom x (e.trace m)) ↔ ¬ ∃ C N, Circle cfg (e.run N) C := by
  constructor
  · rintro h ⟨C, N, hC⟩
    have hC' : ∀ m, N ≤ m → Circle cfg (e.run m) C := e.invariant (P := fun s => Circle cfg s C) (fun s l t h hs => (circle_step h hs).1) hC
    obtain ⟨⟨x, hx⟩, h2⟩ := hC
    obtain ⟨y, hy, _, hfull⟩ := h2 x hx
    obtain ⟨m, hm, hle⟩ := h y N
    have h1 := station_counts (h0 ▸ e.steps N) y
    have h3 := hcap y
    have h4 : takenFrom y (e.trace m) = takenFrom y (e.trace N) := by
      clear hle h1 h3
      induction m with
      | zero =>
        have : N = 0 := by omega
        subst this; rfl
      | succ m ih =>
        by_cases he : N = m + 1
        · rw [he]
        · rw [← ih (by omega)]
          have hc := hC' m (by omega)
          simp only [Exec.trace, takenFrom, List.countP_append]
          rcases next_of e m with ⟨ha, _⟩ | ⟨l, ha, hs⟩
          · simp [ha]
          · have := (circle_step hc hs).2 y hy
            rw [ha]
            cases l <;> simp <;> (intro he; exact this (by rw [he]))
    omega
  · intro hno x n
    apply Classical.byContradiction
    intro hbad
    have hheld : ∃ y N, HeldUp e x y N := Classical.byContradiction fun h => hbad (takes_all e h0 hf (fun y N h' => h ⟨y, N, h'⟩) n)
    -- the next station is held up as well
    have hnext : ∀ x y N, HeldUp e x y N → ∃ z M, HeldUp e y z M := by
      intro x y N h
      apply Classical.byContradiction
      intro hy
      have hl := (h N (Nat.le_refl _)).2
      have := hcap y
      obtain ⟨m, hm, ha⟩ := takes_next e hf (x := y) (fun z M h' => hy ⟨z, M, h'⟩) (n := N) (by omega)
      have h1 := (station_known (h0 ▸ e.steps m)).2.2.2 y
      have h2 := (h (m + 1) (by omega)).2
      rcases next_of e m with ⟨h, _⟩ | ⟨l, h, hs⟩
      · rw [ha] at h; cases h
      · rw [ha] at h; cases h
        generalize e.run (m + 1) = t at hs h2
        cases hs with
        | take _ _ h3 => simp [upd] at h2; omega
    have hbound : ∀ k, ∃ M, ∀ x < k, (∃ y N, HeldUp e x y N) → ∃ y, HeldUp e x y M := by
      intro k
      induction k with
      | zero => exact ⟨0, by omega⟩
      | succ k ih =>
        obtain ⟨M, hM⟩ := ih
        by_cases hk : ∃ y N, HeldUp e k y N
        · obtain ⟨y, N, hy⟩ := hk
          refine ⟨max M N, fun x hx h => ?_⟩
          by_cases hxk : x = k
          · subst hxk; exact ⟨y, fun m hm => hy m (by omega)⟩
          · obtain ⟨z, hz⟩ := hM x (by omega) h
            exact ⟨z, fun m hm => hz m (by omega)⟩
        · refine ⟨M, fun x hx h => ?_⟩
          by_cases hxk : x = k
          · subst hxk; exact absurd h hk
          · exact hM x (by omega) h
    obtain ⟨M, hM⟩ := hbound cfg.n
    refine hno ⟨fun x => ∃ y N, HeldUp e x y N, M, ⟨x, hheld⟩, fun x hx => ?_⟩
    have hxn : x < cfg.n := by
      obtain ⟨y, N, h⟩ := hx
      exact (station_known (h0 ▸ e.steps N)).2.1 x (by rw [(h N (Nat.le_refl _)).1]; nofun)
    obtain ⟨y, hy⟩ := hM x hxn hx
    exact ⟨y, hnext x y M hy, hy M (Nat.le_refl _)⟩

/-- What has been started at station `y` (operations for which `Process` has been called, messages), and what has been done there. -/
def startedAt (y : Nat) (ls : List Stations.Label) : Nat := ls.countP fun | .arrive z => z = y | .call _ z => z = y | _ => false

def doneAt (y : Nat) (ls : List Stations.Label) : Nat := ls.countP fun | .finish z => z = y | _ => false

theorem outstanding {ls : List Stations.Label} {s : Stations.State} (h : Steps (Stations.Step cfg) {} ls s) (y : Nat) :
    ∃ l : List Nat, l.Nodup ∧ (∀ w, w ∈ l ↔ s.worker w = .send y) ∧ startedAt y ls = s.len y + (if s.worker y = .idle then 0 else 1) + doneAt y ls + l.length := by
  refine h.invariant_trace (P := fun ls s => ∃ l : List Nat, l.Nodup ∧ (∀ w, w ∈ l ↔ s.worker w = .send y) ∧ startedAt y ls = s.len y + (if s.worker y = .idle then 0 else 1) + doneAt y ls + l.length) ?_ ?_
  · intro ls s l t ⟨q, h1, h2, h3⟩ hs
    have e1 : startedAt y (ls ++ [l]) = startedAt y ls + startedAt y [l] := by simp [startedAt, List.countP_append]
    have e2 : doneAt y (ls ++ [l]) = doneAt y ls + doneAt y [l] := by simp [doneAt, List.countP_append]
    rw [e1, e2]
    cases hs with
    | arrive x hx hl => exact ⟨q, h1, h2, by simp only [upd, startedAt, doneAt, List.countP_singleton] at *; grind⟩
    | take x hi hl => exact ⟨q, h1, by simp only [upd]; grind, by simp only [upd, startedAt, doneAt, List.countP_singleton] at *; grind⟩
    | call x z hc hz =>
      by_cases he : z = y
      · subst he
        refine ⟨x :: q, List.nodup_cons.2 ⟨fun h => ?_, h1⟩, by simp only [upd]; grind, by simp only [upd, startedAt, doneAt, List.countP_singleton, List.length_cons, decide_eq_true_eq] at *; grind⟩
        rw [h2 x, hc] at h; cases h
      · exact ⟨q, h1, by simp only [upd]; grind, by simp only [upd, startedAt, doneAt, List.countP_singleton] at *; grind⟩
    | push x z hc hz =>
      by_cases he : z = y
      · subst he
        have hx : x ∈ q := (h2 x).2 hc
        have hlen := List.length_erase_of_mem hx
        have hpos : 0 < q.length := List.length_pos_of_mem hx
        refine ⟨q.erase x, h1.erase _, fun w => ?_, by simp only [upd, startedAt, doneAt, List.countP_singleton] at *; grind⟩
        rw [h1.mem_erase_iff, h2 w]
        simp only [upd]
        grind
      · exact ⟨q, h1, by simp only [upd]; grind, by simp only [upd, startedAt, doneAt, List.countP_singleton] at *; grind⟩
    | finish x hc => exact ⟨q, h1, by simp only [upd]; grind, by simp only [upd, startedAt, doneAt, List.countP_singleton] at *; grind⟩
  · exact ⟨[], by simp, by simp, by simp [startedAt, doneAt]⟩

/-- **C110 (enough room).** Let sends go down the ranks, except for sends to stations `B` that never have more work than their queue has room for. Then in every fair execution, whatever is put on a queue is taken from it. -/
theorem C110_partial (hcap : ∀ x, 0 < cfg.cap x) (h0 : e.run 0 = {}) (hf : StationFair e) (B : Nat → Prop) (r : Nat → Nat) (hcall : ∀ n x y, e.act n = some (.call x y) → B y ∨ r y < r x)
    (hB : ∀ n y, B y → startedAt y (e.trace n) ≤ doneAt y (e.trace n) + cfg.cap y) (x n : Nat) : ∃ m, n ≤ m ∧ handedTo x (e.trace n) ≤ takenFrom x (e.trace m) := by
  refine (C110_exact e hcap h0 hf).2 ?_ x n
  rintro ⟨C, N, ⟨x, hx⟩, hC⟩
  have hsend : ∀ n x y, (e.run n).worker x = .send y → B y ∨ r y < r x := by
    intro n x y
    induction n with
    | zero => rw [h0]; nofun
    | succ n ih =>
      intro h
      rcases next_of e n with ⟨_, h'⟩ | ⟨l, ha, hs⟩
      · exact ih (h' ▸ h)
      · have := hcall n x y
        generalize e.run (n + 1) = t at hs h
        cases hs <;> simp only [upd] at h <;> grind
  have hrank : ∀ k x, C x → r x ≤ k → False := by
    intro k
    induction k with
    | zero =>
      intro x hx hr
      obtain ⟨y, hy, h1, h2⟩ := hC x hx
      rcases hsend N x y h1 with h | h
      · obtain ⟨l, _, hl, hc⟩ := outstanding (h0 ▸ e.steps N) y
        have := List.length_pos_of_mem ((hl x).2 h1)
        have := hB N y h
        omega
      · omega
    | succ k ih =>
      intro x hx hr
      obtain ⟨y, hy, h1, h2⟩ := hC x hx
      rcases hsend N x y h1 with h | h
      · obtain ⟨l, _, hl, hc⟩ := outstanding (h0 ▸ e.steps N) y
        have := List.length_pos_of_mem ((hl x).2 h1)
        have := hB N y h
        omega
      · exact ih y hy (by omega)
  exact hrank (r x) x hx (Nat.le_refl _)

end

/-- How many sends station `x` has begun since it last took something. -/
def callsIn (x : Nat) (ls : List Stations.Label) : Nat := ls.foldl (fun n l => match l with | .take y => if y = x then 0 else n | .call y _ => if y = x then n + 1 else n | _ => n) 0

/-- No handler, operation or callback sends more than once. -/
def SendsOnce (ls : List Stations.Label) : Prop := ∀ x pre, pre <+: ls → callsIn x pre ≤ 1

theorem callsIn_snoc (x : Nat) (ls : List Stations.Label) (l : Stations.Label) :
    callsIn x (ls ++ [l]) = match l with | .take y => if y = x then 0 else callsIn x ls | .call y _ => if y = x then callsIn x ls + 1 else callsIn x ls | _ => callsIn x ls := by
  simp only [callsIn, List.foldl_append, List.foldl_cons, List.foldl_nil]

theorem sendsOnce_snoc {ls : List Stations.Label} {l : Stations.Label} (h : SendsOnce ls) (hl : ∀ x y, l = .call x y → callsIn x ls = 0) : SendsOnce (ls ++ [l]) := by
  intro x pre hp
  rcases List.prefix_concat_iff.1 hp with rfl | hp
  · have := h x ls (List.prefix_refl _)
    rw [callsIn_snoc]
    cases l <;> simp only <;> grind
  · exact h x pre hp

/-- A worker, an asynchronous worker that is in an operation, and how often each has sent. -/
structure Queued (cfg : Cfg) (a b : Nat) (w0 w1 : Worker) (k0 k1 : Nat) (ls : List Stations.Label) : Prop where
  steps : Steps (Stations.Step cfg) {} ls { len := upd (upd (fun _ => 0) 0 a) 1 b, worker := upd (upd (fun _ => .idle) 0 w0) 1 w1 }
  once : SendsOnce ls
  c0 : callsIn 0 ls = k0
  c1 : callsIn 1 ls = k1

theorem queued_step {cfg : Cfg} {a b a' b' : Nat} {w0 w1 w0' w1' : Worker} {k0 k1 k0' k1' : Nat} {ls : List Stations.Label} (h : Queued cfg a b w0 w1 k0 k1 ls) (l : Stations.Label) {t : Stations.State}
    (hs : Stations.Step cfg { len := upd (upd (fun _ => 0) 0 a) 1 b, worker := upd (upd (fun _ => .idle) 0 w0) 1 w1 } l t) (ht : t = { len := upd (upd (fun _ => 0) 0 a') 1 b', worker := upd (upd (fun _ => .idle) 0 w0') 1 w1' })
    (hl : ∀ x y, l = .call x y → callsIn x ls = 0) (h0 : callsIn 0 (ls ++ [l]) = k0') (h1 : callsIn 1 (ls ++ [l]) = k1') : Queued cfg a' b' w0' w1' k0' k1' (ls ++ [l]) :=
  ⟨h.steps.snoc (ht ▸ hs), sendsOnce_snoc h.once hl, h0, h1⟩

theorem upd_zero {α : Type} (f : Nat → α) (a b a' : α) : upd (upd (upd f 0 a) 1 b) 0 a' = upd (upd f 0 a') 1 b := by
  funext j; simp only [upd]; grind

theorem upd_one {α : Type} (f : Nat → α) (a b b' : α) : upd (upd (upd f 0 a) 1 b) 1 b' = upd (upd f 0 a) 1 b' := by
  funext j; simp only [upd]; grind

section
variable {cfg : Cfg} {a b k0 k1 : Nat} {w0 w1 : Worker} {ls : List Stations.Label}

theorem queued_arrive (hn : 0 < cfg.n) (h : Queued cfg a b w0 w1 k0 k1 ls) (hc : a < cfg.cap 0) : Queued cfg (a + 1) b w0 w1 k0 k1 (ls ++ [.arrive 0]) :=
  queued_step h (.arrive 0) (.arrive 0 hn hc) (by rw [upd_zero]; rfl) (by nofun) (by rw [callsIn_snoc]; exact h.c0) (by rw [callsIn_snoc]; exact h.c1)

theorem queued_take0 (h : Queued cfg (a + 1) b .idle w1 k0 k1 ls) : Queued cfg a b .code w1 0 k1 (ls ++ [.take 0]) :=
  queued_step h (.take 0) (.take 0 rfl (Nat.succ_pos _)) (by rw [upd_zero, upd_zero]; rfl) (by nofun) (by rw [callsIn_snoc]; rfl) (by rw [callsIn_snoc]; exact h.c1)

theorem queued_take1 (h : Queued cfg a (b + 1) w0 .idle k0 k1 ls) : Queued cfg a b w0 .code k0 0 (ls ++ [.take 1]) :=
  queued_step h (.take 1) (.take 1 rfl (Nat.succ_pos _)) (by rw [upd_one, upd_one]; rfl) (by nofun) (by rw [callsIn_snoc]; exact h.c0) (by rw [callsIn_snoc]; rfl)

theorem queued_call0 (hn : 1 < cfg.n) (h : Queued cfg a b .code w1 0 k1 ls) : Queued cfg a b (.send 1) w1 1 k1 (ls ++ [.call 0 1]) :=
  queued_step h (.call 0 1) (.call 0 1 rfl hn) (by rw [upd_zero]) (by intro x y e; cases e; exact h.c0) (by rw [callsIn_snoc]; simp [h.c0]) (by rw [callsIn_snoc]; exact h.c1)

theorem queued_call1 (hn : 0 < cfg.n) (h : Queued cfg a b w0 .code k0 0 ls) : Queued cfg a b w0 (.send 0) k0 1 (ls ++ [.call 1 0]) :=
  queued_step h (.call 1 0) (.call 1 0 rfl hn) (by rw [upd_one]) (by intro x y e; cases e; exact h.c1) (by rw [callsIn_snoc]; exact h.c0) (by rw [callsIn_snoc]; simp [h.c1])

theorem queued_push (h : Queued cfg a b (.send 1) w1 k0 k1 ls) (hc : b < cfg.cap 1) : Queued cfg a (b + 1) .code w1 k0 k1 (ls ++ [.push 0 1]) :=
  queued_step h (.push 0 1) (.push 0 1 rfl hc) (by rw [upd_one, upd_zero]; rfl) (by nofun) (by rw [callsIn_snoc]; exact h.c0) (by rw [callsIn_snoc]; exact h.c1)

theorem queued_finish (h : Queued cfg a b .code w1 k0 k1 ls) : Queued cfg a b .idle w1 k0 k1 (ls ++ [.finish 0]) :=
  queued_step h (.finish 0) (.finish 0 rfl) (by rw [upd_zero]) (by nofun) (by rw [callsIn_snoc]; exact h.c0) (by rw [callsIn_snoc]; exact h.c1)

end

/-- **C110, refuted:** with two stations or more, and whatever room their queues have: a worker and an asynchronous worker may come to wait for each other, although no handler starts more than one operation, no operation
submits more than one callback and no callback has been run. (A message comes, its handler starts an operation, which is begun. As many messages again come as the queue of operations has room for, each starting an
operation, and one more; the queue of the worker is filled with messages; the first operation ends with a callback.) -/
theorem C110_refuted (cfg : Cfg) (hn : 1 < cfg.n) (hcap : ∀ x, 0 < cfg.cap x) :
    ∃ ls s, Steps (Stations.Step cfg) {} ls s ∧ SendsOnce ls ∧ takenFrom 1 ls = 1 ∧ Circle cfg s (fun x => x < 2) ∧ (∀ x, x < 2 → s.len x = cfg.cap x) ∧ ∀ x, 2 ≤ x → s.worker x = .idle ∧ s.len x = 0 := by
  have h0 := hcap 0
  have h1 := hcap 1
  have start : Queued cfg 0 0 .idle .idle 0 0 [] := by
    refine ⟨?_, fun x pre hp => ?_, rfl, rfl⟩
    · have e1 : upd (upd (fun _ => 0) 0 0) 1 0 = fun _ : Nat => 0 := by funext j; simp [upd]
      have e2 : upd (upd (fun _ => Worker.idle) 0 .idle) 1 .idle = fun _ : Nat => Worker.idle := by funext j; simp [upd]
      rw [e1, e2]
      exact .nil _
    · rw [List.prefix_nil.1 hp]; exact Nat.zero_le _
  have first := queued_take1 (queued_finish (queued_push (queued_call0 hn (queued_take0 (queued_arrive (by omega) start h0))) h1))
  have more : ∀ b, b ≤ cfg.cap 1 → ∃ ls, Queued cfg 0 b .idle .code 1 0 ls ∧ takenFrom 1 ls = 1 := by
    intro b
    induction b with
    | zero => exact fun _ => ⟨_, first, rfl⟩
    | succ b ih =>
      intro hb
      obtain ⟨ls, h, ht⟩ := ih (by omega)
      exact ⟨_, queued_finish (queued_push (queued_call0 hn (queued_take0 (queued_arrive (by omega) h h0))) (by omega)), by simpa [takenFrom, List.countP_append] using ht⟩
  obtain ⟨ls1, f1, t1⟩ := more _ (Nat.le_refl _)
  have f2 := queued_call0 hn (queued_take0 (queued_arrive (by omega) f1 h0))
  have rest : ∀ a, a ≤ cfg.cap 0 → ∃ ls, Queued cfg a (cfg.cap 1) (.send 1) .code 1 0 ls ∧ takenFrom 1 ls = 1 := by
    intro a
    induction a with
    | zero => exact fun _ => ⟨_, f2, by simpa [takenFrom, List.countP_append] using t1⟩
    | succ a ih =>
      intro ha
      obtain ⟨ls, h, ht⟩ := ih (by omega)
      exact ⟨_, queued_arrive (by omega) h (by omega), by simpa [takenFrom, List.countP_append] using ht⟩
  obtain ⟨ls, f3, t3⟩ := rest _ (Nat.le_refl _)
  have f4 := queued_call1 (by omega) f3
  refine ⟨_, _, f4.steps, f4.once, by simpa [takenFrom, List.countP_append] using t3, ⟨⟨0, by omega⟩, fun x hx => ?_⟩, fun x hx => ?_, fun x hx => ?_⟩
  · rcases (by omega : x = 0 ∨ x = 1) with rfl | rfl
    · exact ⟨1, by omega, rfl, Nat.le_refl _⟩
    · exact ⟨0, by omega, rfl, Nat.le_refl _⟩
  · rcases (by omega : x = 0 ∨ x = 1) with rfl | rfl <;> rfl
  · simp only [upd]
    grind

/-- **C110, refuted:** hence there are fair executions, of handlers that start at most one operation each, in which messages and operations are queued and never taken. -/
theorem C110_starves_refuted (cfg : Cfg) (hn : 1 < cfg.n) (hcap : ∀ x, 0 < cfg.cap x) :
    ∃ e : Exec (Stations.Step cfg), e.run 0 = {} ∧ StationFair e ∧ (∀ n, SendsOnce (e.trace n)) ∧ ∃ n, ∀ x, x < 2 → ∀ m, takenFrom x (e.trace m) < handedTo x (e.trace n) := by
  obtain ⟨ls, s, hs, ho, -, hC, hfull, hrest⟩ := C110_refuted cfg hn hcap
  obtain ⟨e, h1, h2, h3, h4⟩ := Exec.ofSteps hs
  have hw : ∀ x, (s.worker x = .idle ∧ s.len x = 0) ∨ ∃ y, s.worker x = .send y ∧ cfg.cap y ≤ s.len y := by
    intro x
    by_cases hx : x < 2
    · obtain ⟨y, _, h⟩ := hC.2 x hx
      exact .inr ⟨y, h⟩
    · exact .inl (hrest x (by omega))
  refine ⟨e, h1, ⟨fun x => Exec.weakFair_of_end h4 ?_, fun x => Exec.strongFair_of_end h4 ?_, fun x y => Exec.strongFair_of_end h4 ?_⟩, fun n x pre hp => ?_, ls.length, fun x hx m => ?_⟩
  · rintro ⟨_, t, rfl, hs⟩
    cases hs with
    | take _ h5 h6 => rcases hw x with ⟨_, h⟩ | ⟨y, h, _⟩
                      · omega
                      · rw [h] at h5; cases h5
  · rintro ⟨_, t, rfl, hs⟩
    cases hs with
    | finish _ h5 => rcases hw x with ⟨h, _⟩ | ⟨y, h, _⟩ <;> (rw [h] at h5; cases h5)
  · rintro ⟨_, t, rfl, hs⟩
    cases hs with
    | push _ _ h5 h6 => rcases hw x with ⟨h, _⟩ | ⟨z, h, h7⟩
                        · rw [h] at h5; cases h5
                        · rw [h] at h5; cases h5; omega
  · rw [h3] at hp
    exact ho x pre (hp.trans (List.take_prefix _ _))
  · have hc := station_counts hs x
    have hle : takenFrom x (e.trace m) ≤ takenFrom x ls := by
      rw [h3]
      exact (List.take_sublist _ _).countP_le
    have hlen := hfull x hx
    have := hcap x
    rw [h3 ls.length, List.take_length]
    omega

/-- A message is handled; its handler starts an operation, which submits a callback, which is run. -/
example : ∃ e : Exec (Stations.Step ⟨2, fun _ => 1⟩), e.run 0 = {} ∧ StationFair e ∧ (∀ n x y, e.act n = some (.call x y) → y = 1 ∨ (fun z => z) y < (fun z => z) x) ∧
    (∀ n y, y = 1 → startedAt y (e.trace n) ≤ doneAt y (e.trace n) + 1) ∧ ∃ n, handedTo 0 (e.trace n) = 2 ∧ handedTo 1 (e.trace n) = 1 := by
  obtain ⟨e, h1, h2, h3, h4⟩ := Exec.ofSteps (step := Stations.Step ⟨2, fun _ => 1⟩) (s := {})
    (ls := [.arrive 0, .take 0, .call 0 1, .push 0 1, .finish 0, .take 1, .call 1 0, .push 1 0, .finish 1, .take 0, .finish 0])
    (.cons (.arrive 0 (by decide) (by decide)) <| .cons (.take 0 rfl (by decide)) <| .cons (.call 0 1 rfl (by decide)) <| .cons (.push 0 1 rfl (by decide)) <| .cons (.finish 0 rfl) <| .cons (.take 1 rfl (by decide)) <|
      .cons (.call 1 0 rfl (by decide)) <| .cons (.push 1 0 rfl (by decide)) <| .cons (.finish 1 rfl) <| .cons (.take 0 rfl (by decide)) <| .cons (.finish 0 rfl) (.nil _))
  refine ⟨e, h1, ⟨fun x => Exec.weakFair_of_end h4 ?_, fun x => Exec.strongFair_of_end h4 ?_, fun x y => Exec.strongFair_of_end h4 ?_⟩, fun n x y ha => ?_, fun n y hy => ?_, 11, ?_⟩
  · rintro ⟨_, t, rfl, hs⟩
    cases hs with
    | take _ _ h => simp [upd] at h; grind
  · rintro ⟨_, t, rfl, hs⟩
    cases hs with
    | finish _ h => simp [upd] at h; grind
  · rintro ⟨_, t, rfl, hs⟩
    cases hs with
    | push _ _ h => simp [upd] at h; grind
  · rw [h2] at ha
    have := List.mem_of_getElem? ha
    simp at this
    rcases this with ⟨rfl, rfl⟩ | ⟨rfl, rfl⟩
    · exact .inl rfl
    · exact .inr (by decide)
  · subst hy
    rw [h3]
    exact Nat.le_trans (List.Sublist.countP_le (List.take_sublist _ _)) (Nat.le_add_left _ _)
  · rw [h3]
    exact ⟨rfl, rfl⟩

end Zinx.Props
