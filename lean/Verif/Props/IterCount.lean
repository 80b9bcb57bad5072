import Verif.Props.IterChanLive

/-!
# C120: `IterBuffered` after `ShardCount` has been set
-/

namespace Zinx.Props

open Zinx.IterChan

variable {E : Type}

/-- How the counter of the first WaitGroup goes down: once for each shard. -/
structure CountInv (n m : Nat) (s : State E) : Prop where
  spawned : ∀ i, snapOn (s.snap i) = true ↔ i < mainAt n s.main
  mainLe : mainAt n s.main ≤ n
  wg : s.dead = true ∨ s.wg + n = m + sumBelow (fun i => if snapPending (s.snap i) then 1 else 0) n

theorem countInv_start (n m : Nat) (items : Nat → List E) : CountInv n m (start items m) := by
  constructor <;> simp [start, mainAt, snapOn, snapPending]
  exact sumBelow_ones n |>.symm

theorem countInv_step {n m : Nat} {s t : State E} {l : Label E} (h : CountInv n m s) (hs : IterChan.Step n m s l t) : CountInv n m t := by
  have hsnap : ∀ (i : Nat) (sn : Snap E), snapOn (s.snap i) = true → snapOn sn = true → ∀ w, w + (if snapPending (s.snap i) then 1 else 0) = s.wg + (if snapPending sn then 1 else 0) → s.dead = false →
      (∀ j, snapOn (IterChan.upd s.snap i sn j) = true ↔ j < mainAt n s.main) ∧ w + n = m + sumBelow (fun j => if snapPending (IterChan.upd s.snap i sn j) then 1 else 0) n := by
    intro i sn h1 h2 w hw hd
    have hi : i < n := by have := (h.spawned i).1 h1; have := h.mainLe; omega
    constructor
    · refine shard_at (i := i) ?_ fun j hj => ?_
      · simp only [upd_self, h2, true_iff]; exact (h.spawned i).1 h1
      · simp only [upd_ne _ _ hj]; exact h.spawned j
    · have h3 := count_upd s.snap (fun x => if snapPending x then 1 else 0) sn hi
      have h4 := h.wg.resolve_left (by rw [hd]; simp)
      omega
  cases hs with
  | spawn j hd hm hj =>
    have hab : s.snap j = .absent := by
      cases hc : s.snap j <;> first | rfl | (have := (h.spawned j).1 (by rw [hc]; rfl); rw [hm] at this; simp [mainAt] at this)
    refine ⟨?_, hj, .inr ?_⟩
    · refine shard_at (i := j) ?_ fun k hk => ?_
      · simp [upd_self, snapOn, mainAt]
      · simp only [upd_ne _ _ hk]; rw [h.spawned k, hm]; simp only [mainAt]; omega
    · have h3 := count_upd s.snap (fun x => if snapPending x then 1 else 0) .lock hj
      have h4 := h.wg.resolve_left (by rw [hd]; simp)
      rw [hab] at h3
      simp only [snapPending, if_true] at h3
      simp only [snapPending] at h4 ⊢
      omega
  | spawned hd hm => exact ⟨fun i => by rw [h.spawned i, hm]; rfl, Nat.le_refl n, h.wg⟩
  | waited hd hm hw => exact ⟨fun i => by rw [h.spawned i, hm]; rfl, Nat.le_refl n, h.wg⟩
  | rlock i hd hsn => have := hsnap i .locked (by rw [hsn]; rfl) rfl s.wg (by rw [hsn]; rfl) hd; exact ⟨this.1, h.mainLe, .inr this.2⟩
  | make i hd hsn => have := hsnap i .made (by rw [hsn]; rfl) rfl s.wg (by rw [hsn]; rfl) hd; exact ⟨this.1, h.mainLe, .inr this.2⟩
  | makePanic => exact ⟨h.spawned, h.mainLe, .inl rfl⟩
  | done i hd hsn hw => have := hsnap i (.send (s.items i)) (by rw [hsn]; rfl) rfl (s.wg - 1) (by rw [hsn]; simp [snapPending]; omega) hd; exact ⟨this.1, h.mainLe, .inr this.2⟩
  | donePanic => exact ⟨h.spawned, h.mainLe, .inl rfl⟩
  | send i x rest c hd hsn => have := hsnap i (.send rest) (by rw [hsn]; rfl) rfl s.wg (by rw [hsn]; rfl) hd; exact ⟨this.1, h.mainLe, .inr this.2⟩
  | sendPanic => exact ⟨h.spawned, h.mainLe, .inl rfl⟩
  | runlock i hd hsn => have := hsnap i .unlocked (by rw [hsn]; rfl) rfl s.wg (by rw [hsn]; rfl) hd; exact ⟨this.1, h.mainLe, .inr this.2⟩
  | close i c hd hsn => have := hsnap i .ended (by rw [hsn]; rfl) rfl s.wg (by rw [hsn]; rfl) hd; exact ⟨this.1, h.mainLe, .inr this.2⟩
  | closePanic => exact ⟨h.spawned, h.mainLe, .inl rfl⟩
  | recvPanic => exact ⟨h.spawned, h.mainLe, .inl rfl⟩
  | passPanic => exact ⟨h.spawned, h.mainLe, .inl rfl⟩
  | _ => exact ⟨h.spawned, h.mainLe, h.wg⟩

theorem countInv_run {n m : Nat} {items : Nat → List E} {ls : List (Label E)} {s : State E} (h : Steps (IterChan.Step n m) (start items m) ls s) : CountInv n m s :=
  h.invariant (P := CountInv n m) (fun _ _ _ hi hs => countInv_step hi hs) (countInv_start n m items)

/-- **C120 (a greater count).** If `ShardCount` is greater than the number of shards when `IterBuffered` is called, it never returns: it waits for more goroutines than it has started. So do `Items`, `Clear` and `MarshalJSON`. -/
theorem C120_hangs_refuted {n m : Nat} (hnm : n < m) {items : Nat → List E} {ls : List (Label E)} {s : State E} (h : Steps (IterChan.Step n m) (start items m) ls s) : ∀ t, s.main ≠ .returned t := by
  have key : ∀ ls s, Steps (IterChan.Step n m) (start items m) ls s → ∀ t, s.main ≠ .returned t := by
    intro ls s h
    have := h.invariant (P := fun s => CountInv n m s ∧ ∀ t, s.main ≠ .returned t) (fun s l t hi hs => by
      refine ⟨countInv_step hi.1 hs, ?_⟩
      cases hs with
      | waited hd hm hw => have := hi.1.wg.resolve_left (by rw [hd]; simp); omega
      | spawn => intro t ht; cases ht
      | spawned => intro t ht; cases ht
      | _ => exact hi.2) ⟨countInv_start n m items, fun t ht => by cases ht⟩
    exact this.2
  exact key ls s h

theorem snap_frame_count {n m : Nat} {s t : State E} {l : Label E} (h : CountInv n m s) (hs : IterChan.Step n m s l t) {i : Nat} (hon : snapOn (s.snap i) = true) (hl : l ≠ .snap i) : t.snap i = s.snap i := by
  have hsp := (h.spawned i).1 hon
  cases hs <;> first | rfl | (simp only [upd]; split <;> simp_all [mainAt])

/-- **C120 (a smaller count).** If `ShardCount` is smaller than the number of shards when `IterBuffered` is called, the process ends in every fair execution: a goroutine has an index that is out of range. -/
theorem C120_ends_refuted {n m : Nat} (hnm : m < n) {items : Nat → List E} {e : Exec (IterChan.Step (E := E) n m)} (hf : IterFair e) (h0 : e.run 0 = start items m) : ∃ k, (e.run k).dead = true := by
  have hi : ∀ k, CountInv n m (e.run k) := fun k => countInv_run (items := items) (h0 ▸ e.steps k)
  -- the goroutine of shard `m` is started
  have h1 : ∃ k, snapOn ((e.run k).snap m) = true ∨ (e.run k).dead = true := by
    obtain ⟨k, _, hk⟩ := e.leads_weak_dec hf.main (n := 0) (P := fun s => CountInv n m s ∧ s.dead = false ∧ ∃ j, s.main = .spawn j ∧ j ≤ m) (Q := fun s => snapOn (s.snap m) = true ∨ s.dead = true) (fun s => m - mainAt n s.main)
      (by
        rintro s l t ⟨h, hd, j, hj, hjm⟩ hs
        have ht := countInv_step h hs
        by_cases hdt : t.dead = true
        · exact .inr (.inr hdt)
        by_cases hon : snapOn (t.snap m) = true
        · exact .inr (.inl hon)
        · have hdf : t.dead = false := by simpa using hdt
          have hnl : ¬ m < mainAt n t.main := fun hh => hon ((ht.spawned m).2 hh)
          left
          clear hon hdt
          cases hs <;> first | exact ⟨⟨ht, hdf, j, hj, hjm⟩, Nat.le_refl _⟩ | (simp_all [mainAt]; try omega))
      (by
        rintro s l t ⟨h, hd, j, hj, hjm⟩ hs rfl
        have ht := countInv_step h hs
        by_cases hon : snapOn (t.snap m) = true
        · exact .inr (.inl hon)
        · have hnl : ¬ m < mainAt n t.main := fun hh => hon ((ht.spawned m).2 hh)
          left
          clear hon
          cases hs with
          | spawn j' _ hm hj' =>
            rw [hm] at hj; cases hj
            simp only [mainAt] at hnl ⊢
            exact ⟨⟨ht, hd, j + 1, rfl, by omega⟩, by rw [hm]; simp only; omega⟩
          | spawned _ hm => rw [hm] at hj; cases hj; omega
          | waited _ hm => rw [hm] at hj; cases hj)
      (by
        rintro s ⟨h, hd, j, hj, hjm⟩
        exact ⟨_, _, rfl, .spawn j hd hj (by omega)⟩)
      ⟨hi 0, by rw [h0]; rfl, 0, by rw [h0]; rfl, Nat.zero_le m⟩
    exact ⟨k, hk⟩
  obtain ⟨k, hk | hk⟩ := h1
  · -- it gets the lock and panics
    have hlocked : ∀ k, (e.run k).snap m = .locked → ∃ q, (e.run q).dead = true := by
      intro k hk
      cases hdk : (e.run k).dead with
      | true => exact ⟨k, hdk⟩
      | false =>
        obtain ⟨q, _, hq⟩ := e.leads_strong (hf.snap m) (P := fun s => CountInv n m s ∧ s.dead = false ∧ s.snap m = .locked) (Q := fun s => s.dead = true) (n := k)
          (by
            rintro s l t ⟨h, hd, hp⟩ hs
            have ht := countInv_step h hs
            by_cases hdt : t.dead = true
            · exact .inr hdt
            · by_cases hl : l = .snap m
              · subst hl; cases hs <;> simp_all
              · exact .inl ⟨ht, by simpa using hdt, by rw [snap_frame_count h hs (by rw [hp]; rfl) hl]; exact hp⟩)
          (by
            rintro s l t ⟨h, hd, hp⟩ hs rfl
            cases hs <;> simp_all)
          (fun q hq => ⟨q, Nat.le_refl q, _, _, rfl, .makePanic m (hq q (Nat.le_refl q)).2.1 (hq q (Nat.le_refl q)).2.2 (Nat.le_refl m)⟩) ⟨hi k, hdk, hk⟩
        exact ⟨q, hq⟩
    have hlock : ∀ k, (e.run k).snap m = .lock → ∃ q, (e.run q).dead = true := by
      intro k hk
      cases hdk : (e.run k).dead with
      | true => exact ⟨k, hdk⟩
      | false =>
        obtain ⟨q, _, hq⟩ := e.leads_strong (hf.snap m) (P := fun s => CountInv n m s ∧ s.dead = false ∧ s.snap m = .lock) (Q := fun s => s.dead = true ∨ s.snap m = .locked) (n := k)
          (by
            rintro s l t ⟨h, hd, hp⟩ hs
            have ht := countInv_step h hs
            by_cases hdt : t.dead = true
            · exact .inr (.inl hdt)
            · by_cases hl : l = .snap m
              · subst hl; cases hs <;> simp_all [upd]
              · exact .inl ⟨ht, by simpa using hdt, by rw [snap_frame_count h hs (by rw [hp]; rfl) hl]; exact hp⟩)
          (by
            rintro s l t ⟨h, hd, hp⟩ hs rfl
            cases hs <;> simp_all [upd])
          (by
            intro k hk
            suffices H : ∃ q, k ≤ q ∧ (e.run q).writer m = false by
              obtain ⟨q, hq, hw⟩ := H
              exact ⟨q, hq, _, _, rfl, .rlock m (hk q hq).2.1 (hk q hq).2.2 hw⟩
            cases hw : (e.run k).writer m
            · exact ⟨k, Nat.le_refl k, hw⟩
            · apply Classical.byContradiction
              intro hno
              have hall : ∀ q, k ≤ q → (e.run q).writer m = true := fun q hq => by
                cases hx : (e.run q).writer m
                · exact absurd ⟨q, hq, hx⟩ hno
                · rfl
              obtain ⟨q, l, hq, ha, x, rfl⟩ := hf.unlock m k (fun q hq => ⟨_, _, ⟨[], rfl⟩, .unlockW m [] (hk q hq).2.1 (hall q hq)⟩)
              have hn := e.next q
              rw [ha] at hn
              have h2 := hall (q + 1) (by omega)
              simp only at hn
              generalize e.run (q + 1) = t at hn h2
              cases hn
              simp [upd] at h2) ⟨hi k, hdk, hk⟩
        rcases hq with hq | hq
        · exact ⟨q, hq⟩
        · exact hlocked q hq
    -- past the lock it cannot get with an index out of range
    have hnever : ∀ k, snapLocked ((e.run k).snap m) = false ∨ (e.run k).snap m = .locked := by
      intro k
      refine (e.steps k).invariant (P := fun s => snapLocked (s.snap m) = false ∨ s.snap m = .locked) (fun s l t hp hs => ?_) (by rw [h0]; exact .inl rfl)
      cases hs <;> first | exact hp | (simp only [upd]; split <;> simp_all [snapLocked]) | skip
      all_goals (rename_i hj; subst hj; simp_all [snapLocked])
    rcases hnever k with h | h
    · cases hsn : (e.run k).snap m <;> rw [hsn] at h hk <;> simp [snapLocked, snapOn] at h hk
      exact hlock k hsn
    · exact hlocked k h
  · exact ⟨k, hk⟩

/-- One shard and `ShardCount` 2: the shard's goroutine ends and `IterBuffered` waits. -/
example : ∃ ls s, Steps (IterChan.Step (E := Nat) 1 2) (start (fun _ => []) 2) ls s ∧ s.main = .wait ∧ s.snap 0 = .ended ∧ s.wg = 1 :=
  ⟨_, _, .cons (.spawn 0 rfl rfl (by decide)) (.cons (.spawned rfl rfl) (.cons (.rlock 0 rfl rfl rfl) (.cons (.make 0 rfl rfl (by decide)) (.cons (.done 0 rfl rfl (by decide)) (.cons (.runlock 0 rfl rfl) (.cons (.close 0 _ rfl rfl rfl rfl) (.nil _))))))),
    rfl, rfl, rfl⟩

/-- One shard and `ShardCount` 0: a fair execution. -/
example : ∃ e : Exec (IterChan.Step (E := Nat) 1 0), IterFair e ∧ e.run 0 = start (fun _ => [5]) 0 := by
  have hst : ∃ ls s, Steps (IterChan.Step (E := Nat) 1 0) (start (fun _ => [5]) 0) ls s ∧ s.dead = true :=
    ⟨_, _, .cons (.spawn 0 rfl rfl (by decide)) (.cons (.rlock 0 rfl rfl rfl) (.cons (.makePanic 0 rfl rfl (by decide)) (.nil _))), rfl⟩
  obtain ⟨ls, s, h, hd⟩ := hst
  obtain ⟨e, h0, _, _, hend⟩ := Exec.ofSteps h
  have hno : ∀ A, ¬ Enabled (IterChan.Step (E := Nat) 1 0) A s := by
    rintro A ⟨l, u, _, hs⟩
    cases hs <;> (rename s.dead = false => hx; rw [hd] at hx; cases hx)
  exact ⟨e, ⟨Exec.weakFair_of_end hend (hno _), fun _ => Exec.strongFair_of_end hend (hno _), Exec.weakFair_of_end hend (hno _), fun _ => Exec.weakFair_of_end hend (hno _), fun _ => Exec.weakFair_of_end hend (hno _)⟩, h0⟩

end Zinx.Props
