import Verif.Props.IterChan
import Verif.Lemmas.ExecOf

/-!
# Every goroutine of `IterBuffered` ends, whether or not anybody reads (C119, part 2)
-/

namespace Zinx.Props

open Zinx.IterChan

variable {E : Type}

/-- Every goroutine of the call goes on if it can, a reader gets the lock of a shard if it is free again and again, and whoever has the write lock of a shard gives it back. Nothing is asked of the reader of the channel. -/
structure IterFair {n m : Nat} (e : Exec (IterChan.Step (E := E) n m)) : Prop where
  main : e.WeakFair (· = .main)
  snap : ∀ i, e.StrongFair (· = .snap i)
  fan : e.WeakFair (· = .fan)
  copy : ∀ i, e.WeakFair (· = .copy i)
  unlock : ∀ i, e.WeakFair fun l => ∃ k, l = .unlockW i k

/-- Only its own steps change a shard's goroutine once it has been started. -/
theorem snap_frame {n : Nat} {s t : State E} {l : Label E} (h : IterInv n s) (hs : IterChan.Step n n s l t) {i : Nat} (hon : snapOn (s.snap i) = true) (hl : l ≠ .snap i) : t.snap i = s.snap i := by
  have hsp := (h.spawned i).1 hon
  cases hs <;> first | rfl | (simp only [upd]; split <;> simp_all [mainAt])

/-- Only its own steps change a copying goroutine once it has been started. -/
theorem copy_frame {n : Nat} {s t : State E} {l : Label E} (h : IterInv n s) (hs : IterChan.Step n n s l t) {i : Nat} (hon : copyOn (s.copy i) = true) (hl : l ≠ .copy i) : t.copy i = s.copy i := by
  have hsp := (h.fanned i).1 hon
  cases hs <;> first | rfl | (simp only [upd]; split <;> simp_all [fanAt])

/-- A shard's goroutine that has done line 177 stays so. -/
theorem snapPast_step {n : Nat} {s t : State E} {l : Label E} (h : IterInv n s) (hs : IterChan.Step n n s l t) {i : Nat} (hp : snapPending (s.snap i) = false) : snapPending (t.snap i) = false := by
  by_cases hl : l = .snap i
  · subst hl
    cases hs <;> simp_all [upd, snapPending]
  · rw [snap_frame h hs (by cases hc : s.snap i <;> rw [hc] at hp <;> first | rfl | cases hp) hl]; exact hp

theorem snapEnded_step {n : Nat} {s t : State E} {l : Label E} (h : IterInv n s) (hs : IterChan.Step n n s l t) {i : Nat} (hp : s.snap i = .ended) : t.snap i = .ended := by
  by_cases hl : l = .snap i
  · subst hl
    cases hs <;> simp_all
  · rw [snap_frame h hs (by rw [hp]; rfl) hl]; exact hp

theorem copyEnded_step {n : Nat} {s t : State E} {l : Label E} (h : IterInv n s) (hs : IterChan.Step n n s l t) {i : Nat} (hp : s.copy i = .ended) : t.copy i = .ended := by
  by_cases hl : l = .copy i
  · subst hl
    cases hs <;> simp_all
  · rw [copy_frame h hs (by rw [hp]; rfl) hl]; exact hp

theorem returned_step {n m : Nat} {s t : State E} {l : Label E} (hs : IterChan.Step n m s l t) {k : Nat} (hp : s.main = .returned k) : t.main = .returned k := by
  cases hs <;> simp_all

theorem fanEnded_step {n m : Nat} {s t : State E} {l : Label E} (hs : IterChan.Step n m s l t) (hm : ∃ k, s.main = .returned k) (hp : s.fan = .ended) : t.fan = .ended := by
  cases hs <;> simp_all

theorem exec_on {S L : Type} {step : S → L → S → Prop} (e : Exec step) {I : S → Prop} (hi : ∀ k, I (e.run k)) {P : S → Prop} (hstep : ∀ s l t, I s → step s l t → P s → P t) {m : Nat} (h : P (e.run m)) : ∀ k, m ≤ k → P (e.run k) := by
  intro k hk
  induction k with
  | zero => rwa [show m = 0 by omega] at h
  | succ k ih =>
    by_cases e1 : m = k + 1
    · rwa [e1] at h
    · have hp := ih (by omega)
      have hn := e.next k
      cases ha : e.act k with
      | none => rw [ha] at hn; rw [hn]; exact hp
      | some l => rw [ha] at hn; exact hstep _ l _ (hi k) hn hp

/-- Finitely many things that happen each and stay hold together at some time. -/
theorem exec_all {S L : Type} {step : S → L → S → Prop} (e : Exec step) {I : S → Prop} (hi : ∀ k, I (e.run k)) {P : Nat → S → Prop} (hstep : ∀ i s l t, I s → step s l t → P i s → P i t) {k0 : Nat} :
    ∀ n, (∀ i, i < n → ∀ k, k0 ≤ k → ∃ m, k ≤ m ∧ P i (e.run m)) → ∀ k, k0 ≤ k → ∃ m, k ≤ m ∧ ∀ i, i < n → P i (e.run m)
  | 0, _, k, _ => ⟨k, Nat.le_refl k, fun i hi => absurd hi (Nat.not_lt_zero i)⟩
  | n + 1, h, k, hk => by
    obtain ⟨m, hm, h1⟩ := exec_all e hi hstep n (fun i hin => h i (by omega)) k hk
    obtain ⟨m2, hm2, h2⟩ := h n (by omega) m (by omega)
    refine ⟨m2, by omega, fun i hin => ?_⟩
    by_cases e1 : i = n
    · subst e1; exact h2
    · exact exec_on e hi (hstep i) (h1 i (by omega)) m2 hm2

section
variable {n : Nat} {e : Exec (IterChan.Step (E := E) n n)}

/-- The caller gets to `wg.Wait`. -/
theorem iter_spawned (hf : IterFair e) (hi : ∀ k, IterInv n (e.run k)) (k : Nat) : ∃ m, k ≤ m ∧ ∀ j, (e.run m).main ≠ .spawn j := by
  by_cases h0 : ∀ j, (e.run k).main ≠ .spawn j
  · exact ⟨k, Nat.le_refl k, h0⟩
  · obtain ⟨j, hj⟩ := Classical.not_forall.1 h0
    refine e.leads_weak_dec hf.main (P := fun s => IterInv n s ∧ ∃ j, s.main = .spawn j) (Q := fun s => ∀ j, s.main ≠ .spawn j) (fun s => n - mainAt n s.main) ?_ ?_ ?_ ⟨hi k, j, Classical.not_not.1 hj⟩
    · rintro s l t ⟨h, j, hj⟩ hs
      have ht := iterInv_step h hs
      cases hs <;> first | exact .inl ⟨⟨ht, j, hj⟩, Nat.le_refl _⟩ | (simp only [mainAt]; simp_all) | skip
      all_goals omega
    · rintro s l t ⟨h, j, hj⟩ hs rfl
      have ht := iterInv_step h hs
      cases hs with
      | spawn j' _ hm hj' => exact .inl ⟨⟨ht, j' + 1, rfl⟩, by rw [hm]; simp only [mainAt]; omega⟩
      | spawned => exact .inr fun j hj => by cases hj
      | waited => exact .inr fun j hj => by cases hj
    · rintro s ⟨h, j, hj⟩
      have := h.mainLe
      rw [hj] at this
      simp only [mainAt] at this
      by_cases e1 : j < n
      · exact ⟨_, _, rfl, .spawn j h.alive hj e1⟩
      · have hjn : j = n := by omega
        rw [hjn] at hj
        exact ⟨_, _, rfl, .spawned h.alive hj⟩

/-- A shard's goroutine that has been started gets the lock and does line 177. -/
theorem iter_past (hf : IterFair e) (hi : ∀ k, IterInv n (e.run k)) {i k : Nat} (hon : snapOn ((e.run k).snap i) = true) : ∃ m, k ≤ m ∧ snapPending ((e.run m).snap i) = false := by
  have hlocked : ∀ k, ((e.run k).snap i = .locked ∨ (e.run k).snap i = .made) → ∃ m, k ≤ m ∧ snapPending ((e.run m).snap i) = false := by
    intro k hk
    refine e.leads_weak_dec (fun n hn => hf.snap i n fun m hm => ⟨m, Nat.le_refl m, hn m hm⟩) (P := fun s => IterInv n s ∧ (s.snap i = .locked ∨ s.snap i = .made)) (Q := fun s => snapPending (s.snap i) = false)
      (fun s => match s.snap i with | .locked => 1 | _ => 0) ?_ ?_ ?_ ⟨hi k, hk⟩
    · rintro s l t ⟨h, hp⟩ hs
      have ht := iterInv_step h hs
      by_cases hl : l = .snap i
      · subst hl
        cases hs <;> simp_all [upd, snapPending]
      · have hfr := snap_frame h hs (i := i) (by rcases hp with hp | hp <;> rw [hp] <;> rfl) hl
        exact .inl ⟨⟨ht, by rw [hfr]; exact hp⟩, by rw [hfr]; exact Nat.le_refl _⟩
    · rintro s l t ⟨h, hp⟩ hs rfl
      have ht := iterInv_step h hs
      have hal := ht.alive
      cases hs <;> simp_all [upd, snapPending]
    · rintro s ⟨h, hp⟩
      have hlt : i < n := snap_lt h (i := i) (by rcases hp with hp | hp <;> rw [hp] <;> rfl)
      rcases hp with hp | hp
      · exact ⟨_, _, rfl, .make i h.alive hp hlt⟩
      · refine ⟨_, _, rfl, .done i h.alive hp ?_⟩
        rcases Nat.eq_zero_or_pos s.wg with hw | hw
        · have := pending_of_wg h hw hlt
          rw [hp] at this; cases this
        · exact hw
  have hlock : ∀ k, (e.run k).snap i = .lock → ∃ m, k ≤ m ∧ (e.run m).snap i = .locked := by
    intro k hk
    refine e.leads_strong (hf.snap i) (P := fun s => IterInv n s ∧ s.snap i = .lock) (Q := fun s => s.snap i = .locked) ?_ ?_ ?_ ⟨hi k, hk⟩
    · rintro s l t ⟨h, hp⟩ hs
      have ht := iterInv_step h hs
      by_cases hl : l = .snap i
      · subst hl
        cases hs <;> simp_all [upd]
      · exact .inl ⟨ht, by rw [snap_frame h hs (by rw [hp]; rfl) hl]; exact hp⟩
    · rintro s l t ⟨h, hp⟩ hs rfl
      cases hs <;> simp_all [upd]
    · intro k hk
      suffices H : ∃ m, k ≤ m ∧ (e.run m).writer i = false by
        obtain ⟨m, hm, hw⟩ := H
        exact ⟨m, hm, _, _, rfl, .rlock i (hk m hm).1.alive (hk m hm).2 hw⟩
      cases hw : (e.run k).writer i
      · exact ⟨k, Nat.le_refl k, hw⟩
      · refine e.leads_weak (hf.unlock i) (P := fun s => IterInv n s ∧ s.writer i = true) (Q := fun s => s.writer i = false) ?_ ?_ ?_ ⟨hi k, hw⟩
        · rintro s l t ⟨h, hp⟩ hs
          have ht := iterInv_step h hs
          by_cases hx : t.writer i = true
          · exact .inl ⟨ht, hx⟩
          · exact .inr (by simpa using hx)
        · rintro s l t ⟨h, hp⟩ hs ⟨k, rfl⟩
          cases hs; simp [upd]
        · rintro s ⟨h, hp⟩
          exact ⟨_, _, ⟨[], rfl⟩, .unlockW i [] h.alive hp⟩
  cases hc : (e.run k).snap i with
  | absent => rw [hc] at hon; cases hon
  | lock =>
    obtain ⟨m, hm, h1⟩ := hlock k hc
    obtain ⟨m2, hm2, h2⟩ := hlocked m (.inl h1)
    exact ⟨m2, by omega, h2⟩
  | locked => exact hlocked k (.inl hc)
  | made => exact hlocked k (.inr hc)
  | send r => exact ⟨k, Nat.le_refl k, by rw [hc]; rfl⟩
  | unlocked => exact ⟨k, Nat.le_refl k, by rw [hc]; rfl⟩
  | ended => exact ⟨k, Nat.le_refl k, by rw [hc]; rfl⟩

/-- `IterBuffered` returns. -/
theorem iter_returns (hf : IterFair e) (hi : ∀ k, IterInv n (e.run k)) (k : Nat) : ∃ m t, k ≤ m ∧ (e.run m).main = .returned t := by
  obtain ⟨m, hm, h1⟩ := iter_spawned hf hi k
  cases hmain : (e.run m).main with
  | spawn j => exact absurd hmain (h1 j)
  | returned t => exact ⟨m, t, hm, hmain⟩
  | wait =>
    have hon : ∀ i, i < n → ∀ k, m ≤ k → snapOn ((e.run k).snap i) = true := fun i hin k hk =>
      exec_on e hi (P := fun s => snapOn (s.snap i) = true) (fun s l t h hs hp => by
        by_cases hl : l = .snap i
        · subst hl; cases hs <;> simp_all [upd, snapOn]
        · rw [snap_frame h hs hp hl]; exact hp) (((hi m).spawned i).2 (by rw [hmain]; exact hin)) k hk
    obtain ⟨m2, hm2, h2⟩ := exec_all e hi (P := fun i s => snapPending (s.snap i) = false) (fun i s l t h hs hp => snapPast_step h hs hp) n (fun i hin k hk => iter_past hf hi (hon i hin k hk)) m (Nat.le_refl m)
    have hw : ∀ s : State E, IterInv n s → (∀ i, i < n → snapPending (s.snap i) = false) → s.wg = 0 := by
      intro s h hp
      rw [h.wg]
      exact sumBelow_of_zero fun i hin => by simp [hp i hin]
    rcases Classical.em (∃ t, (e.run m2).main = .returned t) with ⟨t, ht⟩ | hno
    · exact ⟨m2, t, by omega, ht⟩
    · have hwait : (e.run m2).main = .wait := by
        have := exec_on e hi (P := fun s => s.main = .wait ∨ ∃ t, s.main = .returned t) (fun s l t h hs hp => by cases hs <;> simp_all) (.inl hmain) m2 hm2
        exact this.resolve_right hno
      obtain ⟨m3, hm3, t, h3⟩ := e.leads_weak hf.main (P := fun s => IterInv n s ∧ (∀ i, i < n → snapPending (s.snap i) = false) ∧ s.main = .wait) (Q := fun s => ∃ t, s.main = .returned t) (n := m2)
        (by
          rintro s l t ⟨h, hp, hm⟩ hs
          have ht := iterInv_step h hs
          have h4 : ∀ i, i < n → snapPending (t.snap i) = false := fun i hin => snapPast_step h hs (hp i hin)
          have h5 : t.main = .wait ∨ ∃ k, t.main = .returned k := by clear ht h4; cases hs <;> simp_all
          rcases h5 with h5 | h5
          · exact .inl ⟨ht, h4, h5⟩
          · exact .inr h5)
        (by
          rintro s l t ⟨h, hp, hm⟩ hs rfl
          clear hp
          cases hs <;> simp_all)
        (by
          rintro s ⟨h, hp, hm⟩
          exact ⟨_, _, rfl, .waited h.alive hm (hw s h hp)⟩) ⟨hi m2, h2, hwait⟩
      exact ⟨m3, t, by omega, h3⟩

/-- A shard's goroutine that has done line 177 ends. -/
theorem iter_snap_ends (hf : IterFair e) (hi : ∀ k, IterInv n (e.run k)) {i k : Nat} (hon : snapPending ((e.run k).snap i) = false) : ∃ m, k ≤ m ∧ (e.run m).snap i = .ended := by
  rcases Classical.em ((e.run k).snap i = .ended) with h0 | h0
  · exact ⟨k, Nat.le_refl k, h0⟩
  refine e.leads_weak_dec (fun n hn => hf.snap i n fun m hm => ⟨m, Nat.le_refl m, hn m hm⟩) (P := fun s => IterInv n s ∧ snapPending (s.snap i) = false ∧ s.snap i ≠ .ended) (Q := fun s => s.snap i = .ended)
    (fun s => match s.snap i with | .send r => r.length + 1 | _ => 0) ?_ ?_ ?_ ⟨hi k, hon, h0⟩
  · rintro s l t ⟨h, hp, hne⟩ hs
    have ht := iterInv_step h hs
    by_cases hl : l = .snap i
    · subst hl
      have hal := ht.alive
      cases hs <;> simp_all [upd, snapPending]
    · have hfr := snap_frame h hs (i := i) (by cases hc : s.snap i <;> rw [hc] at hp <;> first | rfl | cases hp) hl
      exact .inl ⟨⟨ht, by rw [hfr]; exact hp, by rw [hfr]; exact hne⟩, by rw [hfr]; exact Nat.le_refl _⟩
  · rintro s l t ⟨h, hp, hne⟩ hs rfl
    have ht := iterInv_step h hs
    have hal := ht.alive
    cases hs <;> simp_all [upd, snapPending]
  · rintro s ⟨h, hp, hne⟩
    have hs := h.shard i
    cases hsn : s.snap i <;> rw [hsn] at hs hp hne <;> simp only [snapPending, reduceCtorEq, ne_eq, not_true] at hp hne
    · rename_i rest
      obtain ⟨_, b, h1, h2⟩ := hs
      cases rest with
      | nil => exact ⟨_, _, rfl, .runlock i h.alive hsn⟩
      | cons x rest => exact ⟨_, _, rfl, .send i x rest _ h.alive hsn h1 rfl (by simp only; rw [h2]; simp; omega)⟩
    · obtain ⟨_, b, h1, h2⟩ := hs
      exact ⟨_, _, rfl, .close i _ h.alive hsn h1 rfl⟩

/-- `fanIn` starts all its goroutines. -/
theorem iter_fanned (hf : IterFair e) (hi : ∀ k, IterInv n (e.run k)) {k t : Nat} (hr : (e.run k).main = .returned t) : ∃ m, k ≤ m ∧ ((e.run m).fan = .wait ∨ (e.run m).fan = .ended) := by
  rcases Classical.em ((e.run k).fan = .wait ∨ (e.run k).fan = .ended) with h0 | h0
  · exact ⟨k, Nat.le_refl k, h0⟩
  refine e.leads_weak_dec hf.fan (P := fun s => IterInv n s ∧ s.main = .returned t ∧ ¬ (s.fan = .wait ∨ s.fan = .ended)) (Q := fun s => s.fan = .wait ∨ s.fan = .ended) (fun s => n - fanAt n s.fan) ?_ ?_ ?_ ⟨hi k, hr, h0⟩
  · rintro s l u ⟨h, hm, hne⟩ hs
    have ht := iterInv_step h hs
    rcases Classical.em (u.fan = .wait ∨ u.fan = .ended) with h1 | h1
    · exact .inr h1
    · refine .inl ⟨⟨ht, returned_step hs hm, h1⟩, ?_⟩
      clear ht
      cases hs <;> first | exact Nat.le_refl _ | (simp_all [fanAt]; try omega)
  · rintro s l u ⟨h, hm, hne⟩ hs rfl
    have ht := iterInv_step h hs
    rcases Classical.em (u.fan = .wait ∨ u.fan = .ended) with h1 | h1
    · exact .inr h1
    · refine .inl ⟨⟨ht, returned_step hs hm, h1⟩, ?_⟩
      cases hs with
      | fanSpawn j _ hfan hj => rw [hfan]; simp only [fanAt]; omega
      | fanSpawned => exact absurd (.inl rfl) h1
      | fanWaited => exact absurd (.inr rfl) h1
  · rintro s ⟨h, hm, hne⟩
    have hon := h.fanOn.2 ⟨t, hm⟩
    have hle := h.fanLe
    cases hfan : s.fan with
    | absent => rw [hfan] at hon; cases hon
    | spawn j =>
      rw [hfan] at hle
      by_cases hj : j < n
      · exact ⟨_, _, rfl, .fanSpawn j h.alive hfan hj⟩
      · have hjn : j = n := by simp only [fanAt] at hle; omega
        rw [hjn] at hfan
        exact ⟨_, _, rfl, .fanSpawned h.alive hfan⟩
    | wait => exact absurd (.inl hfan) hne
    | ended => exact absurd (.inr hfan) hne

/-- How much a copying goroutine has left to do. -/
def copyLeft (c : Copy E) (ch : Option (Chan E)) : Nat := (match c with | .holding _ => 1 | _ => 0) + (match ch with | some c => 2 * c.buf.length | none => 0)

/-- The channel of a shard whose goroutine has ended is changed by the copying goroutine only. -/
theorem chan_frame {s t : State E} {l : Label E} (hs : IterChan.Step n n s l t) {i : Nat} (hp : s.snap i = .ended) (hl : l ≠ .copy i) : t.chan i = s.chan i := by
  cases hs <;> first | rfl | (simp only [upd]; split <;> simp_all)

/-- A copying goroutine ends after its shard's goroutine. -/
theorem iter_copy_ends (hf : IterFair e) (hi : ∀ k, IterInv n (e.run k)) {i k : Nat} (hon : copyOn ((e.run k).copy i) = true) (hsn : (e.run k).snap i = .ended) : ∃ m, k ≤ m ∧ (e.run m).copy i = .ended := by
  rcases Classical.em ((e.run k).copy i = .ended) with h0 | h0
  · exact ⟨k, Nat.le_refl k, h0⟩
  have key : ∀ (s : State E) l t, (IterInv n s ∧ s.snap i = .ended ∧ copyOn (s.copy i) = true ∧ s.copy i ≠ .ended) → IterChan.Step n n s l t → l = .copy i →
      (IterInv n t ∧ t.snap i = .ended ∧ copyOn (t.copy i) = true ∧ t.copy i ≠ .ended) ∧ copyLeft (t.copy i) (t.chan i) < copyLeft (s.copy i) (s.chan i) ∨ t.copy i = .ended := by
    rintro s l t ⟨h, hp, ho, hne⟩ hs rfl
    have ht := iterInv_step h hs
    have he := snapEnded_step h hs hp
    have hal := ht.alive
    cases hs with
    | recv _ x rest c _ hcp hc hb => exact .inl ⟨⟨ht, he, by simp [upd, copyOn], by simp [upd]⟩, by simp [upd, copyLeft, hcp, hc, hb]; omega⟩
    | recvEnd => exact .inr (by simp [upd])
    | recvPanic => cases hal
    | pass _ x tot _ hcp => exact .inl ⟨⟨ht, he, by simp [upd, copyOn], by simp [upd]⟩, by simp [upd, copyLeft, hcp]⟩
    | passPanic => cases hal
  refine e.leads_weak_dec (hf.copy i) (P := fun s => IterInv n s ∧ s.snap i = .ended ∧ copyOn (s.copy i) = true ∧ s.copy i ≠ .ended) (Q := fun s => s.copy i = .ended) (fun s => copyLeft (s.copy i) (s.chan i)) ?_ key ?_ ⟨hi k, hsn, hon, h0⟩
  · intro s l t hP hs
    by_cases hl : l = .copy i
    · rcases key s l t hP hs hl with h1 | h1
      · exact .inl ⟨h1.1, Nat.le_of_lt h1.2⟩
      · exact .inr h1
    · obtain ⟨h, hp, ho, hne⟩ := hP
      have hfr := copy_frame h hs ho hl
      exact .inl ⟨⟨iterInv_step h hs, snapEnded_step h hs hp, by rw [hfr]; exact ho, by rw [hfr]; exact hne⟩, by rw [hfr, chan_frame hs hp hl]; exact Nat.le_refl _⟩
  · rintro s ⟨h, hp, ho, hne⟩
    have hs := h.shard i
    rw [hp] at hs
    obtain ⟨b, h1, h2, _⟩ := hs
    have hin := copy_lt h ho
    have hfan : fanIsOn s.fan = true := by
      have := (h.fanned i).1 ho
      cases hf : s.fan <;> rw [hf] at this <;> first | rfl | (simp [fanAt] at this)
    have hcount : 0 < s.fwg := by
      rcases Nat.eq_zero_or_pos s.fwg with hw | hw
      · have := sumBelow_zero (h.fwg hfan ▸ hw) i hin
        cases hc : s.copy i <;> rw [hc] at this hne <;> simp [copyEnded] at this hne
      · exact hw
    obtain ⟨t, ht⟩ := h.fanOn.1 hfan
    cases hc : s.copy i with
    | absent => rw [hc] at ho; cases ho
    | ended => exact absurd hc hne
    | ready =>
      cases b with
      | nil => exact ⟨_, _, rfl, .recvEnd i _ h.alive hc h1 rfl rfl hcount⟩
      | cons x rest => exact ⟨_, _, rfl, .recv i x rest _ h.alive hc h1 rfl⟩
    | holding x =>
      refine ⟨_, _, rfl, .pass i x t h.alive hc ht ?_ (iter_room h ht hc)⟩
      cases hoc : s.outClosed
      · rfl
      · have := h.fanEnd (h.closed.1 hoc); omega

/-- **C119** (everything ends): in every fair execution, whatever the reader does — it may never read at all —, `IterBuffered` returns, each of its goroutines ends, having given back the lock of its shard, and the channel is closed; and it stays so. -/
theorem C119_ends {items : Nat → List E} (hf : IterFair e) (h0 : e.run 0 = start items n) :
    ∃ k, ∀ m, k ≤ m → (∃ t, (e.run m).main = .returned t) ∧ (∀ i, i < n → (e.run m).snap i = .ended ∧ (e.run m).copy i = .ended) ∧ (e.run m).fan = .ended ∧ (e.run m).outClosed = true ∧ (e.run m).dead = false := by
  have hi : ∀ k, IterInv n (e.run k) := fun k => iterInv_run (items := items) (h0 ▸ e.steps k)
  obtain ⟨m1, t, _, h1⟩ := iter_returns hf hi 0
  have hret : ∀ k, m1 ≤ k → (e.run k).main = .returned t := exec_on e hi (P := fun s => s.main = .returned t) (fun s l u _ hs hp => returned_step hs hp) h1
  obtain ⟨m2, hm2, h2⟩ := exec_all e hi (P := fun i s => s.snap i = .ended) (fun i s l u h hs hp => snapEnded_step h hs hp) (k0 := m1) n
    (fun i hin k hk => iter_snap_ends hf hi (pending_of_wg (hi k) ((hi k).total t (hret k hk)).1 hin)) m1 (Nat.le_refl m1)
  obtain ⟨m3, hm3, h3⟩ := iter_fanned hf hi (hret m2 hm2)
  have hsn : ∀ i, i < n → ∀ k, m3 ≤ k → (e.run k).snap i = .ended := fun i hin k hk => exec_on e hi (P := fun s => s.snap i = .ended) (fun s l u h hs hp => snapEnded_step h hs hp) (h2 i hin) k (by omega)
  have hcon : ∀ i, i < n → ∀ k, m3 ≤ k → copyOn ((e.run k).copy i) = true := fun i hin =>
    exec_on e hi (P := fun s => copyOn (s.copy i) = true) (fun s l u h hs hp => by
      by_cases hl : l = .copy i
      · subst hl; cases hs <;> simp_all [upd, copyOn]
      · rw [copy_frame h hs hp hl]; exact hp) (((hi m3).fanned i).2 (by rcases h3 with h3 | h3 <;> rw [h3] <;> exact hin))
  obtain ⟨m4, hm4, h4⟩ := exec_all e hi (P := fun i s => s.copy i = .ended) (fun i s l u h hs hp => copyEnded_step h hs hp) (k0 := m3) n
    (fun i hin k hk => iter_copy_ends hf hi (hcon i hin k hk) (hsn i hin k hk)) m3 (Nat.le_refl m3)
  have hend : ∃ m5, m4 ≤ m5 ∧ (e.run m5).fan = .ended := by
    have hfw : (e.run m4).fan = .wait ∨ (e.run m4).fan = .ended :=
      exec_on e hi (P := fun s => (s.fan = .wait ∨ s.fan = .ended) ∧ ∃ t, s.main = .returned t) (fun s l u h hs hp => by
        obtain ⟨hp, t, hm⟩ := hp
        refine ⟨?_, t, returned_step hs hm⟩
        cases hs <;> simp_all) ⟨h3, t, hret m3 (by omega)⟩ m4 hm4 |>.1
    rcases hfw with hfw | hfw
    · refine e.leads_weak hf.fan (P := fun s => IterInv n s ∧ s.main = .returned t ∧ (∀ i, i < n → s.copy i = .ended) ∧ s.fan = .wait) (Q := fun s => s.fan = .ended) ?_ ?_ ?_ ⟨hi m4, hret m4 (by omega), h4, hfw⟩
      · rintro s l u ⟨h, hm, hc, hw⟩ hs
        have h5 : u.fan = .wait ∨ u.fan = .ended := by clear hc; cases hs <;> simp_all
        rcases h5 with h5 | h5
        · exact .inl ⟨iterInv_step h hs, returned_step hs hm, fun i hin => copyEnded_step h hs (hc i hin), h5⟩
        · exact .inr h5
      · rintro s l u ⟨h, hm, hc, hw⟩ hs rfl
        clear hc
        cases hs <;> simp_all
      · rintro s ⟨h, hm, hc, hw⟩
        refine ⟨_, _, rfl, .fanWaited h.alive hw ?_⟩
        rw [h.fwg (by rw [hw]; rfl)]
        exact sumBelow_of_zero fun i hin => by simp [hc i hin, copyEnded]
    · exact ⟨m4, Nat.le_refl m4, hfw⟩
  obtain ⟨m5, hm5, h5⟩ := hend
  refine ⟨m5, fun m hm => ?_⟩
  have hfe : (e.run m).fan = .ended := (exec_on e hi (P := fun s => s.fan = .ended ∧ ∃ t, s.main = .returned t) (fun s l u h hs hp => by
    obtain ⟨hp, t, hmm⟩ := hp
    exact ⟨fanEnded_step hs ⟨t, hmm⟩ hp, t, returned_step hs hmm⟩) ⟨h5, t, hret m5 (by omega)⟩ m hm).1
  refine ⟨⟨t, hret m (by omega)⟩, fun i hin => ⟨hsn i hin m (by omega), ?_⟩, hfe, (hi m).closed.2 hfe, (hi m).alive⟩
  exact exec_on e hi (P := fun s => s.copy i = .ended) (fun s l u h hs hp => copyEnded_step h hs hp) (h4 i hin) m (by omega)

/-- **C119** (who reads to the end gets to the end): if the caller goes on reading as long as there is something to read, the loop over the channel ends, and what was read of each shard is what the shard held at one moment of the call. -/
theorem C119_read_all {items : Nat → List E} (hf : IterFair e) (ht : e.WeakFair fun l => ∃ x, l = .take x) (h0 : e.run 0 = start items n) :
    ∃ k, (e.run k).outClosed = true ∧ (e.run k).out = [] ∧ ∀ i, i < n → ∃ j, j ≤ k ∧ (∀ t, (e.run j).main ≠ .returned t) ∧ ofShard (e.run k).taken i = (e.run j).items i := by
  obtain ⟨k0, hk0⟩ := C119_ends hf h0
  have hI : ∀ k, IterInv n (e.run k) := fun k => iterInv_run (items := items) (h0 ▸ e.steps k)
  have hcp : ∀ s : State E, IterInv n s → s.fan = .ended → ∀ i, i < n → s.copy i = .ended := by
    intro s h hfan i hin
    have := sumBelow_zero (h.fwg (by rw [hfan]; rfl) ▸ h.fanEnd hfan) i hin
    cases hc : s.copy i <;> rw [hc] at this <;> simp [copyEnded] at this
  have hout : ∀ (s : State E) l t, IterInv n s → s.fan = .ended → IterChan.Step n n s l t → (t.out = s.out ∧ ∀ x, l ≠ .take x) ∨ ∃ x, l = .take x ∧ s.out = x :: t.out := by
    intro s l t h hfan hs
    cases hs with
    | pass i x tot hd hc =>
      have := hcp s h hfan i (copy_lt h (by rw [hc]; rfl))
      rw [hc] at this; cases this
    | take x rest hd ho => exact .inr ⟨x, rfl, ho⟩
    | _ => exact .inl ⟨rfl, fun x hx => by cases hx⟩
  have key : ∃ k, k0 ≤ k ∧ (e.run k).out = [] := by
    by_cases hne : (e.run k0).out = []
    · exact ⟨k0, Nat.le_refl k0, hne⟩
    · refine e.leads_weak_dec ht (P := fun s => IterInv n s ∧ s.fan = .ended ∧ (∃ t, s.main = .returned t) ∧ s.out ≠ []) (Q := fun s => s.out = []) (fun s => s.out.length) ?_ ?_ ?_
        ⟨hI k0, (hk0 k0 (Nat.le_refl k0)).2.2.1, (hk0 k0 (Nat.le_refl k0)).1, hne⟩
      · rintro s l t ⟨h, hfan, ⟨q, hm⟩, ho⟩ hs
        by_cases hte : t.out = []
        · exact .inr hte
        · refine .inl ⟨⟨iterInv_step h hs, fanEnded_step hs ⟨q, hm⟩ hfan, ⟨q, returned_step hs hm⟩, hte⟩, ?_⟩
          rcases hout s l t h hfan hs with ⟨h1, _⟩ | ⟨x, _, h1⟩ <;> rw [h1] <;> simp
      · rintro s l t ⟨h, hfan, ⟨q, hm⟩, ho⟩ hs ⟨x, rfl⟩
        by_cases hte : t.out = []
        · exact .inr hte
        · refine .inl ⟨⟨iterInv_step h hs, fanEnded_step hs ⟨q, hm⟩ hfan, ⟨q, returned_step hs hm⟩, hte⟩, ?_⟩
          rcases hout s _ t h hfan hs with ⟨_, h1⟩ | ⟨y, _, h1⟩
          · exact absurd rfl (h1 x)
          · rw [h1]; simp
      · rintro s ⟨h, hfan, hm, ho⟩
        cases hso : s.out with
        | nil => exact absurd hso ho
        | cons x rest => exact ⟨_, _, ⟨x, rfl⟩, .take x rest h.alive hso⟩
  obtain ⟨k, hk, hnil⟩ := key
  have hcl := (hk0 k hk).2.2.2.1
  refine ⟨k, hcl, hnil, fun i hin => ?_⟩
  have hs := (hI k).shard i
  rw [((hk0 k hk).2.1 i hin).1, ((hk0 k hk).2.1 i hin).2] at hs
  obtain ⟨b, _, h2, h3⟩ := hs
  have hall : ofShard (e.run k).taken i = (e.run k).seen i := by rw [h2, h3 rfl]; simp [copyHand, sentAll, hnil]
  rw [hall]
  have hseen : ∀ k, snapLocked ((e.run k).snap i) = true → ∃ j, j ≤ k ∧ (∀ t, (e.run j).main ≠ .returned t) ∧ (e.run k).seen i = (e.run j).items i := by
    intro k
    induction k with
    | zero => intro h; rw [h0] at h; cases h
    | succ k ih =>
      intro hl
      by_cases hv : snapLocked ((e.run k).snap i) = true
      · obtain ⟨j, hj, h4, h5⟩ := ih hv
        refine ⟨j, by omega, h4, ?_⟩
        rw [← h5]
        have hn := e.next k
        cases ha : e.act k with
        | none => rw [ha] at hn; rw [hn]
        | some l =>
          rw [ha] at hn
          simp only at hn
          generalize e.run (k + 1) = t at hn
          generalize e.run k = s at hn hv
          cases hn <;> first | rfl | (simp only [upd]; split <;> simp_all [snapLocked])
      · refine ⟨k, by omega, fun t hm => ?_, ?_⟩
        · have := pending_of_wg (hI k) ((hI k).total t hm).1 hin
          cases hx : (e.run k).snap i <;> rw [hx] at hv this <;> simp [snapLocked, snapPending] at hv this
        · have hn := e.next k
          cases ha : e.act k with
          | none => rw [ha] at hn; rw [hn] at hl; exact absurd hl hv
          | some l =>
            rw [ha] at hn
            simp only at hn
            generalize e.run (k + 1) = t at hn hl
            generalize e.run k = s at hn hv
            cases hn <;> (simp only [upd] at hl ⊢; try (split at hl <;> simp_all [snapLocked])) <;> first | (exact absurd hl hv) | simp_all
  exact hseen k (by rw [((hk0 k hk).2.1 i hin).1]; rfl)

/-- Once all is done nothing of `IterBuffered` can go on. -/
theorem iterFair_of_end {N : Nat} {s : State E} (hinv : IterInv n s) (hend : ∀ k, N ≤ k → e.run k = s) (hm : ∃ t, s.main = .returned t) (hc : ∀ i, i < n → s.snap i = .ended ∧ s.copy i = .ended) (hfan : s.fan = .ended)
    (hw : ∀ i, s.writer i = false) : IterFair e := by
  obtain ⟨t, hm⟩ := hm
  have hsn : ∀ i, s.snap i = .ended ∨ s.snap i = .absent := by
    intro i
    by_cases hi : i < n
    · exact .inl (hc i hi).1
    · right
      have := hinv.spawned i
      rw [hm] at this
      simp only [mainAt, hi, iff_false] at this
      cases hx : s.snap i <;> rw [hx] at this <;> simp [snapOn] at this
  have hcp : ∀ i, s.copy i = .ended ∨ s.copy i = .absent := by
    intro i
    by_cases hi : i < n
    · exact .inl (hc i hi).2
    · right
      have := hinv.fanned i
      rw [hfan] at this
      simp only [fanAt, hi, iff_false] at this
      cases hx : s.copy i <;> rw [hx] at this <;> simp [copyOn] at this
  clear hc hinv
  refine ⟨Exec.weakFair_of_end hend ?_, fun i => Exec.strongFair_of_end hend ?_, Exec.weakFair_of_end hend ?_, fun i => Exec.weakFair_of_end hend ?_, fun i => Exec.weakFair_of_end hend ?_⟩
  · rintro ⟨l, u, rfl, hs⟩
    clear hsn hcp hw
    cases hs <;> simp_all
  · rintro ⟨l, u, rfl, hs⟩
    have := hsn i
    clear hsn hcp hw
    cases hs <;> simp_all
  · rintro ⟨l, u, rfl, hs⟩
    clear hsn hcp hw
    cases hs <;> simp_all
  · rintro ⟨l, u, rfl, hs⟩
    have := hcp i
    clear hsn hcp hw
    cases hs <;> simp_all
  · rintro ⟨l, u, ⟨k, rfl⟩, hs⟩
    have := hw i
    clear hsn hcp hw
    cases hs <;> simp_all

end

/-- A table with two entries, for the example. -/
def iterTab {α : Type} (a b c : α) : Nat → α := fun i => if i = 0 then a else if i = 1 then b else c

theorem upd_tab0 {α : Type} (a b c x : α) : IterChan.upd (iterTab a b c) 0 x = iterTab x b c := by
  funext i
  by_cases e : i = 0 <;> simp [IterChan.upd, iterTab, e]

theorem upd_tab1 {α : Type} (a b c x : α) : IterChan.upd (iterTab a b c) 1 x = iterTab a x c := by
  funext i
  by_cases e : i = 1
  · subst e; simp [IterChan.upd, iterTab]
  · simp [IterChan.upd, iterTab, e]

theorem tab0 {α : Type} (a b c : α) : iterTab a b c 0 = a := rfl

theorem tab1 {α : Type} (a b c : α) : iterTab a b c 1 = b := rfl

/-- States of the example. -/
def iterSt (main : Main) (s0 s1 : Snap Nat) (c0 c1 : Option (Chan Nat)) (wg : Nat) (fan : Fan) (p0 p1 : Copy Nat) (fwg : Nat) (out : List (Nat × Nat)) (oc : Bool) (i1 : List Nat) (w1 : Bool) (e0 e1 : List Nat) : State Nat :=
  { items := iterTab [7, 8] i1 [], writer := iterTab false w1 false, main := main, snap := iterTab s0 s1 .absent, chan := iterTab c0 c1 none, wg := wg, fan := fan, copy := iterTab p0 p1 .absent, fwg := fwg, out := out, outClosed := oc, taken := [], seen := iterTab e0 e1 [], dead := false }

theorem tab_same {α : Type} (a : α) : iterTab a a a = fun _ => a := by
  funext i
  simp [iterTab]

set_option linter.unusedSimpArgs false in
/-- Two shards with three entries; the second is changed before its turn comes; nobody reads. -/
theorem iter_run : ∃ ls, Steps (IterChan.Step 2 2) (start (iterTab [7, 8] [] []) 2) ls (iterSt (.returned 3) .ended .ended (some ⟨2, [], true⟩) (some ⟨1, [], true⟩) 0 .ended .ended .ended 0 [(0, 7), (1, 9), (0, 8)] true [9] false [7, 8] [9]) := by
  have h : start (iterTab [7, 8] [] []) 2 = iterSt (.spawn 0) .absent .absent none none 2 .absent .absent .absent 0 [] false [] false [] [] := by simp only [start, iterSt, tab_same]
  rw [h]
  have h0 : IterChan.Step 2 2 (iterSt (.spawn 0) .absent .absent none none 2 .absent .absent .absent 0 [] false [] false [] []) (.main) (iterSt (.spawn 1) .lock .absent none none 2 .absent .absent .absent 0 [] false [] false [] []) := by
    have h := IterChan.Step.spawn 0 rfl rfl (by decide) (n := 2) (m := 2) (s := iterSt (.spawn 0) .absent .absent none none 2 .absent .absent .absent 0 [] false [] false [] [])
    simp only [iterSt, upd_tab0, upd_tab1, tab0, tab1] at h; exact h
  have h1 : IterChan.Step 2 2 (iterSt (.spawn 1) .lock .absent none none 2 .absent .absent .absent 0 [] false [] false [] []) (.snap 0) (iterSt (.spawn 1) .locked .absent none none 2 .absent .absent .absent 0 [] false [] false [7, 8] []) := by
    have h := IterChan.Step.rlock 0 rfl rfl rfl (n := 2) (m := 2) (s := iterSt (.spawn 1) .lock .absent none none 2 .absent .absent .absent 0 [] false [] false [] [])
    simp only [iterSt, upd_tab0, upd_tab1, tab0, tab1] at h; exact h
  have h2 : IterChan.Step 2 2 (iterSt (.spawn 1) .locked .absent none none 2 .absent .absent .absent 0 [] false [] false [7, 8] []) (.snap 0) (iterSt (.spawn 1) .made .absent (some ⟨2, [], false⟩) none 2 .absent .absent .absent 0 [] false [] false [7, 8] []) := by
    have h := IterChan.Step.make 0 rfl rfl (by decide) (n := 2) (m := 2) (s := iterSt (.spawn 1) .locked .absent none none 2 .absent .absent .absent 0 [] false [] false [7, 8] [])
    simp only [iterSt, upd_tab0, upd_tab1, tab0, tab1] at h; exact h
  have h3 : IterChan.Step 2 2 (iterSt (.spawn 1) .made .absent (some ⟨2, [], false⟩) none 2 .absent .absent .absent 0 [] false [] false [7, 8] []) (.lockW 1) (iterSt (.spawn 1) .made .absent (some ⟨2, [], false⟩) none 2 .absent .absent .absent 0 [] false [] true [7, 8] []) := by
    have h := IterChan.Step.lockW 1 rfl rfl rfl (n := 2) (m := 2) (s := iterSt (.spawn 1) .made .absent (some ⟨2, [], false⟩) none 2 .absent .absent .absent 0 [] false [] false [7, 8] [])
    simp only [iterSt, upd_tab0, upd_tab1, tab0, tab1] at h; exact h
  have h4 : IterChan.Step 2 2 (iterSt (.spawn 1) .made .absent (some ⟨2, [], false⟩) none 2 .absent .absent .absent 0 [] false [] true [7, 8] []) (.snap 0) (iterSt (.spawn 1) (.send [7, 8]) .absent (some ⟨2, [], false⟩) none 1 .absent .absent .absent 0 [] false [] true [7, 8] []) := by
    have h := IterChan.Step.done 0 rfl rfl (by decide) (n := 2) (m := 2) (s := iterSt (.spawn 1) .made .absent (some ⟨2, [], false⟩) none 2 .absent .absent .absent 0 [] false [] true [7, 8] [])
    simp only [iterSt, upd_tab0, upd_tab1, tab0, tab1] at h; exact h
  have h5 : IterChan.Step 2 2 (iterSt (.spawn 1) (.send [7, 8]) .absent (some ⟨2, [], false⟩) none 1 .absent .absent .absent 0 [] false [] true [7, 8] []) (.snap 0) (iterSt (.spawn 1) (.send [8]) .absent (some ⟨2, [7], false⟩) none 1 .absent .absent .absent 0 [] false [] true [7, 8] []) := by
    have h := IterChan.Step.send 0 7 [8] _ rfl rfl rfl rfl (by decide) (n := 2) (m := 2) (s := iterSt (.spawn 1) (.send [7, 8]) .absent (some ⟨2, [], false⟩) none 1 .absent .absent .absent 0 [] false [] true [7, 8] [])
    simp only [iterSt, upd_tab0, upd_tab1, tab0, tab1] at h; exact h
  have h6 : IterChan.Step 2 2 (iterSt (.spawn 1) (.send [8]) .absent (some ⟨2, [7], false⟩) none 1 .absent .absent .absent 0 [] false [] true [7, 8] []) (.main) (iterSt (.spawn 2) (.send [8]) .lock (some ⟨2, [7], false⟩) none 1 .absent .absent .absent 0 [] false [] true [7, 8] []) := by
    have h := IterChan.Step.spawn 1 rfl rfl (by decide) (n := 2) (m := 2) (s := iterSt (.spawn 1) (.send [8]) .absent (some ⟨2, [7], false⟩) none 1 .absent .absent .absent 0 [] false [] true [7, 8] [])
    simp only [iterSt, upd_tab0, upd_tab1, tab0, tab1] at h; exact h
  have h7 : IterChan.Step 2 2 (iterSt (.spawn 2) (.send [8]) .lock (some ⟨2, [7], false⟩) none 1 .absent .absent .absent 0 [] false [] true [7, 8] []) (.main) (iterSt .wait (.send [8]) .lock (some ⟨2, [7], false⟩) none 1 .absent .absent .absent 0 [] false [] true [7, 8] []) := by
    have h := IterChan.Step.spawned rfl rfl (n := 2) (m := 2) (s := iterSt (.spawn 2) (.send [8]) .lock (some ⟨2, [7], false⟩) none 1 .absent .absent .absent 0 [] false [] true [7, 8] [])
    simp only [iterSt, upd_tab0, upd_tab1, tab0, tab1] at h; exact h
  have h8 : IterChan.Step 2 2 (iterSt .wait (.send [8]) .lock (some ⟨2, [7], false⟩) none 1 .absent .absent .absent 0 [] false [] true [7, 8] []) (.unlockW 1 [9]) (iterSt .wait (.send [8]) .lock (some ⟨2, [7], false⟩) none 1 .absent .absent .absent 0 [] false [9] false [7, 8] []) := by
    have h := IterChan.Step.unlockW 1 [9] rfl rfl (n := 2) (m := 2) (s := iterSt .wait (.send [8]) .lock (some ⟨2, [7], false⟩) none 1 .absent .absent .absent 0 [] false [] true [7, 8] [])
    simp only [iterSt, upd_tab0, upd_tab1, tab0, tab1] at h; exact h
  have h9 : IterChan.Step 2 2 (iterSt .wait (.send [8]) .lock (some ⟨2, [7], false⟩) none 1 .absent .absent .absent 0 [] false [9] false [7, 8] []) (.snap 1) (iterSt .wait (.send [8]) .locked (some ⟨2, [7], false⟩) none 1 .absent .absent .absent 0 [] false [9] false [7, 8] [9]) := by
    have h := IterChan.Step.rlock 1 rfl rfl rfl (n := 2) (m := 2) (s := iterSt .wait (.send [8]) .lock (some ⟨2, [7], false⟩) none 1 .absent .absent .absent 0 [] false [9] false [7, 8] [])
    simp only [iterSt, upd_tab0, upd_tab1, tab0, tab1] at h; exact h
  have h10 : IterChan.Step 2 2 (iterSt .wait (.send [8]) .locked (some ⟨2, [7], false⟩) none 1 .absent .absent .absent 0 [] false [9] false [7, 8] [9]) (.snap 1) (iterSt .wait (.send [8]) .made (some ⟨2, [7], false⟩) (some ⟨1, [], false⟩) 1 .absent .absent .absent 0 [] false [9] false [7, 8] [9]) := by
    have h := IterChan.Step.make 1 rfl rfl (by decide) (n := 2) (m := 2) (s := iterSt .wait (.send [8]) .locked (some ⟨2, [7], false⟩) none 1 .absent .absent .absent 0 [] false [9] false [7, 8] [9])
    simp only [iterSt, upd_tab0, upd_tab1, tab0, tab1] at h; exact h
  have h11 : IterChan.Step 2 2 (iterSt .wait (.send [8]) .made (some ⟨2, [7], false⟩) (some ⟨1, [], false⟩) 1 .absent .absent .absent 0 [] false [9] false [7, 8] [9]) (.snap 1) (iterSt .wait (.send [8]) (.send [9]) (some ⟨2, [7], false⟩) (some ⟨1, [], false⟩) 0 .absent .absent .absent 0 [] false [9] false [7, 8] [9]) := by
    have h := IterChan.Step.done 1 rfl rfl (by decide) (n := 2) (m := 2) (s := iterSt .wait (.send [8]) .made (some ⟨2, [7], false⟩) (some ⟨1, [], false⟩) 1 .absent .absent .absent 0 [] false [9] false [7, 8] [9])
    simp only [iterSt, upd_tab0, upd_tab1, tab0, tab1] at h; exact h
  have h12 : IterChan.Step 2 2 (iterSt .wait (.send [8]) (.send [9]) (some ⟨2, [7], false⟩) (some ⟨1, [], false⟩) 0 .absent .absent .absent 0 [] false [9] false [7, 8] [9]) (.main) (iterSt (.returned 3) (.send [8]) (.send [9]) (some ⟨2, [7], false⟩) (some ⟨1, [], false⟩) 0 (.spawn 0) .absent .absent 2 [] false [9] false [7, 8] [9]) := by
    have h := IterChan.Step.waited rfl rfl rfl (n := 2) (m := 2) (s := iterSt .wait (.send [8]) (.send [9]) (some ⟨2, [7], false⟩) (some ⟨1, [], false⟩) 0 .absent .absent .absent 0 [] false [9] false [7, 8] [9])
    simp only [iterSt, upd_tab0, upd_tab1, tab0, tab1] at h; exact h
  have h13 : IterChan.Step 2 2 (iterSt (.returned 3) (.send [8]) (.send [9]) (some ⟨2, [7], false⟩) (some ⟨1, [], false⟩) 0 (.spawn 0) .absent .absent 2 [] false [9] false [7, 8] [9]) (.fan) (iterSt (.returned 3) (.send [8]) (.send [9]) (some ⟨2, [7], false⟩) (some ⟨1, [], false⟩) 0 (.spawn 1) .ready .absent 2 [] false [9] false [7, 8] [9]) := by
    have h := IterChan.Step.fanSpawn 0 rfl rfl (by decide) (n := 2) (m := 2) (s := iterSt (.returned 3) (.send [8]) (.send [9]) (some ⟨2, [7], false⟩) (some ⟨1, [], false⟩) 0 (.spawn 0) .absent .absent 2 [] false [9] false [7, 8] [9])
    simp only [iterSt, upd_tab0, upd_tab1, tab0, tab1] at h; exact h
  have h14 : IterChan.Step 2 2 (iterSt (.returned 3) (.send [8]) (.send [9]) (some ⟨2, [7], false⟩) (some ⟨1, [], false⟩) 0 (.spawn 1) .ready .absent 2 [] false [9] false [7, 8] [9]) (.copy 0) (iterSt (.returned 3) (.send [8]) (.send [9]) (some ⟨2, [], false⟩) (some ⟨1, [], false⟩) 0 (.spawn 1) (.holding 7) .absent 2 [] false [9] false [7, 8] [9]) := by
    have h := IterChan.Step.recv 0 7 [] _ rfl rfl rfl rfl (n := 2) (m := 2) (s := iterSt (.returned 3) (.send [8]) (.send [9]) (some ⟨2, [7], false⟩) (some ⟨1, [], false⟩) 0 (.spawn 1) .ready .absent 2 [] false [9] false [7, 8] [9])
    simp only [iterSt, upd_tab0, upd_tab1, tab0, tab1] at h; exact h
  have h15 : IterChan.Step 2 2 (iterSt (.returned 3) (.send [8]) (.send [9]) (some ⟨2, [], false⟩) (some ⟨1, [], false⟩) 0 (.spawn 1) (.holding 7) .absent 2 [] false [9] false [7, 8] [9]) (.copy 0) (iterSt (.returned 3) (.send [8]) (.send [9]) (some ⟨2, [], false⟩) (some ⟨1, [], false⟩) 0 (.spawn 1) .ready .absent 2 [(0, 7)] false [9] false [7, 8] [9]) := by
    have h := IterChan.Step.pass 0 7 3 rfl rfl rfl rfl (by decide) (n := 2) (m := 2) (s := iterSt (.returned 3) (.send [8]) (.send [9]) (some ⟨2, [], false⟩) (some ⟨1, [], false⟩) 0 (.spawn 1) (.holding 7) .absent 2 [] false [9] false [7, 8] [9])
    simp only [iterSt, upd_tab0, upd_tab1, tab0, tab1] at h; exact h
  have h16 : IterChan.Step 2 2 (iterSt (.returned 3) (.send [8]) (.send [9]) (some ⟨2, [], false⟩) (some ⟨1, [], false⟩) 0 (.spawn 1) .ready .absent 2 [(0, 7)] false [9] false [7, 8] [9]) (.fan) (iterSt (.returned 3) (.send [8]) (.send [9]) (some ⟨2, [], false⟩) (some ⟨1, [], false⟩) 0 (.spawn 2) .ready .ready 2 [(0, 7)] false [9] false [7, 8] [9]) := by
    have h := IterChan.Step.fanSpawn 1 rfl rfl (by decide) (n := 2) (m := 2) (s := iterSt (.returned 3) (.send [8]) (.send [9]) (some ⟨2, [], false⟩) (some ⟨1, [], false⟩) 0 (.spawn 1) .ready .absent 2 [(0, 7)] false [9] false [7, 8] [9])
    simp only [iterSt, upd_tab0, upd_tab1, tab0, tab1] at h; exact h
  have h17 : IterChan.Step 2 2 (iterSt (.returned 3) (.send [8]) (.send [9]) (some ⟨2, [], false⟩) (some ⟨1, [], false⟩) 0 (.spawn 2) .ready .ready 2 [(0, 7)] false [9] false [7, 8] [9]) (.fan) (iterSt (.returned 3) (.send [8]) (.send [9]) (some ⟨2, [], false⟩) (some ⟨1, [], false⟩) 0 .wait .ready .ready 2 [(0, 7)] false [9] false [7, 8] [9]) := by
    have h := IterChan.Step.fanSpawned rfl rfl (n := 2) (m := 2) (s := iterSt (.returned 3) (.send [8]) (.send [9]) (some ⟨2, [], false⟩) (some ⟨1, [], false⟩) 0 (.spawn 2) .ready .ready 2 [(0, 7)] false [9] false [7, 8] [9])
    simp only [iterSt, upd_tab0, upd_tab1, tab0, tab1] at h; exact h
  have h18 : IterChan.Step 2 2 (iterSt (.returned 3) (.send [8]) (.send [9]) (some ⟨2, [], false⟩) (some ⟨1, [], false⟩) 0 .wait .ready .ready 2 [(0, 7)] false [9] false [7, 8] [9]) (.snap 1) (iterSt (.returned 3) (.send [8]) (.send []) (some ⟨2, [], false⟩) (some ⟨1, [9], false⟩) 0 .wait .ready .ready 2 [(0, 7)] false [9] false [7, 8] [9]) := by
    have h := IterChan.Step.send 1 9 [] _ rfl rfl rfl rfl (by decide) (n := 2) (m := 2) (s := iterSt (.returned 3) (.send [8]) (.send [9]) (some ⟨2, [], false⟩) (some ⟨1, [], false⟩) 0 .wait .ready .ready 2 [(0, 7)] false [9] false [7, 8] [9])
    simp only [iterSt, upd_tab0, upd_tab1, tab0, tab1] at h; exact h
  have h19 : IterChan.Step 2 2 (iterSt (.returned 3) (.send [8]) (.send []) (some ⟨2, [], false⟩) (some ⟨1, [9], false⟩) 0 .wait .ready .ready 2 [(0, 7)] false [9] false [7, 8] [9]) (.copy 1) (iterSt (.returned 3) (.send [8]) (.send []) (some ⟨2, [], false⟩) (some ⟨1, [], false⟩) 0 .wait .ready (.holding 9) 2 [(0, 7)] false [9] false [7, 8] [9]) := by
    have h := IterChan.Step.recv 1 9 [] _ rfl rfl rfl rfl (n := 2) (m := 2) (s := iterSt (.returned 3) (.send [8]) (.send []) (some ⟨2, [], false⟩) (some ⟨1, [9], false⟩) 0 .wait .ready .ready 2 [(0, 7)] false [9] false [7, 8] [9])
    simp only [iterSt, upd_tab0, upd_tab1, tab0, tab1] at h; exact h
  have h20 : IterChan.Step 2 2 (iterSt (.returned 3) (.send [8]) (.send []) (some ⟨2, [], false⟩) (some ⟨1, [], false⟩) 0 .wait .ready (.holding 9) 2 [(0, 7)] false [9] false [7, 8] [9]) (.copy 1) (iterSt (.returned 3) (.send [8]) (.send []) (some ⟨2, [], false⟩) (some ⟨1, [], false⟩) 0 .wait .ready .ready 2 [(0, 7), (1, 9)] false [9] false [7, 8] [9]) := by
    have h := IterChan.Step.pass 1 9 3 rfl rfl rfl rfl (by decide) (n := 2) (m := 2) (s := iterSt (.returned 3) (.send [8]) (.send []) (some ⟨2, [], false⟩) (some ⟨1, [], false⟩) 0 .wait .ready (.holding 9) 2 [(0, 7)] false [9] false [7, 8] [9])
    simp only [iterSt, upd_tab0, upd_tab1, tab0, tab1] at h; exact h
  have h21 : IterChan.Step 2 2 (iterSt (.returned 3) (.send [8]) (.send []) (some ⟨2, [], false⟩) (some ⟨1, [], false⟩) 0 .wait .ready .ready 2 [(0, 7), (1, 9)] false [9] false [7, 8] [9]) (.snap 0) (iterSt (.returned 3) (.send []) (.send []) (some ⟨2, [8], false⟩) (some ⟨1, [], false⟩) 0 .wait .ready .ready 2 [(0, 7), (1, 9)] false [9] false [7, 8] [9]) := by
    have h := IterChan.Step.send 0 8 [] _ rfl rfl rfl rfl (by decide) (n := 2) (m := 2) (s := iterSt (.returned 3) (.send [8]) (.send []) (some ⟨2, [], false⟩) (some ⟨1, [], false⟩) 0 .wait .ready .ready 2 [(0, 7), (1, 9)] false [9] false [7, 8] [9])
    simp only [iterSt, upd_tab0, upd_tab1, tab0, tab1] at h; exact h
  have h22 : IterChan.Step 2 2 (iterSt (.returned 3) (.send []) (.send []) (some ⟨2, [8], false⟩) (some ⟨1, [], false⟩) 0 .wait .ready .ready 2 [(0, 7), (1, 9)] false [9] false [7, 8] [9]) (.copy 0) (iterSt (.returned 3) (.send []) (.send []) (some ⟨2, [], false⟩) (some ⟨1, [], false⟩) 0 .wait (.holding 8) .ready 2 [(0, 7), (1, 9)] false [9] false [7, 8] [9]) := by
    have h := IterChan.Step.recv 0 8 [] _ rfl rfl rfl rfl (n := 2) (m := 2) (s := iterSt (.returned 3) (.send []) (.send []) (some ⟨2, [8], false⟩) (some ⟨1, [], false⟩) 0 .wait .ready .ready 2 [(0, 7), (1, 9)] false [9] false [7, 8] [9])
    simp only [iterSt, upd_tab0, upd_tab1, tab0, tab1] at h; exact h
  have h23 : IterChan.Step 2 2 (iterSt (.returned 3) (.send []) (.send []) (some ⟨2, [], false⟩) (some ⟨1, [], false⟩) 0 .wait (.holding 8) .ready 2 [(0, 7), (1, 9)] false [9] false [7, 8] [9]) (.copy 0) (iterSt (.returned 3) (.send []) (.send []) (some ⟨2, [], false⟩) (some ⟨1, [], false⟩) 0 .wait .ready .ready 2 [(0, 7), (1, 9), (0, 8)] false [9] false [7, 8] [9]) := by
    have h := IterChan.Step.pass 0 8 3 rfl rfl rfl rfl (by decide) (n := 2) (m := 2) (s := iterSt (.returned 3) (.send []) (.send []) (some ⟨2, [], false⟩) (some ⟨1, [], false⟩) 0 .wait (.holding 8) .ready 2 [(0, 7), (1, 9)] false [9] false [7, 8] [9])
    simp only [iterSt, upd_tab0, upd_tab1, tab0, tab1] at h; exact h
  have h24 : IterChan.Step 2 2 (iterSt (.returned 3) (.send []) (.send []) (some ⟨2, [], false⟩) (some ⟨1, [], false⟩) 0 .wait .ready .ready 2 [(0, 7), (1, 9), (0, 8)] false [9] false [7, 8] [9]) (.snap 0) (iterSt (.returned 3) .unlocked (.send []) (some ⟨2, [], false⟩) (some ⟨1, [], false⟩) 0 .wait .ready .ready 2 [(0, 7), (1, 9), (0, 8)] false [9] false [7, 8] [9]) := by
    have h := IterChan.Step.runlock 0 rfl rfl (n := 2) (m := 2) (s := iterSt (.returned 3) (.send []) (.send []) (some ⟨2, [], false⟩) (some ⟨1, [], false⟩) 0 .wait .ready .ready 2 [(0, 7), (1, 9), (0, 8)] false [9] false [7, 8] [9])
    simp only [iterSt, upd_tab0, upd_tab1, tab0, tab1] at h; exact h
  have h25 : IterChan.Step 2 2 (iterSt (.returned 3) .unlocked (.send []) (some ⟨2, [], false⟩) (some ⟨1, [], false⟩) 0 .wait .ready .ready 2 [(0, 7), (1, 9), (0, 8)] false [9] false [7, 8] [9]) (.snap 0) (iterSt (.returned 3) .ended (.send []) (some ⟨2, [], true⟩) (some ⟨1, [], false⟩) 0 .wait .ready .ready 2 [(0, 7), (1, 9), (0, 8)] false [9] false [7, 8] [9]) := by
    have h := IterChan.Step.close 0 _ rfl rfl rfl rfl (n := 2) (m := 2) (s := iterSt (.returned 3) .unlocked (.send []) (some ⟨2, [], false⟩) (some ⟨1, [], false⟩) 0 .wait .ready .ready 2 [(0, 7), (1, 9), (0, 8)] false [9] false [7, 8] [9])
    simp only [iterSt, upd_tab0, upd_tab1, tab0, tab1] at h; exact h
  have h26 : IterChan.Step 2 2 (iterSt (.returned 3) .ended (.send []) (some ⟨2, [], true⟩) (some ⟨1, [], false⟩) 0 .wait .ready .ready 2 [(0, 7), (1, 9), (0, 8)] false [9] false [7, 8] [9]) (.snap 1) (iterSt (.returned 3) .ended .unlocked (some ⟨2, [], true⟩) (some ⟨1, [], false⟩) 0 .wait .ready .ready 2 [(0, 7), (1, 9), (0, 8)] false [9] false [7, 8] [9]) := by
    have h := IterChan.Step.runlock 1 rfl rfl (n := 2) (m := 2) (s := iterSt (.returned 3) .ended (.send []) (some ⟨2, [], true⟩) (some ⟨1, [], false⟩) 0 .wait .ready .ready 2 [(0, 7), (1, 9), (0, 8)] false [9] false [7, 8] [9])
    simp only [iterSt, upd_tab0, upd_tab1, tab0, tab1] at h; exact h
  have h27 : IterChan.Step 2 2 (iterSt (.returned 3) .ended .unlocked (some ⟨2, [], true⟩) (some ⟨1, [], false⟩) 0 .wait .ready .ready 2 [(0, 7), (1, 9), (0, 8)] false [9] false [7, 8] [9]) (.snap 1) (iterSt (.returned 3) .ended .ended (some ⟨2, [], true⟩) (some ⟨1, [], true⟩) 0 .wait .ready .ready 2 [(0, 7), (1, 9), (0, 8)] false [9] false [7, 8] [9]) := by
    have h := IterChan.Step.close 1 _ rfl rfl rfl rfl (n := 2) (m := 2) (s := iterSt (.returned 3) .ended .unlocked (some ⟨2, [], true⟩) (some ⟨1, [], false⟩) 0 .wait .ready .ready 2 [(0, 7), (1, 9), (0, 8)] false [9] false [7, 8] [9])
    simp only [iterSt, upd_tab0, upd_tab1, tab0, tab1] at h; exact h
  have h28 : IterChan.Step 2 2 (iterSt (.returned 3) .ended .ended (some ⟨2, [], true⟩) (some ⟨1, [], true⟩) 0 .wait .ready .ready 2 [(0, 7), (1, 9), (0, 8)] false [9] false [7, 8] [9]) (.copy 0) (iterSt (.returned 3) .ended .ended (some ⟨2, [], true⟩) (some ⟨1, [], true⟩) 0 .wait .ended .ready 1 [(0, 7), (1, 9), (0, 8)] false [9] false [7, 8] [9]) := by
    have h := IterChan.Step.recvEnd 0 _ rfl rfl rfl rfl rfl (by decide) (n := 2) (m := 2) (s := iterSt (.returned 3) .ended .ended (some ⟨2, [], true⟩) (some ⟨1, [], true⟩) 0 .wait .ready .ready 2 [(0, 7), (1, 9), (0, 8)] false [9] false [7, 8] [9])
    simp only [iterSt, upd_tab0, upd_tab1, tab0, tab1] at h; exact h
  have h29 : IterChan.Step 2 2 (iterSt (.returned 3) .ended .ended (some ⟨2, [], true⟩) (some ⟨1, [], true⟩) 0 .wait .ended .ready 1 [(0, 7), (1, 9), (0, 8)] false [9] false [7, 8] [9]) (.copy 1) (iterSt (.returned 3) .ended .ended (some ⟨2, [], true⟩) (some ⟨1, [], true⟩) 0 .wait .ended .ended 0 [(0, 7), (1, 9), (0, 8)] false [9] false [7, 8] [9]) := by
    have h := IterChan.Step.recvEnd 1 _ rfl rfl rfl rfl rfl (by decide) (n := 2) (m := 2) (s := iterSt (.returned 3) .ended .ended (some ⟨2, [], true⟩) (some ⟨1, [], true⟩) 0 .wait .ended .ready 1 [(0, 7), (1, 9), (0, 8)] false [9] false [7, 8] [9])
    simp only [iterSt, upd_tab0, upd_tab1, tab0, tab1] at h; exact h
  have h30 : IterChan.Step 2 2 (iterSt (.returned 3) .ended .ended (some ⟨2, [], true⟩) (some ⟨1, [], true⟩) 0 .wait .ended .ended 0 [(0, 7), (1, 9), (0, 8)] false [9] false [7, 8] [9]) (.fan) (iterSt (.returned 3) .ended .ended (some ⟨2, [], true⟩) (some ⟨1, [], true⟩) 0 .ended .ended .ended 0 [(0, 7), (1, 9), (0, 8)] true [9] false [7, 8] [9]) := by
    have h := IterChan.Step.fanWaited rfl rfl rfl (n := 2) (m := 2) (s := iterSt (.returned 3) .ended .ended (some ⟨2, [], true⟩) (some ⟨1, [], true⟩) 0 .wait .ended .ended 0 [(0, 7), (1, 9), (0, 8)] false [9] false [7, 8] [9])
    simp only [iterSt, upd_tab0, upd_tab1, tab0, tab1] at h; exact h
  exact ⟨_, .cons h0 (.cons h1 (.cons h2 (.cons h3 (.cons h4 (.cons h5 (.cons h6 (.cons h7 (.cons h8 (.cons h9 (.cons h10 (.cons h11 (.cons h12 (.cons h13 (.cons h14 (.cons h15 (.cons h16 (.cons h17 (.cons h18 (.cons h19 (.cons h20 (.cons h21 (.cons h22 (.cons h23 (.cons h24 (.cons h25 (.cons h26 (.cons h27 (.cons h28 (.cons h29 (.cons h30 (.nil _)))))))))))))))))))))))))))))))⟩

example : ∃ (e : Exec (IterChan.Step (E := Nat) 2 2)) (N : Nat), IterFair e ∧ e.run 0 = start (iterTab [7, 8] [] []) 2 ∧ (∀ k, N ≤ k → (e.run k).taken = [] ∧ (e.run k).out = [(0, 7), (1, 9), (0, 8)]) := by
  obtain ⟨ls, hst⟩ := iter_run
  obtain ⟨e, he0, _, _, hend⟩ := Exec.ofSteps hst
  refine ⟨e, ls.length, iterFair_of_end (iterInv_run hst) hend ⟨_, rfl⟩ ?_ rfl ?_, he0, fun k hk => by rw [hend k hk]; exact ⟨rfl, rfl⟩⟩
  · intro i hi
    obtain rfl | rfl : i = 0 ∨ i = 1 := by omega
    · exact ⟨rfl, rfl⟩
    · exact ⟨rfl, rfl⟩
  · intro i
    simp [iterSt, iterTab]

end Zinx.Props
