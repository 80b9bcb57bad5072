import Verif.Model.DelayConc

/-! # C131: how long a failed attempt waits when several listeners and handshakes fail -/

namespace Zinx.Props

open Zinx Zinx.AcceptDelay Zinx.DelayConc

/-- The goroutine is in `Delay` and not sleeping. -/
def InDelay (s : DelayConc.State) (i : Nat) : Prop := s.pc i ≠ .idle ∧ ∀ d, s.pc i ≠ .asleep d

/-- At most one goroutine is in `Delay` and not sleeping. -/
def OneInDelay (s : DelayConc.State) : Prop := ∀ i j, InDelay s i → InDelay s j → i = j

/-- What holds as long as the calls do not overlap. -/
structure DelayInv (s : DelayConc.State) : Prop where
  low : 0 ≤ s.duration
  high : s.duration ≤ 2 * maxDelay
  capped : (∀ i, s.pc i ≠ .compare ∧ s.pc i ≠ .cap) → s.duration ≤ maxDelay
  held : ∀ i r, s.pc i = .store r → 0 ≤ r ∧ r ≤ maxDelay
  slept : ∀ i d, s.pc i = .asleep d → 0 ≤ d ∧ d ≤ maxDelay

theorem delayAt_pc (s : DelayConc.State) (i j : Nat) (p : Pc) : (s.at i p).pc j = if j = i then p else s.pc j := rfl

theorem delayAt_self (s : DelayConc.State) (i : Nat) (p : Pc) : (s.at i p).pc i = p := by simp [delayAt_pc]

theorem delayAt_other (s : DelayConc.State) {i j : Nat} (p : Pc) (h : j ≠ i) : (s.at i p).pc j = s.pc j := by simp [delayAt_pc, h]

theorem capped_at {s : DelayConc.State} (hq : OneInDelay s) (hi : DelayInv s) {i : Nat} (h : InDelay s i) (h2 : s.pc i ≠ .compare) (h3 : s.pc i ≠ .cap) :
    s.duration ≤ maxDelay := by
  apply hi.capped
  intro j
  by_cases hj : j = i
  · subst hj; exact ⟨h2, h3⟩
  · refine ⟨fun h4 => hj (hq j i ?_ h), fun h4 => hj (hq j i ?_ h)⟩
    · exact ⟨by rw [h4]; simp, by intro d; rw [h4]; simp⟩
    · exact ⟨by rw [h4]; simp, by intro d; rw [h4]; simp⟩

theorem inDelay_of {s : DelayConc.State} {i : Nat} {p : Pc} (h : s.pc i = p) (h1 : p ≠ .idle) (h2 : ∀ d, p ≠ .asleep d) : InDelay s i := by
  subst h; exact ⟨h1, h2⟩

/-- A move of a goroutine that leaves the field alone. -/
theorem delayInv_move {s : DelayConc.State} (hi : DelayInv s) (i : Nat) (p : Pc)
    (hc : p ≠ .compare → p ≠ .cap → s.duration ≤ maxDelay ∨ (s.pc i ≠ .compare ∧ s.pc i ≠ .cap))
    (hh : ∀ r, p = .store r → 0 ≤ r ∧ r ≤ maxDelay) (hs : ∀ d, p = .asleep d → 0 ≤ d ∧ d ≤ maxDelay) : DelayInv (s.at i p) := by
  refine ⟨hi.low, hi.high, fun h => ?_, fun j r h => ?_, fun j d h => ?_⟩
  · have h1 := h i
    rw [delayAt_self] at h1
    rcases hc h1.1 h1.2 with h2 | h2
    · exact h2
    · apply hi.capped
      intro j
      by_cases hj : j = i
      · subst hj; exact h2
      · have := h j; rw [delayAt_other s p hj] at this; exact this
  · by_cases hj : j = i
    · subst hj; rw [delayAt_self] at h; exact hh r h
    · rw [delayAt_other s p hj] at h; exact hi.held j r h
  · by_cases hj : j = i
    · subst hj; rw [delayAt_self] at h; exact hs d h
    · rw [delayAt_other s p hj] at h; exact hi.slept j d h

/-- A move of a goroutine that writes the field. -/
theorem delayInv_write {s : DelayConc.State} (hi : DelayInv s) (i : Nat) (p : Pc) (v : Int) (h0 : 0 ≤ v) (h2 : v ≤ 2 * maxDelay)
    (hc : p ≠ .compare → p ≠ .cap → v ≤ maxDelay)
    (hh : ∀ r, p ≠ .store r) (hs : ∀ d, p ≠ .asleep d) : DelayInv { s.at i p with duration := v } := by
  refine ⟨h0, h2, fun h => ?_, fun j r h => ?_, fun j d h => ?_⟩
  · have h1 := h i
    dsimp only at h1
    rw [delayAt_self] at h1
    exact hc h1.1 h1.2
  · dsimp only at h
    by_cases hj : j = i
    · subst hj; rw [delayAt_self] at h; exact absurd h (hh r)
    · rw [delayAt_other s p hj] at h; exact hi.held j r h
  · dsimp only at h
    by_cases hj : j = i
    · subst hj; rw [delayAt_self] at h; exact absurd h (hs d)
    · rw [delayAt_other s p hj] at h; exact hi.slept j d h

theorem wrap64_double {r : Int} (h0 : 0 ≤ r) (h1 : r < 2 ^ 62) : wrap64 (2 * r) = 2 * r := by
  apply Int.bmod_eq_of_le <;> omega

theorem delayInv_step (s : DelayConc.State) (l : DelayConc.Label) (t : DelayConc.State) (hq : OneInDelay s) (hi : DelayInv s) (h : DelayConc.Step s l t) :
    DelayInv t := by
  cases h with
  | @delay i h => exact delayInv_move hi _ _ (fun _ _ => .inr (by rw [h]; simp)) (by simp) (by simp)
  | @reset i h =>
    refine ⟨by simp, by simp [maxDelay], fun _ => by simp [maxDelay], hi.held, hi.slept⟩
  | @zero i h h2 => exact delayInv_move hi _ _ (fun _ _ => .inr (by rw [h]; simp)) (by simp) (by simp)
  | @nonzero i h h2 => exact delayInv_move hi _ _ (fun _ _ => .inr (by rw [h]; simp)) (by simp) (by simp)
  | @first i h =>
    exact delayInv_write hi _ _ _ (by simp [millisecond]) (by simp [millisecond, maxDelay]) (fun _ _ => by simp [millisecond, maxDelay]) (by simp) (by simp)
  | @load i h =>
    refine delayInv_move hi _ _ (fun _ _ => .inr (by rw [h]; simp)) (fun r hr => ?_) (by simp)
    cases hr
    exact ⟨hi.low, capped_at hq hi (inDelay_of h (by simp) (by simp)) (by rw [h]; simp) (by rw [h]; simp)⟩
  | @store i r h =>
    have hr := hi.held i r h
    have hm : maxDelay = 1000000000 := rfl
    have : wrap64 (2 * r) = 2 * r := wrap64_double hr.1 (by omega)
    exact delayInv_write hi _ _ _ (by omega) (by omega) (by simp) (by simp) (by simp)
  | @above i h h2 => exact delayInv_move hi _ _ (by simp) (by simp) (by simp)
  | @below i h h2 => exact delayInv_move hi _ _ (fun _ _ => .inl h2) (by simp) (by simp)
  | @cap i h => exact delayInv_write hi _ _ _ (by simp [maxDelay]) (by simp [maxDelay]) (fun _ _ => by simp) (by simp) (by simp)
  | @positive i h h2 => exact delayInv_move hi _ _ (fun _ _ => .inr (by rw [h]; simp)) (by simp) (by simp)
  | @skip i h h2 => exact delayInv_move hi _ _ (fun _ _ => .inr (by rw [h]; simp)) (by simp) (by simp)
  | @nap i h =>
    refine delayInv_move hi _ _ (fun _ _ => .inr (by rw [h]; simp)) (by simp) (fun d hd => ?_)
    cases hd
    exact ⟨hi.low, capped_at hq hi (inDelay_of h (by simp) (by simp)) (by rw [h]; simp) (by rw [h]; simp)⟩
  | @wake i d h => exact delayInv_move hi _ _ (fun _ _ => .inr (by rw [h]; simp)) (by simp) (by simp)

theorem delayInv_init : DelayInv DelayConc.init :=
  ⟨by simp [DelayConc.init], by simp [DelayConc.init, maxDelay], fun _ => by simp [DelayConc.init, maxDelay], by simp [DelayConc.init], by simp [DelayConc.init]⟩

/-- Property C131 as far as it holds: if no call of `Delay` starts while another has not yet reached its sleep, no attempt waits longer
than a second, whatever the order of failures and successes and however many goroutines there are. -/
theorem C131_partial {ls : List DelayConc.Label} {t : DelayConc.State} (h : StepsAll DelayConc.Step OneInDelay DelayConc.init ls t)
    {i : Nat} {d : Int} (hd : DelayConc.Label.sleep i d ∈ ls) : 0 ≤ d ∧ d ≤ 1000000000 := by
  have key : ∀ {s t : DelayConc.State} {ls : List DelayConc.Label}, StepsAll DelayConc.Step OneInDelay s ls t → DelayInv s →
      DelayConc.Label.sleep i d ∈ ls → 0 ≤ d ∧ d ≤ 1000000000 := by
    intro s t ls h
    induction h with
    | nil _ => intro _ h; cases h
    | @cons s u t l ls hq hs _ ih =>
      intro hi hm
      have hu := delayInv_step _ _ _ hq hi hs
      rcases List.mem_cons.1 hm with h1 | h1
      · subst h1
        cases hs with
        | nap h => exact hu.slept i _ (delayAt_self _ _ _)
      · exact ih hu h1
  exact key h delayInv_init hd

/-- The labels of one call of `Delay` by goroutine `i` that sleeps `d`, with `n` steps in between. -/
def oneDelay (i n : Nat) (d : Int) : List DelayConc.Label := .delay i :: (List.replicate n (.tau i) ++ [.sleep i d, .wake i])

theorem delayAt_at (s : DelayConc.State) (i : Nat) (p q : Pc) : (s.at i p).at i q = s.at i q := by
  simp only [State.at]; congr 1; funext j; split <;> rfl

theorem delayAt_same (s : DelayConc.State) (i : Nat) : s.at i (s.pc i) = s := by
  cases s; simp only [State.at]; congr 1; funext j; split
  · next h => subst h; rfl
  · rfl

/-- A call of `Delay` that nobody interrupts does what the sequential model of C62 says: it sets the field to `up` of its value and
sleeps that long. -/
theorem C131_alone (s : DelayConc.State) (i : Nat) (h : s.pc i = .idle) (h0 : 0 ≤ s.duration) (h1 : s.duration ≤ maxDelay) :
    ∃ n, Steps DelayConc.Step s (oneDelay i n (up s.duration)) { s with duration := up s.duration } := by
  have hm : maxDelay = 1000000000 := rfl
  have back : ∀ v : Int, ({ s.at i .idle with duration := v } : DelayConc.State) = { s with duration := v } := by
    intro v
    have := delayAt_same s i
    rw [h] at this; rw [this]
  have finish : ∀ v : Int, 0 < v → Steps DelayConc.Step { s.at i .positive with duration := v } [.tau i, .sleep i v, .wake i] { s with duration := v } := by
    intro v hv
    rw [← back v]
    have e1 : DelayConc.Step { s.at i .positive with duration := v } (.tau i) { s.at i .nap with duration := v } := by
      have := DelayConc.Step.positive (s := { s.at i .positive with duration := v }) (i := i) (delayAt_self _ _ _) hv
      have e : (({ s.at i .positive with duration := v } : DelayConc.State).at i .nap) = { s.at i .nap with duration := v } := by
        have := delayAt_at s i .positive .nap
        simp only [State.at] at this ⊢; injection this with _ h; rw [h]
      rw [e] at this; exact this
    have e2 : DelayConc.Step { s.at i .nap with duration := v } (.sleep i v) { s.at i (.asleep v) with duration := v } := by
      have := DelayConc.Step.nap (s := { s.at i .nap with duration := v }) (i := i) (delayAt_self _ _ _)
      have e : (({ s.at i .nap with duration := v } : DelayConc.State).at i (.asleep v)) = { s.at i (.asleep v) with duration := v } := by
        have := delayAt_at s i .nap (.asleep v)
        simp only [State.at] at this ⊢; injection this with _ h; rw [h]
      dsimp only at this
      rw [e] at this; exact this
    have e3 : DelayConc.Step { s.at i (.asleep v) with duration := v } (.wake i) { s.at i .idle with duration := v } := by
      have := DelayConc.Step.wake (s := { s.at i (.asleep v) with duration := v }) (i := i) (delayAt_self _ _ _)
      have e : (({ s.at i (.asleep v) with duration := v } : DelayConc.State).at i .idle) = { s.at i .idle with duration := v } := by
        have := delayAt_at s i (.asleep v) .idle
        simp only [State.at] at this ⊢; injection this with _ h; rw [h]
      rw [e] at this; exact this
    exact .cons e1 (.cons e2 (.cons e3 (.nil _)))
  have b1 : DelayConc.Step s (.delay i) (s.at i .test) := .delay h
  by_cases hz : s.duration = 0
  · have hu : up s.duration = 5 * millisecond := by simp [up, hz]
    have b2 : DelayConc.Step (s.at i .test) (.tau i) (s.at i .first) := by
      have := DelayConc.Step.zero (s := s.at i .test) (i := i) (delayAt_self _ _ _) hz
      rw [delayAt_at] at this; exact this
    have b3 : DelayConc.Step (s.at i .first) (.tau i) { s.at i .positive with duration := 5 * millisecond } := by
      have := DelayConc.Step.first (s := s.at i .first) (i := i) (delayAt_self _ _ _)
      rw [delayAt_at] at this; exact this
    rw [hu]
    exact ⟨3, .cons b1 (.cons b2 (.cons b3 (finish _ (by simp [millisecond]))))⟩
  · have b2 : DelayConc.Step (s.at i .test) (.tau i) (s.at i .load) := by
      have := DelayConc.Step.nonzero (s := s.at i .test) (i := i) (delayAt_self _ _ _) hz
      rw [delayAt_at] at this; exact this
    have b3 : DelayConc.Step (s.at i .load) (.tau i) (s.at i (.store s.duration)) := by
      have := DelayConc.Step.load (s := s.at i .load) (i := i) (delayAt_self _ _ _)
      rw [delayAt_at] at this; exact this
    have b4 : DelayConc.Step (s.at i (.store s.duration)) (.tau i) { s.at i .compare with duration := wrap64 (2 * s.duration) } := by
      have := DelayConc.Step.store (s := s.at i (.store s.duration)) (i := i) (delayAt_self _ _ _)
      rw [delayAt_at] at this; exact this
    by_cases hb : wrap64 (2 * s.duration) > maxDelay
    · have hu : up s.duration = maxDelay := by simp [up, hz, hb]
      have b5 : DelayConc.Step { s.at i .compare with duration := wrap64 (2 * s.duration) } (.tau i) { s.at i .cap with duration := wrap64 (2 * s.duration) } := by
        have := DelayConc.Step.above (s := { s.at i .compare with duration := wrap64 (2 * s.duration) }) (i := i) (delayAt_self _ _ _) hb
        have e : (({ s.at i .compare with duration := wrap64 (2 * s.duration) } : DelayConc.State).at i .cap) = { s.at i .cap with duration := wrap64 (2 * s.duration) } := by
          have := delayAt_at s i .compare .cap
          simp only [State.at] at this ⊢; injection this with _ h; rw [h]
        rw [e] at this; exact this
      have b6 : DelayConc.Step { s.at i .cap with duration := wrap64 (2 * s.duration) } (.tau i) { s.at i .positive with duration := maxDelay } := by
        have := DelayConc.Step.cap (s := { s.at i .cap with duration := wrap64 (2 * s.duration) }) (i := i) (delayAt_self _ _ _)
        have e : (({ s.at i .cap with duration := wrap64 (2 * s.duration) } : DelayConc.State).at i .positive) = { s.at i .positive with duration := wrap64 (2 * s.duration) } := by
          have := delayAt_at s i .cap .positive
          simp only [State.at] at this ⊢; injection this with _ h; rw [h]
        rw [e] at this; exact this
      rw [hu]
      exact ⟨6, .cons b1 (.cons b2 (.cons b3 (.cons b4 (.cons b5 (.cons b6 (finish _ (by simp [maxDelay])))))))⟩
    · have hu : up s.duration = wrap64 (2 * s.duration) := by simp [up, hz, hb]
      have b5 : DelayConc.Step { s.at i .compare with duration := wrap64 (2 * s.duration) } (.tau i) { s.at i .positive with duration := wrap64 (2 * s.duration) } := by
        have := DelayConc.Step.below (s := { s.at i .compare with duration := wrap64 (2 * s.duration) }) (i := i) (delayAt_self _ _ _) (by dsimp only; omega)
        have e : (({ s.at i .compare with duration := wrap64 (2 * s.duration) } : DelayConc.State).at i .positive) = { s.at i .positive with duration := wrap64 (2 * s.duration) } := by
          have := delayAt_at s i .compare .positive
          simp only [State.at] at this ⊢; injection this with _ h; rw [h]
        rw [e] at this; exact this
      have hw := wrap64_double (r := s.duration) h0 (by omega)
      rw [hu]
      exact ⟨5, .cons b1 (.cons b2 (.cons b3 (.cons b4 (.cons b5 (finish _ (by omega))))))⟩

/-- The states in which only goroutines `a` and `b` do anything. -/
def pair (a b : Nat) (d : Int) (p q : Pc) : DelayConc.State := { duration := d, pc := fun j => if j = a then p else if j = b then q else .idle }

theorem pair_left (a b : Nat) (d : Int) (p q p' : Pc) : (pair a b d p q).at a p' = pair a b d p' q := by
  simp only [pair, State.at]; congr 1; funext j; split <;> rfl

theorem pair_swap {a b : Nat} (h : a ≠ b) (d : Int) (p q : Pc) : pair a b d p q = pair b a d q p := by
  simp only [pair]; congr 1; funext j
  by_cases h1 : j = a
  · subst h1; simp [h]
  · simp [h1]

theorem pair_pc (a b : Nat) (d : Int) (p q : Pc) : (pair a b d p q).pc a = p := by simp [pair]

/-- A step of the first goroutine of a pair that leaves the field alone. -/
theorem pair_step {a b : Nat} {d : Int} {p q p' : Pc} {l : DelayConc.Label} (h : DelayConc.Step (pair a b d p q) l ((pair a b d p q).at a p')) :
    DelayConc.Step (pair a b d p q) l (pair a b d p' q) := by
  rw [pair_left] at h; exact h

/-- A step of the first goroutine of a pair that writes the field. -/
theorem pair_write {a b : Nat} {d v : Int} {p q p' : Pc} {l : DelayConc.Label}
    (h : DelayConc.Step (pair a b d p q) l { (pair a b d p q).at a p' with duration := v }) : DelayConc.Step (pair a b d p q) l (pair a b v p' q) := by
  rw [pair_left] at h; exact h

/-- Goroutine `a` calls `Delay` and stops after the read of :35. -/
theorem pair_hold (a b : Nat) (d : Int) (q : Pc) (h : d ≠ 0) : Reaches DelayConc.Step (pair a b d .idle q) (pair a b d (.store d) q) :=
  ⟨_, .cons (pair_step (.delay (pair_pc ..))) (.cons (pair_step (.nonzero (pair_pc ..) h)) (.cons (pair_step (.load (pair_pc ..))) (.nil _)))⟩

/-- Goroutine `a`, which has read `r`, writes its double. -/
theorem pair_store (a b : Nat) (d r : Int) (q : Pc) (h0 : 0 ≤ r) (h1 : r < 2 ^ 62) :
    DelayConc.Step (pair a b d (.store r) q) (.tau a) (pair a b (2 * r) .compare q) := by
  have := pair_write (DelayConc.Step.store (pair_pc a b d (.store r) q))
  rw [wrap64_double h0 h1] at this; exact this

/-- Goroutine `a`, which has just doubled the field, caps it and goes on to the read before its sleep. -/
theorem pair_cap (a b : Nat) (d : Int) (q : Pc) (h : d > maxDelay) : Reaches DelayConc.Step (pair a b d .compare q) (pair a b maxDelay .nap q) :=
  ⟨_, .cons (pair_step (.above (pair_pc ..) h)) (.cons (pair_write (.cap (pair_pc ..))) (.cons (pair_step (.positive (pair_pc ..) (by simp [pair, maxDelay]))) (.nil _)))⟩

/-- It sleeps and returns. -/
theorem pair_return (a b : Nat) (d : Int) (q : Pc) : Reaches DelayConc.Step (pair a b d .nap q) (pair a b d .idle q) :=
  ⟨_, .cons (pair_step (.nap (pair_pc ..))) (.cons (pair_step (.wake (pair_pc ..))) (.nil _))⟩

/-- One round: a value read and not yet written back is doubled, and it is the other goroutine that now holds it. -/
theorem pair_round {a b : Nat} (hab : a ≠ b) {r : Int} (h0 : maxDelay ≤ r) (h1 : r < 2 ^ 62) :
    Reaches DelayConc.Step (pair a b maxDelay (.store r) .idle) (pair b a maxDelay (.store (2 * r)) .idle) := by
  have hm : maxDelay = 1000000000 := rfl
  have e1 := Reaches.tail (Reaches.refl _) (pair_store a b maxDelay r .idle (by omega) h1)
  have e2 := pair_hold b a (2 * r) .compare (by omega)
  have e3 := pair_cap a b (2 * r) (.store (2 * r)) (by omega)
  have e4 := pair_return a b maxDelay (.store (2 * r))
  rw [pair_swap hab (2 * r) .compare] at e1
  rw [pair_swap hab.symm (2 * r) (.store (2 * r))] at e2
  rw [pair_swap hab maxDelay .idle] at e4
  exact ((e1.trans e2).trans e3).trans e4

/-- The field reaches its greatest sequential value. -/
theorem pair_warm (a b : Nat) : Reaches DelayConc.Step DelayConc.init (pair a b maxDelay .idle .idle) := by
  have e0 : ∀ d : Int, ({ DelayConc.init with duration := d } : DelayConc.State) = pair a b d .idle .idle := by
    intro d; simp [DelayConc.init, pair]
  have step : ∀ d : Int, 0 ≤ d → d ≤ maxDelay → Reaches DelayConc.Step (pair a b d .idle .idle) (pair a b (up d) .idle .idle) := by
    intro d h0 h1
    have := C131_alone (pair a b d .idle .idle) a (pair_pc ..) h0 h1
    obtain ⟨n, hn⟩ := this
    exact ⟨_, hn⟩
  have h0 : DelayConc.init = pair a b 0 .idle .idle := e0 0
  rw [h0]
  have s1 := step 0 (by decide) (by decide)
  have s2 := step 5000000 (by decide) (by decide)
  have s3 := step 10000000 (by decide) (by decide)
  have s4 := step 20000000 (by decide) (by decide)
  have s5 := step 40000000 (by decide) (by decide)
  have s6 := step 80000000 (by decide) (by decide)
  have s7 := step 160000000 (by decide) (by decide)
  have s8 := step 320000000 (by decide) (by decide)
  have s9 := step 640000000 (by decide) (by decide)
  have u1 : up 0 = 5000000 := by decide
  have u2 : up 5000000 = 10000000 := by decide
  have u3 : up 10000000 = 20000000 := by decide
  have u4 : up 20000000 = 40000000 := by decide
  have u5 : up 40000000 = 80000000 := by decide
  have u6 : up 80000000 = 160000000 := by decide
  have u7 : up 160000000 = 320000000 := by decide
  have u8 : up 320000000 = 640000000 := by decide
  have u9 : up 640000000 = maxDelay := by decide
  rw [u1] at s1; rw [u2] at s2; rw [u3] at s3; rw [u4] at s4; rw [u5] at s5; rw [u6] at s6; rw [u7] at s7; rw [u8] at s8; rw [u9] at s9
  exact (((((((s1.trans s2).trans s3).trans s4).trans s5).trans s6).trans s7).trans s8).trans s9

/-- After `k` rounds one of two goroutines holds `2^k` seconds. -/
theorem pair_rounds (k : Nat) (hk : k ≤ 32) : ∃ a b : Nat, a ≠ b ∧ a < 2 ∧ b < 2 ∧
    Reaches DelayConc.Step DelayConc.init (pair a b maxDelay (.store (maxDelay * 2 ^ k)) .idle) := by
  have hm : maxDelay = 1000000000 := rfl
  induction k with
  | zero =>
    refine ⟨0, 1, by simp, by simp, by simp, ?_⟩
    have := (pair_warm 0 1).trans (pair_hold 0 1 maxDelay .idle (by omega))
    simpa using this
  | succ k ih =>
    obtain ⟨a, b, hab, ha, hb, h⟩ := ih (by omega)
    have hp : (2 : Int) ^ k ≥ 1 := Int.pow_pos (by decide)
    have hq : (2 : Int) ^ k ≤ 2 ^ 31 := by
      have := Nat.pow_le_pow_right (n := 2) (by decide) (show k ≤ 31 by omega)
      exact_mod_cast this
    refine ⟨b, a, hab.symm, hb, ha, h.trans ?_⟩
    have e : maxDelay * 2 ^ (k + 1) = 2 * (maxDelay * 2 ^ k) := by rw [Int.pow_succ, hm]; omega
    rw [e]
    exact pair_round hab (by rw [hm]; omega) (by rw [hm]; omega)

/-- Property C131 does not hold in general: with two goroutines, a failed attempt can wait two seconds, four seconds, and so on up to
`2^33` seconds, which is some two hundred and seventy years. -/
theorem C131_refuted (k : Nat) (hk : k ≤ 33) :
    ∃ ls t, ∃ i < 2, Steps DelayConc.Step DelayConc.init ls t ∧ DelayConc.Label.sleep i (1000000000 * 2 ^ k) ∈ ls := by
  have hm : maxDelay = 1000000000 := rfl
  cases k with
  | zero =>
    obtain ⟨ls, h⟩ := pair_warm 0 1
    obtain ⟨n, h2⟩ := C131_alone (pair 0 1 maxDelay .idle .idle) 0 (pair_pc ..) (by simp [pair, maxDelay]) (by simp [pair])
    refine ⟨_, _, 0, by simp, h.append h2, ?_⟩
    have : up (pair 0 1 maxDelay .idle .idle).duration = 1000000000 * 2 ^ 0 := by decide
    rw [this]
    simp [oneDelay]
  | succ k =>
    obtain ⟨a, b, hab, ha, hb, h⟩ := pair_rounds k (by omega)
    have hp : (2 : Int) ^ k ≥ 1 := Int.pow_pos (by decide)
    have hq : (2 : Int) ^ k ≤ 2 ^ 32 := by
      have := Nat.pow_le_pow_right (n := 2) (by decide) (show k ≤ 32 by omega)
      exact_mod_cast this
    have e : (1000000000 : Int) * 2 ^ (k + 1) = 2 * (maxDelay * 2 ^ k) := by rw [Int.pow_succ, hm]; omega
    rw [e]
    have h1 : maxDelay ≤ maxDelay * 2 ^ k := by rw [hm]; omega
    have h2 : maxDelay * 2 ^ k < 2 ^ 62 := by rw [hm]; omega
    generalize maxDelay * 2 ^ k = r at h h1 h2 ⊢
    rw [pair_swap hab] at h
    -- the other goroutine fails too, and is about to sleep for the second it has just read ...
    have f1 := pair_hold b a maxDelay (.store r) (by omega)
    have f2 := Reaches.tail (Reaches.refl _) (pair_store b a maxDelay maxDelay (.store r) (by omega) (by omega))
    have f3 := pair_cap b a (2 * maxDelay) (.store r) (by omega)
    have f4 := ((h.trans f1).trans f2).trans f3
    -- ... when the first one writes back the double of its old value
    rw [pair_swap hab.symm] at f4
    have f5 := f4.tail (pair_store a b maxDelay r .nap (by omega) h2)
    rw [pair_swap hab] at f5
    obtain ⟨ls, h⟩ := f5
    exact ⟨_, _, b, hb, h.snoc (pair_step (.nap (pair_pc ..))), by simp [pair]⟩

/-- The hypotheses of `C131_partial` are met by a run in which the sleep of one goroutine overlaps the call of another. -/
example : ∃ ls t, StepsAll DelayConc.Step OneInDelay DelayConc.init ls t ∧ DelayConc.Label.sleep 0 5000000 ∈ ls ∧
    DelayConc.Label.delay 1 ∈ ls ∧ DelayConc.Label.wake 0 ∉ ls := by
  have one : ∀ p q, (p = Pc.idle ∨ (∃ d, p = .asleep d) ∨ q = .idle) → ∀ d, OneInDelay (pair 0 1 d p q) := by
    intro p q h d i j hi hj
    have hlt : ∀ i, InDelay (pair 0 1 d p q) i → i = 0 ∧ p ≠ .idle ∧ (∀ d, p ≠ .asleep d) ∨ i = 1 ∧ q ≠ .idle := by
      intro i ⟨h1, h2⟩
      simp only [pair] at h1 h2
      by_cases h3 : i = 0
      · simp [h3] at h1 h2; exact .inl ⟨h3, h1, h2⟩
      · by_cases h4 : i = 1
        · simp [h4] at h1 h2; exact .inr ⟨h4, h1⟩
        · simp [h3, h4] at h1
    rcases hlt i hi with h1 | h1 <;> rcases hlt j hj with h2 | h2
    · omega
    · rcases h with h | ⟨d, h⟩ | h
      · exact absurd h h1.2.1
      · exact absurd h (h1.2.2 d)
      · exact absurd h h2.2
    · rcases h with h | ⟨d, h⟩ | h
      · exact absurd h h2.2.1
      · exact absurd h (h2.2.2 d)
      · exact absurd h h1.2
    · omega
  have h0 : DelayConc.init = pair 0 1 0 .idle .idle := by simp [DelayConc.init, pair]
  rw [h0]
  have s1 : DelayConc.Step (pair 0 1 0 .idle .idle) (.delay 0) (pair 0 1 0 .test .idle) := pair_step (.delay (pair_pc ..))
  have s2 : DelayConc.Step (pair 0 1 0 .test .idle) (.tau 0) (pair 0 1 0 .first .idle) := pair_step (.zero (pair_pc ..) rfl)
  have s3 : DelayConc.Step (pair 0 1 0 .first .idle) (.tau 0) (pair 0 1 5000000 .positive .idle) := pair_write (.first (pair_pc ..))
  have s4 : DelayConc.Step (pair 0 1 5000000 .positive .idle) (.tau 0) (pair 0 1 5000000 .nap .idle) := pair_step (.positive (pair_pc ..) (by simp [pair]))
  have s5 : DelayConc.Step (pair 0 1 5000000 .nap .idle) (.sleep 0 5000000) (pair 0 1 5000000 (.asleep 5000000) .idle) := pair_step (.nap (pair_pc ..))
  have s6 : DelayConc.Step (pair 0 1 5000000 (.asleep 5000000) .idle) (.delay 1) (pair 0 1 5000000 (.asleep 5000000) .test) := by
    have : DelayConc.Step (pair 1 0 5000000 .idle (.asleep 5000000)) (.delay 1) (pair 1 0 5000000 .test (.asleep 5000000)) := pair_step (.delay (pair_pc ..))
    rw [pair_swap (by decide), pair_swap (by decide) _ .test] at this
    exact this
  exact ⟨_, _, .cons (one _ _ (by simp) _) s1 (.cons (one _ _ (by simp) _) s2 (.cons (one _ _ (by simp) _) s3 (.cons (one _ _ (by simp) _) s4
    (.cons (one _ _ (by simp) _) s5 (.cons (one _ _ (by simp) _) s6 (.nil (one _ _ (by simp) _))))))), by simp, by simp, by simp⟩

/-- The hypotheses of `C131_alone` are met with another goroutine asleep. -/
example : ∃ s : DelayConc.State, s.pc 0 = .idle ∧ s.pc 1 = .asleep 5000000 ∧ 0 ≤ s.duration ∧ s.duration ≤ maxDelay ∧ up s.duration = 10000000 :=
  ⟨pair 0 1 5000000 .idle (.asleep 5000000), rfl, rfl, by decide, by decide, by decide⟩

/-- How many actions of its own a call of `Delay` has before it at most. -/
def delayRank : Pc → Nat
  | .idle => 0
  | .asleep _ => 1
  | .nap => 2
  | .positive => 3
  | .cap | .first => 4
  | .compare => 5
  | .store _ => 6
  | .load => 7
  | .test => 8

/-- Goroutine `i` goes on with its call of `Delay`. -/
def goesOn (i : Nat) : DelayConc.Label → Bool
  | .tau j | .wake j | .sleep j _ => j = i
  | _ => false

/-- **C131, calls come to an end.** Whatever the other goroutines have done to the field, a goroutine in `Delay` can always go on; each action of its own brings it nearer to the return, by the actions of
others it loses nothing, and a call consists of eight actions at most. -/
theorem C131_goes_on (s : DelayConc.State) (i : Nat) :
    (s.pc i ≠ .idle → ∃ l t, DelayConc.Step s l t ∧ goesOn i l = true) ∧
    (∀ l t, DelayConc.Step s l t → goesOn i l = true → delayRank (t.pc i) < delayRank (s.pc i)) ∧
    (∀ l t, DelayConc.Step s l t → goesOn i l = false → l ≠ .delay i → t.pc i = s.pc i) ∧ delayRank (s.pc i) ≤ 8 := by
  refine ⟨fun h => ?_, fun l t h hl => ?_, fun l t h hl hd => ?_, ?_⟩
  · cases hp : s.pc i with
    | idle => exact absurd hp h
    | test =>
      by_cases h0 : s.duration = 0
      · exact ⟨_, _, .zero hp h0, by simp [goesOn]⟩
      · exact ⟨_, _, .nonzero hp h0, by simp [goesOn]⟩
    | first => exact ⟨_, _, .first hp, by simp [goesOn]⟩
    | load => exact ⟨_, _, .load hp, by simp [goesOn]⟩
    | store r => exact ⟨_, _, .store hp, by simp [goesOn]⟩
    | compare =>
      by_cases h0 : s.duration > maxDelay
      · exact ⟨_, _, .above hp h0, by simp [goesOn]⟩
      · exact ⟨_, _, .below hp (by omega), by simp [goesOn]⟩
    | cap => exact ⟨_, _, .cap hp, by simp [goesOn]⟩
    | positive =>
      by_cases h0 : s.duration > 0
      · exact ⟨_, _, .positive hp h0, by simp [goesOn]⟩
      · exact ⟨_, _, .skip hp (by omega), by simp [goesOn]⟩
    | nap => exact ⟨_, _, .nap hp, by simp [goesOn]⟩
    | asleep d => exact ⟨_, _, .wake hp, by simp [goesOn]⟩
  · cases h with
    | delay | reset => exact absurd hl (by simp [goesOn])
    | _ =>
      have hl := of_decide_eq_true hl
      subst hl
      simp only [delayAt_self]
      simp [*, delayRank]
  · cases h with
    | @delay j hj => exact delayAt_other _ _ (fun h => hd (by rw [h]))
    | reset => rfl
    | _ => exact delayAt_other _ _ (fun h => absurd h.symm (of_decide_eq_false hl))
  · cases s.pc i <;> simp [delayRank]

/-- A reset by another goroutine between `Up` and the test before the sleep: the call returns without a sleep. -/
example : ∃ t, Steps DelayConc.Step DelayConc.init [.delay 0, .tau 0, .tau 0, .reset 1, .wake 0] t :=
  ⟨_, .cons (.delay rfl) (.cons (.zero rfl rfl) (.cons (.first rfl) (.cons (.reset rfl) (.cons (.skip rfl (Int.le_refl 0)) (.nil _)))))⟩

end Zinx.Props
