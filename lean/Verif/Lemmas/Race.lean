import Verif.Model.Race

/-!
# Finding and excluding data races

`check` is a lockset analysis: it tells whether code accesses a field only while a lock is held, for writing if it writes. `race_free` shows it to be right: fields it accepts have no data race in any
execution. `accepts` tells whether code can do a sequence of actions, for the executions with races.
-/

namespace Zinx.Race

variable {F L : Type} [DecidableEq F] [DecidableEq L]
set_option linter.unusedSectionVars false

/-! ## The analysis -/

/-- What an action does to the way its goroutine holds `l` (`some true`: for writing); `none` if it accesses `f` without, locks twice or unlocks what it does not hold. -/
def follow1 (l : L) (f : F) (st : Option Bool) : Act F L → Option (Option Bool)
  | .rd g => if g = f ∧ st = none then none else some st
  | .wr g => if g = f ∧ st ≠ some true then none else some st
  | .acq k x => if k = l then (if st = none then some (some x) else none) else some st
  | .rel k x => if k = l then (if st = some x then some none else none) else some st
  | _ => some st

/-- An analysis of code that follows its actions; it may stop at an action it does not allow. -/
def checkBy {S : Type} [DecidableEq S] (step : S → Act F L → Option S) : Code F L → S → Option S
  | .fail, st => some st
  | .skip, st => some st
  | .rd g, st => step st (.rd g)
  | .wr g, st => step st (.wr g)
  | .acq k x, st => step st (.acq k x)
  | .rel k x, st => step st (.rel k x)
  | .go, st => step st (.fork 0)
  | .snd, st => step st (.snd 0)
  | .rcv, st => step st (.rcv 0)
  | .atom v, st => step st (.atom v)
  | .seq c d, st => (checkBy step c st).bind (checkBy step d)
  | .alt c d, st => if checkBy step c st = checkBy step d st then checkBy step c st else none
  | .star c, st => if checkBy step c st = some st then some st else none

def followBy {S : Type} (step : S → Act F L → Option S) : S → List (Act F L) → Option S
  | st, [] => some st
  | st, a :: w => (step st a).bind fun st' => followBy step st' w

/-- The analysis makes no difference between goroutines, and none between messages. -/
def Blind {S : Type} (step : S → Act F L → Option S) : Prop := ∀ st t, step st (.fork t) = step st (.fork 0) ∧ step st (.snd t) = step st (.snd 0) ∧ step st (.rcv t) = step st (.rcv 0)

theorem followBy_append {S : Type} (step : S → Act F L → Option S) (v w : List (Act F L)) : ∀ st, followBy step st (v ++ w) = (followBy step st v).bind fun st' => followBy step st' w := by
  induction v with
  | nil => intro st; rfl
  | cons a v ih =>
    intro st
    simp only [List.cons_append, followBy]
    cases step st a with
    | none => rfl
    | some st' => simp [ih]

theorem checkBy_sound {S : Type} [DecidableEq S] {step : S → Act F L → Option S} (hb : Blind step) {c : Code F L} {w : List (Act F L)} (h : Lang c w) :
    ∀ {st st' : S}, checkBy step c st = some st' → followBy step st w = some st' := by
  induction h with
  | skip => intro st st' h; simpa [checkBy, followBy] using h
  | go t => intro st st' h; simp only [checkBy, ← (hb st t).1] at h; simp [followBy, h]
  | snd t => intro st st' h; simp only [checkBy, ← (hb st t).2.1] at h; simp [followBy, h]
  | rcv t => intro st st' h; simp only [checkBy, ← (hb st t).2.2] at h; simp [followBy, h]
  | rd | wr | acq | rel | atom => intro st st' h; simp only [checkBy] at h; simp [followBy, h]
  | seq h1 h2 ih1 ih2 =>
    intro st st' h
    simp only [checkBy] at h
    obtain ⟨s1, e1, e2⟩ := Option.bind_eq_some_iff.1 h
    rw [followBy_append, ih1 e1]
    exact ih2 e2
  | altl h1 ih =>
    intro st st' h
    simp only [checkBy] at h
    split at h
    · exact ih h
    · cases h
  | altr h1 ih =>
    intro st st' h
    simp only [checkBy] at h
    split at h
    · rename_i e; exact ih (e ▸ h)
    · cases h
  | stop =>
    intro st st' h
    simp only [checkBy] at h
    split at h <;> simp_all [followBy]
  | more h1 h2 ih1 ih2 =>
    intro st st' h
    have h' := h
    simp only [checkBy] at h
    split at h
    · rename_i hc
      rw [followBy_append, ih1 hc]
      exact ih2 h'
    · cases h

/-- The lockset analysis of code. -/
def check (l : L) (f : F) : Code F L → Option Bool → Option (Option Bool) := checkBy (follow1 l f)

def follow (l : L) (f : F) : Option Bool → List (Act F L) → Option (Option Bool) := followBy (follow1 l f)

theorem follow_append (l : L) (f : F) (v w : List (Act F L)) (st : Option Bool) : follow l f st (v ++ w) = (follow l f st v).bind fun st' => follow l f st' w := followBy_append _ v w st

theorem check_sound (l : L) (f : F) {c : Code F L} {w : List (Act F L)} (h : Lang c w) {st st' : Option Bool} (hc : check l f c st = some st') : follow l f st w = some st' :=
  checkBy_sound (fun _ _ => ⟨rfl, rfl, rfl⟩) h hc

/-- `f` is only accessed with `l` held. -/
def Guarded (l : L) (f : F) (code : Nat → Code F L) : Prop := ∀ t, check l f (code t) none ≠ none

theorem guarded_uses {l : L} {f : F} {methods : List (Code F L)} (h : check l f (.any methods) none = some none) : Guarded l f (uses methods) := by
  intro t
  simp only [check] at h
  simp [uses, check, checkBy, h]

/-! ## The analysis is right -/

/-- How goroutine `t` holds `l` before event `n`. -/
def stateAt (l : L) (f : F) (tr : Trace F L) (t n : Nat) : Option (Option Bool) := follow l f none (proj t (tr.take n))

theorem proj_append (t : Nat) (tr tr' : Trace F L) : proj t (tr ++ tr') = proj t tr ++ proj t tr' := by simp [proj, List.filterMap_append]

theorem take_next {tr : Trace F L} {n : Nat} {e : Nat × Act F L} (h : tr[n]? = some e) : tr.take (n + 1) = tr.take n ++ [e] := by
  rw [List.take_add_one, h]; rfl

theorem stateAt_own {l : L} {f : F} {tr : Trace F L} {t n : Nat} {a : Act F L} (h : tr[n]? = some (t, a)) :
    stateAt l f tr t (n + 1) = (stateAt l f tr t n).bind fun st => follow1 l f st a := by
  unfold stateAt
  rw [take_next h, proj_append, follow_append]
  have : proj t [(t, a)] = [a] := by simp [proj]
  rw [this]
  congr 1
  funext st
  simp only [follow, followBy]
  cases follow1 l f st a <;> rfl

theorem stateAt_other {l : L} {f : F} {tr : Trace F L} {t u n : Nat} {a : Act F L} (h : tr[n]? = some (u, a)) (hu : u ≠ t) : stateAt l f tr t (n + 1) = stateAt l f tr t n := by
  unfold stateAt
  rw [take_next h, proj_append]
  have : proj t [(u, a)] = [] := by simp [proj, hu]
  rw [this, List.append_nil]

/-- In an execution of code the analysis accepts, every goroutine keeps to the discipline. -/
theorem stateAt_some {l : L} {f : F} {code : Nat → Code F L} {tr : Trace F L} (hg : Guarded l f code) (he : Execution code tr) (t n : Nat) : ∃ st, stateAt l f tr t n = some st := by
  obtain ⟨rest, hl⟩ := he.threads t
  obtain ⟨st, hst⟩ := Option.ne_none_iff_exists'.1 (hg t)
  have h1 := check_sound l f hl hst
  have e : proj t tr = proj t (tr.take n) ++ proj t (tr.drop n) := by rw [← proj_append, List.take_append_drop]
  rw [e, List.append_assoc, follow_append] at h1
  obtain ⟨st, h2, _⟩ := Option.bind_eq_some_iff.1 h1
  exact ⟨st, h2⟩

/-- The locks before event `n`. -/
theorem locks_take {tr : Trace F L} {h : Held L} : ∀ {h0 : Held L}, locks h0 tr = some h → ∀ n, ∃ h1, locks h0 (tr.take n) = some h1 := by
  induction tr with
  | nil => intro h0 _ n; exact ⟨h0, by simp [locks]⟩
  | cons e tr ih =>
    intro h0 hl n
    obtain ⟨t, a⟩ := e
    simp only [locks] at hl
    obtain ⟨h', e1, e2⟩ := Option.bind_eq_some_iff.1 hl
    cases n with
    | zero => exact ⟨h0, rfl⟩
    | succ n =>
      obtain ⟨h1, e3⟩ := ih e2 n
      exact ⟨h1, by simp only [List.take_succ_cons, locks, e1, Option.bind_some]; exact e3⟩

theorem locks_append {tr tr' : Trace F L} : ∀ {h0 : Held L}, locks h0 (tr ++ tr') = (locks h0 tr).bind fun h => locks h tr' := by
  induction tr with
  | nil => intro h0; rfl
  | cons e tr ih =>
    intro h0
    obtain ⟨t, a⟩ := e
    simp only [List.cons_append, locks]
    cases lockStep h0 t a with
    | none => rfl
    | some h' => simp [ih]

/-- What the locks and the analysis have in common. -/
structure Agree (l : L) (f : F) (tr : Trace F L) (h : Held L) : Prop where
  excl : ∀ t, follow l f none (proj t tr) = some (some true) → h.excl l = some t
  shared : ∀ t, follow l f none (proj t tr) = some (some false) → t ∈ h.shared l
  apart : ∀ t, h.excl l = some t → h.shared l = []

theorem agree_start (l : L) (f : F) : Agree l f [] {} := by
  constructor <;> intro t h <;> simp [proj, follow, followBy] at h

theorem agree_step {l : L} {f : F} {tr : Trace F L} {h h' : Held L} {u : Nat} {a : Act F L} (ha : Agree l f tr h) (hs : lockStep h u a = some h')
    (hu : ∃ st, follow l f none (proj u (tr ++ [(u, a)])) = some st) : Agree l f (tr ++ [(u, a)]) h' := by
  have own : follow l f none (proj u (tr ++ [(u, a)])) = (follow l f none (proj u tr)).bind fun st => follow1 l f st a := by
    rw [proj_append, follow_append]
    have : proj u [(u, a)] = [a] := by simp [proj]
    rw [this]
    congr 1
    funext st
    simp only [follow, followBy]
    cases follow1 l f st a <;> rfl
  have other : ∀ t, t ≠ u → follow l f none (proj t (tr ++ [(u, a)])) = follow l f none (proj t tr) := by
    intro t ht
    rw [proj_append]
    have : proj t [(u, a)] = [] := by simp [proj, Ne.symm ht]
    rw [this, List.append_nil]
  obtain ⟨st', e'⟩ := hu
  rw [own] at e'
  obtain ⟨st, e0, e1⟩ := Option.bind_eq_some_iff.1 e'
  have same : follow1 l f st a = some st → h'.excl l = h.excl l → h'.shared l = h.shared l → Agree l f (tr ++ [(u, a)]) h' := by
    intro k1 k2 k3
    have : ∀ t, follow l f none (proj t (tr ++ [(u, a)])) = follow l f none (proj t tr) := by
      intro t
      by_cases ht : t = u
      · subst ht; rw [own, e0]; exact k1
      · exact other t ht
    exact ⟨fun t ht => k2 ▸ ha.excl t (this t ▸ ht), fun t ht => k3 ▸ ha.shared t (this t ▸ ht), fun t ht => k3 ▸ ha.apart t (k2 ▸ ht)⟩
  have easy : st' = st → h' = h → Agree l f (tr ++ [(u, a)]) h' := fun k1 k2 => same (k1 ▸ e1) (k2 ▸ rfl) (k2 ▸ rfl)
  cases a with
  | rd g | wr g =>
    simp only [follow1] at e1
    split at e1
    · cases e1
    · exact easy (by simpa using e1.symm) (by simpa [lockStep] using hs.symm)
  | fork | snd | rcv | atom => exact easy (by simpa [follow1] using e1.symm) (by simpa [lockStep] using hs.symm)
  | acq k x =>
    by_cases hk : k = l
    · subst hk
      simp only [follow1, if_true] at e1
      split at e1
      · rename_i hst
        subst hst
        cases x with
        | true =>
          simp only [lockStep] at hs
          split at hs
          · rename_i hfree
            cases hs
            refine ⟨?_, ?_, fun _ _ => hfree.2⟩
            · intro t ht
              by_cases htu : t = u
              · simp [htu]
              · have := ha.excl t (other t htu ▸ ht); simp [hfree.1] at this
            · intro t ht
              by_cases htu : t = u
              · subst htu; rw [own, e0] at ht; simp [follow1] at ht
              · have := ha.shared t (other t htu ▸ ht); simp [hfree.2] at this
          · cases hs
        | false =>
          simp only [lockStep] at hs
          split at hs
          · rename_i hfree
            cases hs
            refine ⟨?_, ?_, fun t ht => by simp [hfree] at ht⟩
            · intro t ht
              by_cases htu : t = u
              · subst htu; rw [own, e0] at ht; simp [follow1] at ht
              · have := ha.excl t (other t htu ▸ ht); simp [hfree] at this
            · intro t ht
              by_cases htu : t = u
              · simp [htu]
              · have := ha.shared t (other t htu ▸ ht); simp [this]
          · cases hs
      · cases e1
    · refine same (by simp [follow1, hk]) ?_ ?_ <;> cases x <;> simp only [lockStep] at hs <;> split at hs <;> cases hs <;> simp [Ne.symm hk]
  | rel k x =>
    by_cases hk : k = l
    · subst hk
      simp only [follow1, if_true] at e1
      split at e1
      · rename_i hst
        subst hst
        have st1 : follow k f none (proj u (tr ++ [(u, .rel k x)])) = some none := by rw [own, e0]; simp [follow1]
        cases x with
        | true =>
          have hx := ha.excl u e0
          simp only [lockStep] at hs
          rw [if_pos hx] at hs
          · cases hs
            refine ⟨?_, ?_, fun t ht => by simp at ht⟩
            · intro t ht
              by_cases htu : t = u
              · subst htu; rw [st1] at ht; simp at ht
              · have := ha.excl t (other t htu ▸ ht); rw [hx] at this; exact absurd (Option.some.inj this).symm htu
            · intro t ht
              by_cases htu : t = u
              · subst htu; rw [st1] at ht; simp at ht
              · exact ha.shared t (other t htu ▸ ht)
        | false =>
          have hx := ha.shared u e0
          simp only [lockStep] at hs
          rw [if_pos hx] at hs
          · cases hs
            refine ⟨?_, ?_, fun t ht => ?_⟩
            · intro t ht
              by_cases htu : t = u
              · subst htu; rw [st1] at ht; simp at ht
              · exact ha.excl t (other t htu ▸ ht)
            · intro t ht
              by_cases htu : t = u
              · subst htu; rw [st1] at ht; simp at ht
              · have := ha.shared t (other t htu ▸ ht)
                simp only [if_true]
                exact (List.mem_erase_of_ne htu).2 this
            · have := ha.apart t ht
              simp [this]
      · cases e1
    · refine same (by simp [follow1, hk]) ?_ ?_ <;> cases x <;> simp only [lockStep] at hs <;> split at hs <;> cases hs <;> simp [Ne.symm hk]

theorem agree_at {l : L} {f : F} {code : Nat → Code F L} {tr : Trace F L} (hg : Guarded l f code) (he : Execution code tr) : ∀ n, ∃ h, Agree l f (tr.take n) h ∧ locks {} (tr.take n) = some h := by
  intro n
  induction n with
  | zero => exact ⟨{}, agree_start l f, rfl⟩
  | succ n ih =>
    obtain ⟨h, ha, hl⟩ := ih
    cases e : tr[n]? with
    | none =>
      have : tr.take (n + 1) = tr.take n := by rw [List.take_add_one, e]; simp
      rw [this]; exact ⟨h, ha, hl⟩
    | some ev =>
      obtain ⟨u, a⟩ := ev
      obtain ⟨hend, hend'⟩ := he.locks
      obtain ⟨h', hl'⟩ := locks_take hend' (n + 1)
      have hl2 := hl'
      rw [take_next e, locks_append, hl] at hl2
      simp only [Option.bind_some, locks] at hl2
      obtain ⟨h'', e1, e2⟩ := Option.bind_eq_some_iff.1 hl2
      cases e2
      refine ⟨h', ?_, hl'⟩
      rw [take_next e]
      exact agree_step ha e1 (take_next e ▸ stateAt_some hg he u (n + 1))

/-- A lock held for writing is held by nobody else. -/
theorem exclusive {l : L} {f : F} {code : Nat → Code F L} {tr : Trace F L} (hg : Guarded l f code) (he : Execution code tr) {t u n : Nat} {x y : Bool}
    (ht : stateAt l f tr t n = some (some x)) (hu : stateAt l f tr u n = some (some y)) (hxy : (x || y) = true) : t = u := by
  obtain ⟨h, ha, _⟩ := agree_at hg he n
  cases x with
  | true =>
    have h1 := ha.excl t ht
    cases y with
    | true => have h2 := ha.excl u hu; rw [h1] at h2; exact Option.some.inj h2
    | false => have h2 := ha.shared u hu; rw [ha.apart t h1] at h2; cases h2
  | false =>
    cases y with
    | true =>
      have h1 := ha.excl u hu
      have h2 := ha.shared t ht
      rw [ha.apart u h1] at h2; cases h2
    | false => cases hxy

theorem changes {P : Nat → Prop} {i : Nat} (hi : P i) : ∀ {j : Nat}, i ≤ j → ¬ P j → ∃ k, i ≤ k ∧ k < j ∧ P k ∧ ¬ P (k + 1) := by
  intro j
  induction j with
  | zero => intro hij hj; rw [Nat.le_zero.1 hij] at hi; exact absurd hi hj
  | succ j ih =>
    intro hij hj
    rcases Nat.lt_or_ge j i with h | h
    · have : i = j + 1 := by omega
      exact absurd (this ▸ hi) hj
    · by_cases hp : P j
      · exact ⟨j, h, Nat.lt_succ_self j, hp, hj⟩
      · obtain ⟨k, h1, h2, h3⟩ := ih h hp
        exact ⟨k, h1, by omega, h3⟩

/-- An event that changes how `t` holds the lock is one of `t`. -/
theorem changed {l : L} {f : F} {tr : Trace F L} {t k : Nat} {st st' : Option Bool}
    (h0 : stateAt l f tr t k = some st) (h1 : stateAt l f tr t (k + 1) = some st') (hne : st ≠ st') :
    (∃ x, st = some x ∧ st' = none ∧ tr[k]? = some (t, .rel l x)) ∨ (∃ x, st = none ∧ st' = some x ∧ tr[k]? = some (t, .acq l x)) := by
  cases e : tr[k]? with
  | none =>
    have : tr.take (k + 1) = tr.take k := by rw [List.take_add_one, e]; simp
    unfold stateAt at h0 h1
    rw [this, h0] at h1
    exact absurd (Option.some.inj h1) hne
  | some ev =>
    obtain ⟨u, a⟩ := ev
    by_cases htu : u = t
    · subst htu
      rw [stateAt_own e, h0] at h1
      simp only [Option.bind_some] at h1
      cases a with
      | rd g | wr g =>
        simp only [follow1] at h1
        split at h1
        · cases h1
        · exact absurd (Option.some.inj h1) hne
      | fork | snd | rcv | atom => exact absurd (Option.some.inj h1) hne
      | acq m x =>
        simp only [follow1] at h1
        split at h1
        · rename_i hm
          subst hm
          split at h1
          · rename_i hst
            exact .inr ⟨x, hst, (Option.some.inj h1).symm, rfl⟩
          · cases h1
        · exact absurd (Option.some.inj h1) hne
      | rel m x =>
        simp only [follow1] at h1
        split at h1
        · rename_i hm
          subst hm
          split at h1
          · rename_i hst
            exact .inl ⟨x, hst, (Option.some.inj h1).symm, rfl⟩
          · cases h1
        · exact absurd (Option.some.inj h1) hne
    · rw [stateAt_other e htu, h0] at h1
      exact absurd (Option.some.inj h1) hne

/-- Whoever accesses the field holds the lock. -/
theorem holds_at {l : L} {f : F} {code : Nat → Code F L} {tr : Trace F L} (hg : Guarded l f code) (he : Execution code tr) {t i : Nat} {a : Act F L} (hi : tr[i]? = some (t, a)) :
    (a.writes f → stateAt l f tr t i = some (some true)) ∧ (a.reads f → ∃ x, stateAt l f tr t i = some (some x)) := by
  obtain ⟨st, h0⟩ := stateAt_some hg he t i
  obtain ⟨st', h1⟩ := stateAt_some hg he t (i + 1)
  rw [stateAt_own hi, h0] at h1
  simp only [Option.bind_some] at h1
  constructor
  · intro hw
    cases a <;> simp only [Act.writes] at hw
    subst hw
    simp only [follow1] at h1
    split at h1
    · cases h1
    · rename_i hn
      rw [h0]
      congr 1
      exact Classical.byContradiction fun h => hn ⟨trivial, h⟩
  · intro hr
    cases a <;> simp only [Act.reads] at hr
    subst hr
    simp only [follow1] at h1
    split at h1
    · cases h1
    · rename_i hn
      cases st with
      | none => exact absurd ⟨trivial, rfl⟩ hn
      | some x => exact ⟨x, h0⟩

/-- A field that is only accessed with a lock held, for writing if it is written, has no data race. -/
theorem race_free {l : L} {f : F} {code : Nat → Code F L} {tr : Trace F L} (hg : Guarded l f code) (he : Execution code tr) : RaceFree tr f := by
  rintro i j ⟨hij, t, a, u, b, hi, hj, htu, hc⟩
  obtain ⟨x, y, hx, hy, hxy⟩ : ∃ x y, stateAt l f tr t i = some (some x) ∧ stateAt l f tr u j = some (some y) ∧ (x || y) = true := by
    have h1 := holds_at hg he hi
    have h2 := holds_at hg he hj
    rcases hc with ⟨hw, hr | hw'⟩ | ⟨hr, hw⟩
    · obtain ⟨y, hy⟩ := h2.2 hr; exact ⟨true, y, h1.1 hw, hy, rfl⟩
    · exact ⟨true, true, h1.1 hw, h2.1 hw', rfl⟩
    · obtain ⟨x, hx⟩ := h1.2 hr; exact ⟨x, true, hx, h2.1 hw, by simp⟩
  have hna : ∀ z, a ≠ .rel l z := by
    intro z hz; subst hz; simp [Act.writes, Act.reads] at hc
  -- t releases the lock at k1
  obtain ⟨k1, g1, g2, g3, g4⟩ := changes (P := fun n => stateAt l f tr t n = some (some x)) hx (Nat.le_of_lt hij) fun h => htu (exclusive hg he h hy hxy)
  obtain ⟨st1, e1⟩ := stateAt_some hg he t (k1 + 1)
  have ev1 : tr[k1]? = some (t, .rel l x) := by
    rcases changed g3 e1 (fun h => g4 (h ▸ e1)) with ⟨z, z1, _, z3⟩ | ⟨z, z1, _⟩
    · cases z1; exact z3
    · cases z1
  -- u acquires it at k2
  have n1 : stateAt l f tr u (k1 + 1) ≠ some (some y) := by
    rw [stateAt_other ev1 htu]
    exact fun h => htu (exclusive hg he g3 h hxy)
  obtain ⟨k2, q1, q2, q3, q4⟩ := changes (P := fun n => stateAt l f tr u n ≠ some (some y)) n1 (Nat.succ_le_of_lt g2) fun h => h hy
  obtain ⟨st2, e2⟩ := stateAt_some hg he u k2
  have e3 : stateAt l f tr u (k2 + 1) = some (some y) := Classical.byContradiction q4
  have ev2 : tr[k2]? = some (u, .acq l y) := by
    rcases changed e2 e3 (fun h => q3 (h ▸ e2)) with ⟨z, _, z2, _⟩ | ⟨z, _, z2, z3⟩
    · cases z2
    · cases z2; exact z3
  have hik : i < k1 := by
    rcases Nat.lt_or_eq_of_le g1 with h | h
    · exact h
    · subst h; rw [hi] at ev1; exact absurd (congrArg Prod.snd (Option.some.inj ev1)) (hna x)
  exact .trans (.one ⟨hik, t, a, t, _, hi, ev1, .inl rfl⟩)
    (.trans (.one ⟨q1, t, _, u, _, ev1, ev2, .inr (.inl ⟨l, x, y, rfl, rfl, hxy⟩)⟩) (.one ⟨q2, u, _, u, b, ev2, hj, .inl rfl⟩))

/-! ## Fields that are set before the object is published -/

def stateBy {S : Type} (step : S → Act F L → Option S) (s0 : S) (tr : Trace F L) (t n : Nat) : Option S := followBy step s0 (proj t (tr.take n))

theorem stateBy_own {S : Type} {step : S → Act F L → Option S} {s0 : S} {tr : Trace F L} {t n : Nat} {a : Act F L} (h : tr[n]? = some (t, a)) :
    stateBy step s0 tr t (n + 1) = (stateBy step s0 tr t n).bind fun st => step st a := by
  unfold stateBy
  rw [take_next h, proj_append, followBy_append]
  have : proj t [(t, a)] = [a] := by simp [proj]
  rw [this]
  congr 1
  funext st
  simp only [followBy]
  cases step st a <;> rfl

theorem stateBy_other {S : Type} {step : S → Act F L → Option S} {s0 : S} {tr : Trace F L} {t n : Nat} (h : ∀ a, tr[n]? ≠ some (t, a)) : stateBy step s0 tr t (n + 1) = stateBy step s0 tr t n := by
  unfold stateBy
  cases e : tr[n]? with
  | none => rw [List.take_add_one, e]; simp
  | some ev =>
    obtain ⟨u, a⟩ := ev
    have hu : u ≠ t := fun hu => h a (by rw [e, hu])
    rw [take_next e, proj_append]
    have : proj t [(u, a)] = [] := by simp [proj, hu]
    rw [this, List.append_nil]

theorem checkBy_follow {S : Type} [DecidableEq S] {step : S → Act F L → Option S} (hb : Blind step) {s0 : S} {c : Code F L} (hg : checkBy step c s0 ≠ none) (w : List (Act F L)) (hw : Lang c w) : followBy step s0 w ≠ none := by
  obtain ⟨st, hst⟩ := Option.ne_none_iff_exists'.1 hg
  simp [checkBy_sound hb hw hst]

theorem stateBy_some {S : Type} {step : S → Act F L → Option S} {s0 : S} {code : Nat → Code F L} {tr : Trace F L} {t : Nat} (hg : ∀ w, Lang (code t) w → followBy step s0 w ≠ none)
    (he : Execution code tr) (n : Nat) : ∃ st, stateBy step s0 tr t n = some st := by
  obtain ⟨rest, hl⟩ := he.threads t
  obtain ⟨st, h1⟩ := Option.ne_none_iff_exists'.1 (hg _ hl)
  have e : proj t tr = proj t (tr.take n) ++ proj t (tr.drop n) := by rw [← proj_append, List.take_append_drop]
  rw [e, List.append_assoc, followBy_append] at h1
  obtain ⟨st, h2, _⟩ := Option.bind_eq_some_iff.1 h1
  exact ⟨st, h2⟩

/-- A goroutine may pass on the object. -/
def Act.leaks (table : F) : Act F L → Prop
  | .wr g => g = table
  | .fork _ => True
  | .snd _ => True
  | _ => False

/-- `f` is not written after the object may have been passed on. -/
def initStep (table f : F) (leaked : Bool) : Act F L → Option Bool
  | .wr g => if g = f ∧ leaked = true then none else if g = table then some true else some leaked
  | .fork _ => some true
  | .snd _ => some true
  | _ => some leaked

/-- `f` is not written. -/
def noWrite (f : F) (_ : Unit) : Act F L → Option Unit
  | .wr g => if g = f then none else some ()
  | _ => some ()

/-- Only `c` writes `f`, and not after it may have passed on the object. -/
def InitOnly (table f : F) (c : Nat) (code : Nat → Code F L) : Prop :=
  (∀ w, Lang (code c) w → followBy (initStep table f) false w ≠ none) ∧ ∀ t, t ≠ c → checkBy (noWrite f) (code t) () ≠ none

/-- Nothing is passed on. -/
def noLeak (table : F) (_ : Unit) : Act F L → Option Unit
  | .wr g => if g = table then none else some ()
  | .fork _ => none
  | .snd _ => none
  | _ => some ()

theorem noLeak_init {table f : F} : ∀ {w : List (Act F L)}, followBy (noLeak table) () w = some () → followBy (initStep table f) false w = some false
  | [], _ => rfl
  | a :: w, h => by
    simp only [followBy] at h ⊢
    obtain ⟨_, h1, h2⟩ := Option.bind_eq_some_iff.1 h
    have ih := noLeak_init (f := f) h2
    cases a <;> simp only [noLeak, initStep] at h1 ⊢ <;> try cases h1
    case wr g =>
      split at h1
      · cases h1
      · rename_i hg; simp [hg, ih]
    all_goals exact ih

theorem noWrite_init {table f : F} : ∀ {w : List (Act F L)} {b : Bool}, followBy (noWrite f) () w = some () → followBy (initStep table f) b w ≠ none
  | [], _, _ => by simp [followBy]
  | a :: w, b, h => by
    simp only [followBy] at h ⊢
    obtain ⟨_, h1, h2⟩ := Option.bind_eq_some_iff.1 h
    have ih := fun b => noWrite_init (table := table) (b := b) h2
    cases a <;> simp only [noWrite, initStep] at h1 ⊢ <;> try exact ih _
    case wr g =>
      split at h1
      · cases h1
      · rename_i hg
        simp only [hg, false_and, if_false]
        split <;> exact ih _

/-- What a constructor is like: first it passes on nothing, then it writes `f` no more. -/
theorem init_only {table f : F} {c : Nat} {code : Nat → Code F L} {pre post : Code F L} (hc : code c = .seq pre post) (h1 : checkBy (noLeak table) pre () = some ()) (h2 : checkBy (noWrite f) post () = some ())
    (h3 : ∀ t, t ≠ c → checkBy (noWrite f) (code t) () ≠ none) : InitOnly table f c code := by
  refine ⟨fun w hw => ?_, h3⟩
  rw [hc] at hw
  cases hw with
  | seq ha hb =>
    rw [followBy_append, noLeak_init (checkBy_sound (fun _ _ => ⟨rfl, rfl, rfl⟩) ha h1)]
    exact noWrite_init (checkBy_sound (fun _ _ => ⟨rfl, rfl, rfl⟩) hb h2)

theorem init_leaked {table f : F} {c : Nat} {code : Nat → Code F L} {tr : Trace F L} (hi : InitOnly table f c code) (he : Execution code tr) {p : Nat} {a : Act F L} (hp : tr[p]? = some (c, a))
    (hl : a.leaks table) : ∀ n, p < n → stateBy (initStep table f) false tr c n = some true := by
  have some_at := fun n => stateBy_some (step := initStep table f) hi.1 he n
  intro n hn
  induction n with
  | zero => omega
  | succ n ih =>
    obtain ⟨st', e'⟩ := some_at (n + 1)
    rcases Nat.lt_or_eq_of_le (Nat.le_of_lt_succ hn) with h | h
    · by_cases hev : ∃ b, tr[n]? = some (c, b)
      · obtain ⟨b, hb⟩ := hev
        rw [stateBy_own hb, ih h] at e' ⊢
        simp only [Option.bind_some] at e' ⊢
        rw [e']
        cases b <;> simp only [initStep] at e'
        case wr g =>
          split at e'
          · cases e'
          · split at e' <;> exact e'.symm
        all_goals exact e'.symm
      · rw [stateBy_other (fun b hb => hev ⟨b, hb⟩)]; exact ih h
    · subst h
      obtain ⟨st, e⟩ := some_at p
      rw [stateBy_own hp, e] at e' ⊢
      simp only [Option.bind_some] at e' ⊢
      cases a <;> simp only [Act.leaks] at hl <;> simp only [initStep] at e' ⊢
      subst hl
      rw [e']
      split at e'
      · cases e'
      · simpa using e'.symm

/-- Every write of `f` comes before every event that passes on the object. -/
theorem init_before {table f : F} {c : Nat} {code : Nat → Code F L} {tr : Trace F L} (hi : InitOnly table f c code) (he : Execution code tr) {p i : Nat} {a b : Act F L} (hp : tr[p]? = some (c, a))
    (hl : a.leaks table) (hft : f ≠ table) (hw : tr[i]? = some (c, b)) (hb : b.writes f) : i < p := by
  rcases Nat.lt_trichotomy i p with h | h | h
  · exact h
  · subst h
    rw [hp] at hw
    cases hw
    cases a <;> simp only [Act.leaks, Act.writes] at hl hb
    exact absurd (hb.symm.trans hl) hft
  · have h1 := init_leaked hi he hp hl i h
    have h2 := init_leaked hi he hp hl (i + 1) (by omega)
    rw [stateBy_own hw, h1] at h2
    cases b <;> simp only [Act.writes] at hb
    subst hb
    simp [initStep] at h2

theorem init_writer {table f : F} {c : Nat} {code : Nat → Code F L} {tr : Trace F L} (hi : InitOnly table f c code) (he : Execution code tr) {i t : Nat} {b : Act F L} (hw : tr[i]? = some (t, b)) (hb : b.writes f) : t = c := by
  by_cases htc : t = c
  · exact htc
  · obtain ⟨_, e⟩ := stateBy_some (step := noWrite (L := L) f) (checkBy_follow (fun _ _ => ⟨rfl, rfl, rfl⟩) (hi.2 t htc)) he (i + 1)
    obtain ⟨_, e0⟩ := stateBy_some (step := noWrite (L := L) f) (checkBy_follow (fun _ _ => ⟨rfl, rfl, rfl⟩) (hi.2 t htc)) he i
    rw [stateBy_own hw, e0] at e
    cases b <;> simp only [Act.writes] at hb
    subst hb
    simp [noWrite] at e

/-- The event at `q` comes after one in which `c` passes on the object. -/
def After (table : F) (c : Nat) (tr : Trace F L) (q : Nat) : Prop := ∃ p a, tr[p]? = some (c, a) ∧ a.leaks table ∧ p ≤ q ∧ (p = q ∨ HB false tr p q)

/-- What is known to goroutines was passed on to them. -/
structure KnowInv (table : F) (c : Nat) (tr : Trace F L) (n : Nat) (k : Known) : Prop where
  who : ∀ u, u ∈ k.who → u ≠ c → (∃ p a, p < n ∧ tr[p]? = some (c, a) ∧ a.leaks table ∧ ∀ j b, n ≤ j → tr[j]? = some (u, b) → HB false tr p j)
  published : k.published = true → ∃ q v, q < n ∧ tr[q]? = some (v, Act.wr table) ∧ After table c tr q
  carried : ∀ m, m ∈ k.carried → ∃ q v, q < n ∧ tr[q]? = some (v, Act.snd m) ∧ After table c tr q

theorem after_of_knows {table : F} {c : Nat} {tr : Trace F L} {n : Nat} {k : Known} (hk : KnowInv table c tr n k) {t : Nat} {a : Act F L} (he : tr[n]? = some (t, a)) (ht : t ∈ k.who) (hl : a.leaks table) : After table c tr n := by
  by_cases htc : t = c
  · subst htc; exact ⟨n, a, he, hl, Nat.le_refl n, .inl rfl⟩
  · obtain ⟨p, b, h1, h2, h3, h4⟩ := hk.who t ht htc
    exact ⟨p, b, h2, h3, Nat.le_of_lt h1, .inr (h4 n a (Nat.le_refl n) he)⟩

/-- What a goroutine does after an event that comes after one in which `c` passes on the object. -/
theorem later {table : F} {c : Nat} {tr : Trace F L} {n u q : Nat} {a : Act F L} (hq : After table c tr q) (hqn : HB false tr q n ∧ q < n) (hn : tr[n]? = some (u, a)) :
    ∃ p b, p < n + 1 ∧ tr[p]? = some (c, b) ∧ b.leaks table ∧ ∀ j d, n + 1 ≤ j → tr[j]? = some (u, d) → HB false tr p j := by
  obtain ⟨p, b, h1, h2, h3, h4⟩ := hq
  refine ⟨p, b, by omega, h1, h2, fun j d hj hjd => ?_⟩
  have hpn : HB false tr p n := by
    rcases h4 with rfl | h4
    · exact hqn.1
    · exact .trans h4 hqn.1
  exact .trans hpn (.one ⟨by omega, u, a, u, d, hn, hjd, .inl rfl⟩)

theorem knowInv_step {table f : F} {l : L} {c : Nat} {code : Nat → Code F L} {tr : Trace F L} (hg : Guarded l table code) (he : Execution code tr) {n : Nat} {k k' : Known} {e : Nat × Act F L}
    (hk : KnowInv table c tr n k) (hn : tr[n]? = some e) (hs : knowStep table f k e = some k') : KnowInv table c tr (n + 1) k' := by
  have old : KnowInv table c tr (n + 1) k := by
    refine ⟨fun u hu huc => ?_, fun h => ?_, fun m hm => ?_⟩
    · obtain ⟨p, a, h1, h2, h3, h4⟩ := hk.who u hu huc
      exact ⟨p, a, by omega, h2, h3, fun j b hj => h4 j b (by omega)⟩
    · obtain ⟨q, v, h1, h2⟩ := hk.published h
      exact ⟨q, v, by omega, h2⟩
    · obtain ⟨q, v, h1, h2⟩ := hk.carried m hm
      exact ⟨q, v, by omega, h2⟩
  obtain ⟨t, a⟩ := e
  cases a with
  | acq | rel | atom => cases hs; exact old
  | rd g =>
    simp only [knowStep] at hs
    split at hs
    · cases hs
    · split at hs
      · rename_i h
        cases hs
        obtain ⟨rfl, hp⟩ := h
        refine ⟨fun u hu huc => ?_, old.published, old.carried⟩
        rcases List.mem_cons.1 hu with rfl | hu
        · obtain ⟨q, v, h1, h2, h3⟩ := hk.published hp
          refine later h3 ⟨?_, h1⟩ hn
          by_cases hvu : v = u
          · exact .one ⟨h1, v, _, u, _, h2, hn, .inl hvu⟩
          · exact race_free hg he q n ⟨h1, v, _, u, _, h2, hn, hvu, .inl ⟨rfl, .inl rfl⟩⟩
        · exact old.who u hu huc
      · cases hs; exact old
  | wr g =>
    simp only [knowStep] at hs
    split at hs
    · cases hs
    · split at hs
      · rename_i h
        cases hs
        obtain ⟨rfl, ht⟩ := h
        exact ⟨old.who, fun _ => ⟨n, t, Nat.lt_succ_self n, hn, after_of_knows hk hn ht rfl⟩, old.carried⟩
      · cases hs; exact old
  | fork v =>
    simp only [knowStep] at hs
    split at hs
    · rename_i ht
      cases hs
      refine ⟨fun u hu huc => ?_, old.published, old.carried⟩
      rcases List.mem_cons.1 hu with rfl | hu
      · obtain ⟨p, b, h1, h2, h3, h4⟩ := after_of_knows hk hn ht trivial
        refine ⟨p, b, by omega, h1, h2, fun j d hj hjd => ?_⟩
        have hnj : HB false tr n j := .one ⟨by omega, t, _, u, d, hn, hjd, .inr (.inr (.inl rfl))⟩
        rcases h4 with rfl | h4
        · exact hnj
        · exact .trans h4 hnj
      · exact old.who u hu huc
    · cases hs; exact old
  | snd m =>
    simp only [knowStep] at hs
    split at hs
    · rename_i ht
      cases hs
      refine ⟨old.who, old.published, fun m' hm => ?_⟩
      rcases List.mem_cons.1 hm with rfl | hm
      · exact ⟨n, t, Nat.lt_succ_self n, hn, after_of_knows hk hn ht trivial⟩
      · exact old.carried m' hm
    · cases hs; exact old
  | rcv m =>
    simp only [knowStep] at hs
    split at hs
    · rename_i hm
      cases hs
      refine ⟨fun u hu huc => ?_, old.published, old.carried⟩
      rcases List.mem_cons.1 hu with rfl | hu
      · obtain ⟨q, v, h1, h2, h3⟩ := hk.carried m hm
        exact later h3 ⟨.one ⟨h1, v, _, u, _, h2, hn, .inr (.inr (.inr (.inl ⟨m, rfl, rfl⟩)))⟩, h1⟩ hn
      · exact old.who u hu huc
    · cases hs; exact old

theorem knows_append {table f : F} {tr tr' : Trace F L} : ∀ {k : Known}, knows table f k (tr ++ tr') = (knows table f k tr).bind fun k' => knows table f k' tr' := by
  induction tr with
  | nil => intro k; rfl
  | cons e tr ih =>
    intro k
    simp only [List.cons_append, knows]
    cases knowStep table f k e with
    | none => rfl
    | some k' => simp [ih]

theorem knowInv_at {table f : F} {l : L} {c : Nat} {code : Nat → Code F L} {tr : Trace F L} (hg : Guarded l table code) (he : Execution code tr) (ho : Owned table f c tr) :
    ∀ n, ∃ k, knows table f { who := [c] } (tr.take n) = some k ∧ KnowInv table c tr n k := by
  intro n
  induction n with
  | zero =>
    refine ⟨_, rfl, ⟨fun u hu huc => ?_, fun h => by simp at h, fun m hm => by simp at hm⟩⟩
    exact absurd (by simpa using hu) huc
  | succ n ih =>
    obtain ⟨k, h1, h2⟩ := ih
    cases e : tr[n]? with
    | none =>
      have : tr.take (n + 1) = tr.take n := by rw [List.take_add_one, e]; simp
      rw [this]
      refine ⟨k, h1, ⟨fun u hu huc => ?_, fun h => ?_, fun m hm => ?_⟩⟩
      · obtain ⟨p, a, h1, h2, h3, h4⟩ := h2.who u hu huc
        exact ⟨p, a, by omega, h2, h3, fun j b hj => h4 j b (by omega)⟩
      · obtain ⟨q, v, h1, h2⟩ := h2.published h
        exact ⟨q, v, by omega, h2⟩
      · obtain ⟨q, v, h1, h2⟩ := h2.carried m hm
        exact ⟨q, v, by omega, h2⟩
    | some ev =>
      obtain ⟨kend, hk⟩ := ho
      have hk' := hk
      rw [← List.take_append_drop (n + 1) tr, knows_append] at hk'
      obtain ⟨k', e1, _⟩ := Option.bind_eq_some_iff.1 hk'
      refine ⟨k', e1, ?_⟩
      rw [take_next e, knows_append, h1] at e1
      simp only [Option.bind_some, knows] at e1
      obtain ⟨k'', e2, e3⟩ := Option.bind_eq_some_iff.1 e1
      cases e3
      exact knowInv_step hg he h2 e e2

/-- Whoever accesses `f` has a pointer to the object. -/
theorem knows_access {table f : F} {c : Nat} {tr : Trace F L} (ho : Owned table f c tr) {j u : Nat} {b : Act F L} (hj : tr[j]? = some (u, b)) (hb : b.reads f ∨ b.writes f) {k : Known}
    (hk : knows table f { who := [c] } (tr.take j) = some k) : u ∈ k.who := by
  obtain ⟨kend, h⟩ := ho
  rw [← List.take_append_drop (j + 1) tr, knows_append, take_next hj, knows_append, hk] at h
  simp only [Option.bind_some, knows] at h
  obtain ⟨k', h1, _⟩ := Option.bind_eq_some_iff.1 h
  obtain ⟨k'', h2, _⟩ := Option.bind_eq_some_iff.1 h1
  refine Classical.byContradiction fun hn => ?_
  cases b <;> simp only [Act.reads, Act.writes, or_false, false_or] at hb <;> subst hb <;> simp [knowStep, hn] at h2

/-- A field that is written only before the object is passed on has no data race, if the table is guarded by a lock. -/
theorem published_race_free {table f : F} {l : L} {c : Nat} {code : Nat → Code F L} {tr : Trace F L} (hg : Guarded l table code) (hft : f ≠ table) (hi : InitOnly table f c code) (he : Execution code tr)
    (ho : Owned table f c tr) : RaceFree tr f := by
  rintro i j ⟨hij, t, a, u, b, hti, huj, htu, hc⟩
  by_cases hw : a.writes f
  · have htc := init_writer hi he hti hw
    subst htc
    obtain ⟨k, h1, h2⟩ := knowInv_at hg he ho j
    have hb : b.reads f ∨ b.writes f := by
      rcases hc with ⟨_, h⟩ | ⟨_, h⟩
      · exact h
      · exact .inr h
    have hu := knows_access ho huj hb h1
    obtain ⟨p, d, q1, q2, q3, q4⟩ := h2.who u hu (Ne.symm htu)
    exact .trans (.one ⟨init_before hi he q2 q3 hft hti hw, t, a, t, d, hti, q2, .inl rfl⟩) (q4 j b (Nat.le_refl j) huj)
  · rcases hc with ⟨h, _⟩ | ⟨hr, hb⟩
    · exact absurd h hw
    · have huc := init_writer hi he huj hb
      subst huc
      obtain ⟨k, h1, h2⟩ := knowInv_at hg he ho i
      have hu := knows_access ho hti (.inl hr) h1
      obtain ⟨p, d, q1, q2, q3, q4⟩ := h2.who t hu htu
      have := init_before hi he q2 q3 hft huj hb
      omega

/-- A field nobody writes has no data race. -/
theorem unwritten_race_free {f : F} {code : Nat → Code F L} {tr : Trace F L} (h : ∀ t, checkBy (noWrite f) (code t) () ≠ none) (he : Execution code tr) : RaceFree tr f := by
  have no : ∀ (i t : Nat) (b : Act F L), tr[i]? = some (t, b) → ¬ b.writes f := by
    intro i t b hi hb
    obtain ⟨_, e⟩ := stateBy_some (step := noWrite (L := L) f) (checkBy_follow (fun _ _ => ⟨rfl, rfl, rfl⟩) (h t)) he (i + 1)
    obtain ⟨_, e0⟩ := stateBy_some (step := noWrite (L := L) f) (checkBy_follow (fun _ _ => ⟨rfl, rfl, rfl⟩) (h t)) he i
    rw [stateBy_own hi, e0] at e
    cases b <;> simp only [Act.writes] at hb
    subst hb
    simp [noWrite] at e
  rintro i j ⟨_, t, a, u, b, hi, hj, _, ⟨h, _⟩ | ⟨_, h⟩⟩
  · exact absurd h (no i t a hi)
  · exact absurd h (no j u b hj)

/-! ## Executions that exist -/

def nullable : Code F L → Bool
  | .skip => true
  | .seq c d => nullable c && nullable d
  | .alt c d => nullable c || nullable d
  | .star _ => true
  | _ => false

/-- Whether code can come to its end. -/
def productive : Code F L → Bool
  | .fail => false
  | .seq c d => productive c && productive d
  | .alt c d => productive c || productive d
  | _ => true

/-- What remains of code after an action. -/
def deriv (a : Act F L) : Code F L → Code F L
  | .fail => .fail
  | .skip => .fail
  | .rd f => if a = .rd f then .skip else .fail
  | .wr f => if a = .wr f then .skip else .fail
  | .acq l x => if a = .acq l x then .skip else .fail
  | .rel l x => if a = .rel l x then .skip else .fail
  | .go => match a with | .fork _ => .skip | _ => .fail
  | .snd => match a with | .snd _ => .skip | _ => .fail
  | .rcv => match a with | .rcv _ => .skip | _ => .fail
  | .atom v => if a = .atom v then .skip else .fail
  | .seq c d => if nullable c then .alt (.seq (deriv a c) d) (deriv a d) else .seq (deriv a c) d
  | .alt c d => .alt (deriv a c) (deriv a d)
  | .star c => .seq (deriv a c) (.star c)

theorem nullable_sound : ∀ {c : Code F L}, nullable c = true → Lang c []
  | .skip, _ => .skip
  | .seq c d, h => by
    simp only [nullable, Bool.and_eq_true] at h
    exact .seq (nullable_sound h.1) (nullable_sound h.2)
  | .alt c d, h => by
    simp only [nullable, Bool.or_eq_true] at h
    rcases h with h | h
    · exact .altl (nullable_sound h)
    · exact .altr (nullable_sound h)
  | .star c, _ => .stop

theorem productive_sound : ∀ {c : Code F L}, productive c = true → ∃ w, Lang c w
  | .skip, _ => ⟨_, .skip⟩
  | .rd f, _ => ⟨_, .rd f⟩
  | .wr f, _ => ⟨_, .wr f⟩
  | .acq l x, _ => ⟨_, .acq l x⟩
  | .rel l x, _ => ⟨_, .rel l x⟩
  | .go, _ => ⟨_, .go 0⟩
  | .snd, _ => ⟨_, .snd 0⟩
  | .rcv, _ => ⟨_, .rcv 0⟩
  | .atom v, _ => ⟨_, .atom v⟩
  | .seq c d, h => by
    simp only [productive, Bool.and_eq_true] at h
    obtain ⟨v, hv⟩ := productive_sound h.1
    obtain ⟨w, hw⟩ := productive_sound h.2
    exact ⟨_, .seq hv hw⟩
  | .alt c d, h => by
    simp only [productive, Bool.or_eq_true] at h
    rcases h with h | h
    · obtain ⟨v, hv⟩ := productive_sound h; exact ⟨_, .altl hv⟩
    · obtain ⟨v, hv⟩ := productive_sound h; exact ⟨_, .altr hv⟩
  | .star c, _ => ⟨_, .stop⟩

theorem no_fail {w : List (Act F L)} (h : Lang (.fail : Code F L) w) : False := by cases h

theorem deriv_sound {a : Act F L} : ∀ {c : Code F L} {w : List (Act F L)}, Lang (deriv a c) w → Lang c (a :: w)
  | .fail, w, h => (no_fail h).elim
  | .skip, w, h => (no_fail h).elim
  | .rd f, w, h => by
    simp only [deriv] at h
    split at h
    · rename_i e; cases h; subst e; exact .rd f
    · exact (no_fail h).elim
  | .wr f, w, h => by
    simp only [deriv] at h
    split at h
    · rename_i e; cases h; subst e; exact .wr f
    · exact (no_fail h).elim
  | .acq l x, w, h => by
    simp only [deriv] at h
    split at h
    · rename_i e; cases h; subst e; exact .acq l x
    · exact (no_fail h).elim
  | .rel l x, w, h => by
    simp only [deriv] at h
    split at h
    · rename_i e; cases h; subst e; exact .rel l x
    · exact (no_fail h).elim
  | .go, w, h => by
    cases a <;> simp only [deriv] at h
    case fork t => cases h; exact .go t
    all_goals exact (no_fail h).elim
  | .snd, w, h => by
    cases a <;> simp only [deriv] at h
    case snd t => cases h; exact .snd t
    all_goals exact (no_fail h).elim
  | .rcv, w, h => by
    cases a <;> simp only [deriv] at h
    case rcv t => cases h; exact .rcv t
    all_goals exact (no_fail h).elim
  | .atom v, w, h => by
    simp only [deriv] at h
    split at h
    · rename_i e; cases h; subst e; exact .atom v
    · exact (no_fail h).elim
  | .seq c d, w, h => by
    simp only [deriv] at h
    split at h
    · rename_i hn
      cases h with
      | altl h =>
        cases h with
        | seq h1 h2 => rw [← List.cons_append]; exact .seq (deriv_sound h1) h2
      | altr h => rw [← List.nil_append (a :: w)]; exact .seq (nullable_sound hn) (deriv_sound h)
    · cases h with
      | seq h1 h2 => rw [← List.cons_append]; exact .seq (deriv_sound h1) h2
  | .alt c d, w, h => by
    simp only [deriv] at h
    cases h with
    | altl h => exact .altl (deriv_sound h)
    | altr h => exact .altr (deriv_sound h)
  | .star c, w, h => by
    simp only [deriv] at h
    cases h with
    | seq h1 h2 => rw [← List.cons_append]; exact .more (deriv_sound h1) h2

/-- Whether code can do `w` and come to its end after that. -/
def accepts : Code F L → List (Act F L) → Bool
  | c, [] => productive c
  | c, a :: w => accepts (deriv a c) w

theorem accepts_sound : ∀ {w : List (Act F L)} {c : Code F L}, accepts c w = true → ∃ rest, Lang c (w ++ rest)
  | [], c, h => productive_sound h
  | a :: w, c, h => by
    obtain ⟨rest, hr⟩ := accepts_sound (w := w) h
    exact ⟨rest, deriv_sound hr⟩

/-- The conditions of `Execution` for goroutines that appear in the trace. -/
def runs (code : Nat → Code F L) (tr : Trace F L) : Bool :=
  (locks {} tr).isSome && (tr.all fun e => accepts (code e.1) (proj e.1 tr)) &&
    ((List.range tr.length).all fun i => match tr[i]? with
      | some (_, .fork t) => (tr.take (i + 1)).all fun e => e.1 ≠ t
      | some (_, .rcv m) => (tr.take i).any fun e => e.2 = .snd m
      | _ => true)

theorem runs_sound {code : Nat → Code F L} {tr : Trace F L} (hp : ∀ t, productive (code t) = true) (h : runs code tr = true) : Execution code tr := by
  simp only [runs, Bool.and_eq_true, List.all_eq_true] at h
  obtain ⟨⟨h1, h2⟩, h3⟩ := h
  refine ⟨?_, ?_, ?_, ?_⟩
  · exact Option.isSome_iff_exists.1 h1
  · intro t
    by_cases ht : ∃ e ∈ tr, e.1 = t
    · obtain ⟨e, he, rfl⟩ := ht
      exact accepts_sound (h2 e he)
    · have : proj t tr = [] := by
        simp only [proj, List.filterMap_eq_nil_iff]
        intro e he
        rw [if_neg fun h => ht ⟨e, he, h⟩]
      rw [this]
      obtain ⟨w, hw⟩ := productive_sound (hp t)
      exact ⟨w, hw⟩
  · intro i j t u a hi hj
    have hlt : i < tr.length := (List.getElem?_eq_some_iff.1 hi).1
    have := h3 i (List.mem_range.2 hlt)
    rw [hi] at this
    simp only [List.all_eq_true, decide_eq_true_eq] at this
    rcases Nat.lt_or_ge i j with h | h
    · exact h
    · refine absurd rfl (this (t, a) ?_)
      have : (tr.take (i + 1))[j]? = some (t, a) := by rw [List.getElem?_take, if_pos (by omega)]; exact hj
      exact List.mem_of_getElem? this
  · intro j u m hj
    have hlt : j < tr.length := (List.getElem?_eq_some_iff.1 hj).1
    have := h3 j (List.mem_range.2 hlt)
    rw [hj] at this
    simp only [List.any_eq_true, decide_eq_true_eq] at this
    obtain ⟨⟨t, b⟩, he, hb⟩ := this
    obtain ⟨i, hi⟩ := List.getElem?_of_mem he
    rw [List.getElem?_take] at hi
    split at hi
    · rename_i hij
      exact ⟨i, t, hij, by simpa [hi] using hb⟩
    · cases hi

/-! ## Events that are not ordered -/

def edge (tr : Trace F L) (i j : Nat) : Bool :=
  match tr[i]?, tr[j]? with
  | some (t, a), some (u, b) => decide (t = u) || (match a, b with
      | .rel l x, .acq k y => decide (l = k) && (x || y)
      | .snd m, .rcv n => decide (m = n)
      | .atom v, .atom w => decide (v = w)
      | _, _ => false) || (match a with
      | .fork v => decide (v = u)
      | _ => false)
  | _, _ => false

theorem edge_complete {tr : Trace F L} {i j : Nat} (h : Edge true tr i j) : i < j ∧ edge tr i j = true := by
  obtain ⟨hij, t, a, u, b, hi, hj, hr⟩ := h
  refine ⟨hij, ?_⟩
  simp only [edge, hi, hj]
  rcases hr with rfl | ⟨l, x, y, rfl, rfl, hxy⟩ | rfl | ⟨m, rfl, rfl⟩ | ⟨-, v, rfl, rfl⟩
  · simp
  · simp [hxy]
  · simp
  · simp
  · simp

/-- Everything that happens after the event at `i` is in `after`. -/
def closed (tr : Trace F L) (after : List Nat) : Bool :=
  after.all fun i => (List.range tr.length).all fun j => decide (j ≤ i) || !edge tr i j || after.contains j

theorem not_before {tr : Trace F L} {after : List Nat} (hc : closed tr after = true) {i j : Nat} (h : HB true tr i j) : i ∈ after → j ∈ after := by
  induction h with
  | @one i j h =>
    intro hi
    simp only [closed, List.all_eq_true] at hc
    obtain ⟨hij, he⟩ := edge_complete h
    obtain ⟨_, t, a, u, b, _, hj, _⟩ := h
    have := hc i hi j (List.mem_range.2 (List.getElem?_eq_some_iff.1 hj).1)
    simp only [he, Bool.not_true, Bool.or_false, Bool.or_eq_true, decide_eq_true_eq] at this
    rcases this with h | h
    · omega
    · simpa using h
  | trans h1 h2 ih1 ih2 => exact fun h => ih2 (ih1 h)

/-- A race, as a check: the events at `i` and `j` conflict, and `j` is not among what happens after `i`. -/
def raceAt (tr : Trace F L) (f : F) (i j : Nat) (after : List Nat) : Bool :=
  decide (i < j) && (match tr[i]?, tr[j]? with
    | some (t, a), some (u, b) => decide (t ≠ u) && ((decide (a = .wr f) && (decide (b = .rd f) || decide (b = .wr f))) || (decide (a = .rd f) && decide (b = .wr f)))
    | _, _ => false) && closed tr after && after.contains i && !after.contains j

theorem raceAt_sound {tr : Trace F L} {f : F} {i j : Nat} {after : List Nat} (h : raceAt tr f i j after = true) : Conflict tr f i j ∧ ¬ HB true tr i j := by
  simp only [raceAt, Bool.and_eq_true, decide_eq_true_eq] at h
  obtain ⟨⟨⟨⟨h1, h2⟩, h3⟩, h4⟩, h5⟩ := h
  refine ⟨⟨h1, ?_⟩, fun hb => ?_⟩
  · split at h2
    · rename_i t a u b hi hj
      refine ⟨t, a, u, b, hi, hj, ?_⟩
      simp only [Bool.and_eq_true, Bool.or_eq_true, decide_eq_true_eq] at h2
      refine ⟨h2.1, ?_⟩
      rcases h2.2 with ⟨rfl, rfl | rfl⟩ | ⟨rfl, rfl⟩ <;> simp [Act.writes, Act.reads]
    · cases h2
  · have := not_before h3 hb (by simpa using h4)
    simp [this] at h5

end Zinx.Race
