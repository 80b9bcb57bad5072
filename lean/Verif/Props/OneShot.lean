import Verif.Model.OneShot
import Verif.Lemmas.Bytes

/-! # C136: a timer that is run calls its function once, at its time -/

namespace Zinx.Props

open Zinx.OneShot

/-- What the wall clock shows until the moment `m` of the monotonic clock is a non-negative `int64` (the years 1970 to 2262). -/
def clockOk (wall : Nat → Int) (m : Nat) : Prop := ∀ n, n ≤ m → 0 ≤ wall n ∧ wall n < 2 ^ 63

/-- The wall clock is never set back: it goes at least as fast as the monotonic clock. -/
def neverBack (wall : Nat → Int) : Prop := ∀ m n, m ≤ n → wall m + (n - m : Nat) ≤ wall n

/-- The wall clock is never set ahead. -/
def neverAhead (wall : Nat → Int) : Prop := ∀ m n, m ≤ n → wall n ≤ wall m + (n - m : Nat)

/-- The moment of the monotonic clock after some actions. -/
def passed (ls : List OneShot.Label) : Nat := ls.count .tick

/-- The moments (ns of the wall clock) for which timers were made, in order; the first action happens at the moment `n` of the monotonic clock. -/
def moments (wall : Nat → Int) : Nat → List OneShot.Label → List Int
  | _, [] => []
  | n, .tick :: ls => moments wall (n + 1) ls
  | n, .at_ t :: ls => t :: moments wall n ls
  | n, .after d :: ls => (wall n + d) :: moments wall n ls
  | n, _ :: ls => moments wall n ls

/-- The timers of the calls of `Run`, in order. -/
def ran (ls : List OneShot.Label) : List Nat := ls.filterMap fun | .run i => some i | _ => none

/-- `t` is the moment asked for with the timer of the `k`-th call of `Run`. -/
def askedBy (wall : Nat → Int) (ls : List OneShot.Label) (k : Nat) (t : Int) : Prop := ∃ i, (ran ls)[k]? = some i ∧ (moments wall 0 ls)[i]? = some t

theorem moments_append (wall : Nat → Int) : ∀ (n : Nat) (ls ms : List OneShot.Label), moments wall n (ls ++ ms) = moments wall n ls ++ moments wall (n + passed ls) ms := by
  intro n ls
  induction ls generalizing n with
  | nil => intro ms; rfl
  | cons l ls ih =>
    intro ms
    cases l <;> simp only [moments, List.cons_append, ih, passed, List.count_cons] <;> simp <;> congr 1 <;> omega

theorem ran_append (ls ms : List OneShot.Label) : ran (ls ++ ms) = ran ls ++ ran ms := List.filterMap_append

theorem askedBy_mono {wall : Nat → Int} {ls ms : List OneShot.Label} {k : Nat} {t : Int} (h : askedBy wall ls k t) : askedBy wall (ls ++ ms) k t := by
  obtain ⟨i, h1, h2⟩ := h
  refine ⟨i, ?_, ?_⟩
  · rw [ran_append, List.getElem?_append_left]; exact h1
    exact (List.getElem?_eq_some_iff.1 h1).1
  · rw [moments_append, List.getElem?_append_left]; exact h2
    exact (List.getElem?_eq_some_iff.1 h2).1

theorem askedBy_unique {wall : Nat → Int} {ls : List OneShot.Label} {k : Nat} {t u : Int} (h1 : askedBy wall ls k t) (h2 : askedBy wall ls k u) : t = u := by
  obtain ⟨i, a, b⟩ := h1
  obtain ⟨j, c, d⟩ := h2
  rw [a] at c
  cases c
  rw [b] at d
  exact Option.some.inj d

theorem sleep_eq {t : OneShot.Timer} {ns : Int} (h0 : 0 ≤ ns) (h1 : ns < 2 ^ 63) (h2 : -2 ^ 63 ≤ t.unixts * 1000000) (h3 : t.unixts * 1000000 < 2 ^ 63) :
    sleep t ns = if t.unixts * 1000000 > ns then t.unixts * 1000000 - ns / 1000000 * 1000000 else 0 := by
  have hm : unixMilli ns = ns / 1000000 := Int.tdiv_eq_ediv_of_nonneg h0
  unfold sleep
  rw [hm]
  by_cases h : t.unixts > ns / 1000000
  · rw [if_pos h]
    by_cases h5 : t.unixts * 1000000 > ns
    · rw [if_pos h5, wrap64_of_range (x := t.unixts - ns / 1000000) (by omega) (by omega), wrap64_of_range (by omega) (by omega)]
      omega
    · omega
  · rw [if_neg h, if_neg (by omega)]

theorem tdiv_bounds (x : Int) : (0 ≤ x → x.tdiv 1000000 * 1000000 ≤ x ∧ x < x.tdiv 1000000 * 1000000 + 1000000) ∧
    (x < 0 → x ≤ x.tdiv 1000000 * 1000000 ∧ x.tdiv 1000000 * 1000000 ≤ 0) := by
  constructor
  · intro h
    rw [Int.tdiv_eq_ediv_of_nonneg h]
    omega
  · intro h
    have h1 : x.tdiv 1000000 = -((-x).tdiv 1000000) := by rw [Int.neg_tdiv, Int.neg_neg]
    rw [h1, Int.tdiv_eq_ediv_of_nonneg (by omega)]
    omega

/-- What is known of the goroutine of the `k`-th `Run`. -/
structure ShotOk (wall : Nat → Int) (ls : List OneShot.Label) (k : Nat) (now : Nat) (r : OneShot.Run) : Prop where
  asked : ∃ t, askedBy wall ls k t ∧ r.timer.unixts = (wrap64 t).tdiv 1000000
  ready : r.phase = .ready → ls.count (.look k) = 0 ∧ ls.count (.call k) = 0 ∧ ls.count (.ret k) + ls.count (.recovered k) = 0
  asleep : ∀ till, r.phase = .asleep till → ls.count (.look k) = 1 ∧ ls.count (.call k) = 0 ∧ ls.count (.ret k) + ls.count (.recovered k) = 0 ∧
    ∃ m, m ≤ now ∧ till = m + sleep r.timer (wall m)
  calling : ∀ m, r.phase = .calling m → ls.count (.look k) = 1 ∧ ls.count (.call k) = 1 ∧ ls.count (.ret k) + ls.count (.recovered k) = 0
  ended : r.phase = .ended → ls.count (.look k) = 1 ∧ ls.count (.call k) = 1 ∧ ls.count (.ret k) + ls.count (.recovered k) = 1

structure ShotInv (wall : Nat → Int) (ls : List OneShot.Label) (s : OneShot.State) : Prop where
  now : s.now = passed ls
  timers : s.timers = (moments wall 0 ls).map fun t => ⟨(wrap64 t).tdiv 1000000⟩
  len : (ran ls).length = s.runs.length
  runs : ∀ k r, s.runs[k]? = some r → ShotOk wall ls k s.now r
  beyond : ∀ k, s.runs.length ≤ k → ls.count (.look k) = 0 ∧ ls.count (.call k) = 0 ∧ ls.count (.ret k) + ls.count (.recovered k) = 0

theorem shotOk_other {wall : Nat → Int} {ls : List OneShot.Label} {l : OneShot.Label} {k now now' : Nat} {r : OneShot.Run} (h : ShotOk wall ls k now r)
    (hl : l ≠ .look k ∧ l ≠ .call k ∧ l ≠ .ret k ∧ l ≠ .recovered k) (hn : now ≤ now') : ShotOk wall (ls ++ [l]) k now' r := by
  obtain ⟨a, b, c, d⟩ := hl
  obtain ⟨t, h1, h2⟩ := h.asked
  have hc : ∀ x : OneShot.Label, l ≠ x → (ls ++ [l]).count x = ls.count x := by
    intro x hx
    rw [List.count_append, List.count_singleton, if_neg (by simpa using hx)]
    rfl
  refine ⟨⟨t, askedBy_mono h1, h2⟩, fun e => ?_, fun till e => ?_, fun m e => ?_, fun e => ?_⟩
  · rw [hc _ a, hc _ b, hc _ c, hc _ d]; exact h.ready e
  · rw [hc _ a, hc _ b, hc _ c, hc _ d]
    obtain ⟨x, y, z, m, hm, w⟩ := h.asleep till e
    exact ⟨x, y, z, m, by omega, w⟩
  · rw [hc _ a, hc _ b, hc _ c, hc _ d]; exact h.calling m e
  · rw [hc _ a, hc _ b, hc _ c, hc _ d]; exact h.ended e

theorem shot_set {wall : Nat → Int} {ls : List OneShot.Label} {s : OneShot.State} {l : OneShot.Label} {k : Nat} {r r' : OneShot.Run} (h : ShotInv wall ls s) (hk : s.runs[k]? = some r)
    (hr : ShotOk wall (ls ++ [l]) k s.now r')
    (hl : l = .look k ∨ l = .call k ∨ l = .ret k ∨ l = .recovered k) : ShotInv wall (ls ++ [l]) { s with runs := s.runs.set k r' } := by
  have hlt := (List.getElem?_eq_some_iff.1 hk).1
  refine ⟨?_, ?_, ?_, fun j q hj => ?_, fun j hj => ?_⟩
  · show s.now = _
    rw [h.now]; unfold passed; rw [List.count_append]
    rcases hl with e | e | e | e <;> subst e <;> rfl
  · show s.timers = _
    rw [h.timers, moments_append]
    rcases hl with e | e | e | e <;> subst e <;> simp [moments]
  · show _ = (s.runs.set k r').length
    rw [List.length_set, ← h.len, ran_append]
    rcases hl with e | e | e | e <;> subst e <;> simp [ran]
  · change (s.runs.set k r')[j]? = some q at hj
    by_cases e : k = j
    · subst e
      rw [List.getElem?_set_self hlt] at hj
      cases hj
      exact hr
    · rw [List.getElem?_set_ne e] at hj
      refine shotOk_other (h.runs j q hj) ?_ (Nat.le_refl _)
      rcases hl with e | e | e | e <;> subst e <;> simp_all
  · change (s.runs.set k r').length ≤ j at hj
    rw [List.length_set] at hj
    have hb := h.beyond j hj
    have hkj : k ≠ j := by omega
    simp only [List.count_append, List.count_singleton]
    rcases hl with e | e | e | e <;> subst e <;> simp [hkj] <;> omega

theorem shotInv_step {wall : Nat → Int} {ls : List OneShot.Label} {s t : OneShot.State} {l : OneShot.Label} (h : ShotInv wall ls s) (hs : OneShot.Step wall s l t) :
    ShotInv wall (ls ++ [l]) t := by
  have hcount : ∀ x : OneShot.Label, (ls ++ [l]).count x = ls.count x + if l = x then 1 else 0 := by
    intro x
    rw [List.count_append, List.count_singleton]
    simp
  cases hs with
  | tick =>
    refine ⟨?_, ?_, ?_, fun j q hj => ?_, fun j hj => ?_⟩
    · show s.now + 1 = _
      rw [h.now]; unfold passed; rw [hcount]; rfl
    · show s.timers = _
      rw [h.timers, moments_append]; simp [moments]
    · show _ = s.runs.length
      rw [← h.len, ran_append]; simp [ran]
    · exact shotOk_other (h.runs j q hj) (by simp) (Nat.le_succ _)
    · have := h.beyond j hj
      simpa [hcount] using this
  | at_ x hx =>
    refine ⟨?_, ?_, ?_, fun j q hj => ?_, fun j hj => ?_⟩
    · show s.now = _
      rw [h.now]; unfold passed; rw [hcount]; rfl
    · show s.timers ++ [newTimerAt x] = _
      rw [h.timers, moments_append]; simp [moments, newTimerAt, wrap64_of_range hx.1 hx.2]
    · show _ = s.runs.length
      rw [← h.len, ran_append]; simp [ran]
    · exact shotOk_other (h.runs j q hj) (by simp) (Nat.le_refl _)
    · have := h.beyond j hj
      simpa [hcount] using this
  | after d hd =>
    refine ⟨?_, ?_, ?_, fun j q hj => ?_, fun j hj => ?_⟩
    · show s.now = _
      rw [h.now]; unfold passed; rw [hcount]; rfl
    · show s.timers ++ [newTimerAfter (wall s.now) d] = _
      rw [h.timers, moments_append, h.now]; simp [moments, newTimerAfter, newTimerAt]
    · show _ = s.runs.length
      rw [← h.len, ran_append]; simp [ran]
    · exact shotOk_other (h.runs j q hj) (by simp) (Nat.le_refl _)
    · have := h.beyond j hj
      simpa [hcount] using this
  | run i tm hi =>
    refine ⟨?_, ?_, ?_, fun j q hj => ?_, fun j hj => ?_⟩
    · show s.now = _
      rw [h.now]; unfold passed; rw [hcount]; rfl
    · show s.timers = _
      rw [h.timers, moments_append]; simp [moments]
    · show _ = (s.runs ++ [_]).length
      rw [List.length_append, ← h.len, ran_append]; simp [ran]
    · change (s.runs ++ [_])[j]? = some q at hj
      rw [List.getElem?_append] at hj
      split at hj
      · exact shotOk_other (h.runs j q hj) (by simp) (Nat.le_refl _)
      · rename_i hjl
        have hj0 : j = s.runs.length := by
          have := (List.getElem?_eq_some_iff.1 hj).1
          simp at this; omega
        subst hj0
        simp at hj
        subst hj
        have hb := h.beyond s.runs.length (Nat.le_refl _)
        refine ⟨?_, fun _ => ?_, fun till e => (by cases e), fun m e => (by cases e), fun e => (by cases e)⟩
        · rw [h.timers, List.getElem?_map, Option.map_eq_some_iff] at hi
          obtain ⟨t, ht, e⟩ := hi
          refine ⟨t, ⟨i, ?_, ?_⟩, ?_⟩
          · rw [ran_append, List.getElem?_append_right (by rw [h.len]; omega), h.len]
            simp [ran]
          · rw [moments_append, List.getElem?_append_left (List.getElem?_eq_some_iff.1 ht).1]
            exact ht
          · rw [← e]
        · simpa [hcount] using hb
    · change (s.runs ++ [_]).length ≤ j at hj
      rw [List.length_append] at hj
      have := h.beyond j (by omega)
      simpa [hcount] using this
  | look k r hk hp =>
    have ho := h.runs k r hk
    obtain ⟨t, h1, h2⟩ := ho.asked
    have h3 := ho.ready hp
    refine shot_set h hk ⟨⟨t, askedBy_mono h1, h2⟩, fun e => (by cases e), fun till e => ?_, fun m e => (by cases e), fun e => (by cases e)⟩ (by simp)
    injection e with e
    refine ⟨?_, ?_, ?_, s.now, Nat.le_refl _, e.symm⟩ <;> simp [hcount] <;> omega
  | call k r till hk hp ht =>
    have ho := h.runs k r hk
    obtain ⟨t, h1, h2⟩ := ho.asked
    obtain ⟨h3, h4, h5, _⟩ := ho.asleep till hp
    refine shot_set h hk ⟨⟨t, askedBy_mono h1, h2⟩, fun e => (by cases e), fun till e => (by cases e), fun m e => ?_, fun e => (by cases e)⟩ (by simp)
    refine ⟨?_, ?_, ?_⟩ <;> simp [hcount] <;> omega
  | ret k r m hk hp =>
    have ho := h.runs k r hk
    obtain ⟨t, h1, h2⟩ := ho.asked
    obtain ⟨h3, h4, h5⟩ := ho.calling m hp
    refine shot_set h hk ⟨⟨t, askedBy_mono h1, h2⟩, fun e => (by cases e), fun till e => (by cases e), fun m e => (by cases e), fun e => ?_⟩ (by simp)
    refine ⟨?_, ?_, ?_⟩ <;> simp [hcount] <;> omega
  | recovered k r m hk hp =>
    have ho := h.runs k r hk
    obtain ⟨t, h1, h2⟩ := ho.asked
    obtain ⟨h3, h4, h5⟩ := ho.calling m hp
    refine shot_set h hk ⟨⟨t, askedBy_mono h1, h2⟩, fun e => (by cases e), fun till e => (by cases e), fun m e => (by cases e), fun e => ?_⟩ (by simp)
    refine ⟨?_, ?_, ?_⟩ <;> simp [hcount] <;> omega

theorem shotInv {wall : Nat → Int} {ls : List OneShot.Label} {s : OneShot.State} (h : Steps (OneShot.Step wall) {} ls s) : ShotInv wall ls s :=
  h.invariant_trace (P := fun ls s => ShotInv wall ls s) (fun _ _ _ _ hi hs => shotInv_step hi hs)
    ⟨rfl, rfl, rfl, fun k r hk => by simp at hk, fun k _ => ⟨rfl, rfl, rfl⟩⟩

/-- A moment asked for is more than -2^63 and less than 2^64. -/
theorem moments_range {wall : Nat → Int} {ls : List OneShot.Label} {s : OneShot.State} (h : Steps (OneShot.Step wall) {} ls s) (hw : clockOk wall (passed ls)) :
    ∀ t ∈ moments wall 0 ls, -2 ^ 63 ≤ t ∧ t < 2 ^ 64 := by
  refine h.invariant_trace (P := fun ls _ => clockOk wall (passed ls) → ∀ t ∈ moments wall 0 ls, -2 ^ 63 ≤ t ∧ t < 2 ^ 64) (fun ls u l v ih h2 hw t ht => ?_) (fun _ t ht => by cases ht) hw
  have hle : passed ls ≤ passed (ls ++ [l]) := by unfold passed; rw [List.count_append]; omega
  rw [moments_append, List.mem_append] at ht
  rcases ht with ht | ht
  · exact ih (fun n hn => hw n (by omega)) t ht
  · cases h2 with
    | at_ x hx => simp [moments] at ht; subst ht; have := hx.1; have := hx.2; omega
    | after d hd =>
      simp [moments] at ht
      have := hd.1; have := hd.2; have := hw (passed ls) hle
      omega
    | _ => simp [moments] at ht

theorem askedBy_mem {wall : Nat → Int} {ls : List OneShot.Label} {k : Nat} {t : Int} (h : askedBy wall ls k t) : t ∈ moments wall 0 ls := by
  obtain ⟨i, _, h⟩ := h
  exact List.mem_of_getElem? h

/-- The number of milliseconds of a timer, in nanoseconds, is in the range of `int64`. -/
theorem unixts_range (t : Int) : -2 ^ 63 ≤ (wrap64 t).tdiv 1000000 * 1000000 ∧ (wrap64 t).tdiv 1000000 * 1000000 < 2 ^ 63 := by
  have h1 := wrap64_range t
  have h2 := tdiv_bounds (wrap64 t)
  by_cases h : 0 ≤ wrap64 t
  · have := h2.1 h; omega
  · have := h2.2 (by omega); omega

/-- **C136, not early.** If the wall clock shows the years 1970 to 2262 and is not set back, the function of a timer asked for the moment `t` is not called a millisecond or more before the clock shows
`t`, for every `t` that fits in an `int64`. -/
theorem C136_partial (wall : Nat → Int) (hb : neverBack wall) (a b : List OneShot.Label) (k : Nat) (s : OneShot.State)
    (h : Steps (OneShot.Step wall) {} (a ++ .call k :: b) s) (hw : clockOk wall (passed a)) : ∃ t, askedBy wall a k t ∧ (t < 2 ^ 63 → t - 1000000 < wall (passed a)) := by
  obtain ⟨u, h1, h2⟩ := h.split
  have hi := shotInv h1
  have hnow := hi.now
  cases h2 with
  | cons hs _ =>
    cases hs with
    | call _ r till hk hp ht =>
      have ho := hi.runs k r hk
      obtain ⟨t, h3, h4⟩ := ho.asked
      obtain ⟨_, _, _, m, hm, h5⟩ := ho.asleep till hp
      refine ⟨t, h3, fun hlt => ?_⟩
      have hr := moments_range h1 hw t (askedBy_mem h3)
      have hx := unixts_range t
      rw [← h4] at hx
      rw [sleep_eq (hw m (by omega)).1 (hw m (by omega)).2 hx.1 hx.2] at h5
      have hbk := hb m u.now hm
      rw [← hi.now]
      rw [wrap64_of_range hr.1 hlt] at h4
      have hd := tdiv_bounds t
      rw [← h4] at hd
      have hwm := hw m (by omega)
      have hwn := hw u.now (by omega)
      by_cases hneg : 0 ≤ t
      · have := hd.1 hneg
        split at h5 <;> omega
      · omega

/-- Two milliseconds after the clock shows 1.7 s since 1970: the timer is made and run, sleeps and calls. -/
theorem shot_example : ∃ s, Steps (OneShot.Step (fun n => 1700000000 + n)) {}
    ([.after 2000000, .run 0, .look 0] ++ List.replicate 2000000 .tick ++ [.call 0, .recovered 0]) s ∧ s.now = 2000000 := by
  have ticks : ∀ n (s : OneShot.State), Steps (OneShot.Step (fun n => 1700000000 + n)) s (List.replicate n .tick) { s with now := s.now + n } := by
    intro n
    induction n with
    | zero => intro s; exact .nil _
    | succ n ih =>
      intro s
      have := ih { s with now := s.now + 1 }
      rw [show s.now + 1 + n = s.now + (n + 1) by omega] at this
      exact .cons (.tick s) this
  have first : Steps (OneShot.Step (fun n => 1700000000 + n)) {} [.after 2000000, .run 0, .look 0] ⟨0, [⟨1702⟩], [⟨⟨1702⟩, .asleep 2000000⟩]⟩ :=
    .cons (.after _ 2000000 ⟨by decide, by decide⟩) (.cons (.run _ 0 ⟨1702⟩ rfl) (.cons (.look _ 0 ⟨⟨1702⟩, .ready⟩ rfl rfl) (.nil _)))
  refine ⟨_, (first.append (ticks 2000000 _)).append (.cons (.call _ 0 ⟨⟨1702⟩, .asleep 2000000⟩ 2000000 rfl rfl (by decide)) (.cons (.recovered _ 0 ⟨⟨1702⟩, .calling 2000000⟩ 2000000 rfl rfl) (.nil _))), rfl⟩

example : ∃ a b s, Steps (OneShot.Step (fun n => 1700000000 + n)) {} (a ++ .call 0 :: b) s ∧ clockOk (fun n => 1700000000 + n) (passed a) ∧ neverBack (fun n => 1700000000 + n) ∧
    neverAhead (fun n => 1700000000 + n) :=
  let ⟨s, h, _⟩ := shot_example
  ⟨_, _, s, h, fun n hn => by
    have : passed ([.after 2000000, .run 0, .look 0] ++ List.replicate 2000000 .tick) = 2000000 := by
      unfold passed
      rw [List.count_append, List.count_replicate_self]
      rfl
    dsimp only; omega, fun m n h => by dsimp only; omega, fun m n h => by dsimp only; omega⟩

/-- **C136, once.** The function is called at most once for each call of `Run`, only after it, and it ends at most once, by returning or by a panic that is recovered. -/
theorem C136_once (wall : Nat → Int) (ls : List OneShot.Label) (s : OneShot.State) (h : Steps (OneShot.Step wall) {} ls s) (k : Nat) :
    ls.count (.call k) ≤ 1 ∧ (.call k ∈ ls → k < (ran ls).length) ∧ ls.count (.ret k) + ls.count (.recovered k) ≤ ls.count (.call k) := by
  have hi := shotInv h
  by_cases hk : s.runs.length ≤ k
  · obtain ⟨_, b, c⟩ := hi.beyond k hk
    refine ⟨by omega, fun hc => ?_, by omega⟩
    have := List.count_pos_iff.2 hc
    omega
  · have hk' : k < s.runs.length := by omega
    have ho := hi.runs k _ (List.getElem?_eq_getElem hk')
    rw [hi.len]
    cases hp : s.runs[k].phase with
    | ready => have := ho.ready hp; omega
    | asleep till => have := ho.asleep till hp; omega
    | calling m => have := ho.calling m hp; omega
    | ended => have := ho.ended hp; omega

/-- **C136, not late.** If the wall clock is not set ahead, a timer that has looked at the clock and has not called its function can call it as soon as the clock shows a millisecond after the moment
asked for. -/
theorem C136_late (wall : Nat → Int) (hb : neverAhead wall) (ls : List OneShot.Label) (s : OneShot.State) (h : Steps (OneShot.Step wall) {} ls s)
    (hw : clockOk wall s.now) (k : Nat) (t : Int) (ht : askedBy wall ls k t) (hl : .look k ∈ ls) (hc : .call k ∉ ls) (hn : t + 1000000 ≤ wall s.now) : ∃ s', OneShot.Step wall s (.call k) s' := by
  have hi := shotInv h
  have hl' := List.count_pos_iff.2 hl
  have hc' := List.count_eq_zero.2 hc
  by_cases hk : s.runs.length ≤ k
  · have := hi.beyond k hk
    omega
  · have hk' : k < s.runs.length := by omega
    have hg := List.getElem?_eq_getElem hk'
    have ho := hi.runs k _ hg
    cases hp : s.runs[k].phase with
    | ready => have := ho.ready hp; omega
    | calling m => have := ho.calling m hp; omega
    | ended => have := ho.ended hp; omega
    | asleep till =>
      refine ⟨_, .call s k _ till hg hp ?_⟩
      obtain ⟨u, h3, h4⟩ := ho.asked
      cases askedBy_unique ht h3
      obtain ⟨_, _, _, m, hm, h5⟩ := ho.asleep till hp
      have hr := moments_range h (hi.now ▸ hw) t (askedBy_mem h3)
      have hx := unixts_range t
      rw [← h4] at hx
      rw [sleep_eq (hw m (by omega)).1 (hw m (by omega)).2 hx.1 hx.2] at h5
      have hbk := hb m s.now hm
      have hwm := hw m (by omega)
      have hwn := hw s.now (by omega)
      rw [wrap64_of_range hr.1 (by omega)] at h4
      have hd := tdiv_bounds t
      rw [← h4] at hd
      by_cases hneg : 0 ≤ t
      · have := hd.1 hneg
        split at h5 <;> omega
      · have := hd.2 (by omega)
        split at h5 <;> omega

theorem run_keep {wall : Nat → Int} {s t : OneShot.State} {l : OneShot.Label} {k : Nat} {r : OneShot.Run} (hs : OneShot.Step wall s l t) (hk : s.runs[k]? = some r)
    (h1 : r.phase = .ready → l ≠ .look k) (h2 : ∀ till, r.phase = .asleep till → l ≠ .call k) (h3 : r.phase = .ready ∨ ∃ till, r.phase = .asleep till) : t.runs[k]? = some r := by
  have hset : ∀ j q q', s.runs[j]? = some q → j ≠ k → (s.runs.set j q')[k]? = some r := by
    intro j q q' _ hjk
    rw [List.getElem?_set_ne hjk]; exact hk
  cases hs with
  | tick => exact hk
  | at_ => exact hk
  | after => exact hk
  | run i tm hi =>
    show (s.runs ++ _)[k]? = _
    rw [List.getElem?_append_left (List.getElem?_eq_some_iff.1 hk).1]; exact hk
  | look j q hj hp =>
    by_cases e : j = k
    · subst e; rw [hk] at hj; cases hj; exact absurd rfl (h1 hp)
    · exact hset j q _ hj e
  | call j q till hj hp ht =>
    by_cases e : j = k
    · subst e; rw [hk] at hj; cases hj; exact absurd rfl (h2 till hp)
    · exact hset j q _ hj e
  | ret j q m hj hp =>
    by_cases e : j = k
    · subst e; rw [hk] at hj; cases hj
      rcases h3 with h | ⟨_, h⟩ <;> rw [hp] at h <;> cases h
    · exact hset j q _ hj e
  | recovered j q m hj hp =>
    by_cases e : j = k
    · subst e; rw [hk] at hj; cases hj
      rcases h3 with h | ⟨_, h⟩ <;> rw [hp] at h <;> cases h
    · exact hset j q _ hj e

theorem shot_now_mono {wall : Nat → Int} (e : Exec (OneShot.Step wall)) {n m : Nat} (h : n ≤ m) : (e.run n).now ≤ (e.run m).now := by
  refine e.invariant (P := fun s => (e.run n).now ≤ s.now) (fun s l t hp hs => ?_) (Nat.le_refl _) m h
  cases hs <;> simp_all <;> omega

/-- A timer that is due when it looks: a millisecond after the moment asked for. -/
example : ∃ ls s, Steps (OneShot.Step (fun n => 1700000000 + n)) {} ls s ∧ clockOk (fun n => 1700000000 + n) s.now ∧ neverAhead (fun n => 1700000000 + n) ∧
    askedBy (fun n => 1700000000 + n) ls 0 1699000000 ∧ .look 0 ∈ ls ∧ .call 0 ∉ ls ∧ (1699000000 : Int) + 1000000 ≤ (fun n : Nat => (1700000000 : Int) + n) s.now :=
  ⟨[.at_ 1699000000, .run 0, .look 0], _, .cons (.at_ _ 1699000000 ⟨by decide, by decide⟩) (.cons (.run _ 0 ⟨1699⟩ rfl) (.cons (.look _ 0 ⟨⟨1699⟩, .ready⟩ rfl rfl) (.nil _))),
    fun n hn => by dsimp only at hn ⊢; omega, fun m n h => by dsimp only; omega, ⟨0, rfl, rfl⟩, by decide, by decide, by decide⟩

/-- **C136, called.** Time goes on, and the goroutine of the `k`-th `Run` goes on whenever it can: then the function is called, whatever the clock shows and whatever the other timers and functions
do. -/
theorem C136_called (wall : Nat → Int) (e : Exec (OneShot.Step wall)) (h0 : e.run 0 = {}) (time : ∀ N, ∃ m, N ≤ (e.run m).now) (k : Nat) (hl : e.WeakFair (· = .look k))
    (hc : e.WeakFair (· = .call k)) (n : Nat) (hk : k < (ran (e.trace n)).length) : ∃ m, e.act m = some (.call k) := by
  apply Classical.byContradiction
  intro hno
  have hno : ∀ m, e.act m ≠ some (.call k) := fun m hm => hno ⟨m, hm⟩
  have inv : ∀ n, ShotInv wall (e.trace n) (e.run n) := fun n => by
    have := e.steps n
    rw [h0] at this
    exact shotInv this
  have nocall : ∀ n, (e.trace n).count (.call k) = 0 := by
    intro n
    rw [List.count_eq_zero]
    intro hm
    obtain ⟨m, _, h⟩ := e.mem_trace hm
    exact hno m h
  have hk' : k < (e.run n).runs.length := by rw [← (inv n).len]; exact hk
  have hg := List.getElem?_eq_getElem hk'
  generalize (e.run n).runs[k] = r at hg
  -- once asleep, the goroutine would sleep for ever
  have sleeps : ∀ n r till, (e.run n).runs[k]? = some r → r.phase = .asleep till → False := by
    intro n r till hg hp
    have stay : ∀ m, n ≤ m → (e.run m).runs[k]? = some r := by
      intro m hm
      induction m with
      | zero => rw [show (0 : Nat) = n by omega]; exact hg
      | succ m ih =>
        by_cases e1 : n = m + 1
        · rw [← e1]; exact hg
        · have hn := e.next m
          cases ha : e.act m with
          | none => rw [ha] at hn; rw [hn]; exact ih (by omega)
          | some l =>
            rw [ha] at hn
            refine run_keep hn (ih (by omega)) (fun h => by rw [hp] at h; cases h) (fun _ _ h => ?_) (.inr ⟨till, hp⟩)
            exact hno m (by rw [ha, h])
    obtain ⟨m0, hm0⟩ := time till.toNat
    obtain ⟨m, l, _, ha, hA⟩ := hc (max n m0) (fun m hm => ⟨_, _, rfl, .call _ k r till (stay m (by omega)) hp (by
      have := shot_now_mono e (show m0 ≤ m by omega)
      omega)⟩)
    exact hno m (by rw [ha, hA])
  cases hp : r.phase with
  | asleep till => exact sleeps n r till hg hp
  | calling m =>
    have := ((inv n).runs k r hg).calling m hp
    have := nocall n
    omega
  | ended =>
    have := ((inv n).runs k r hg).ended hp
    have := nocall n
    omega
  | ready =>
    obtain ⟨m, _, q, till, h1, h2⟩ := e.leads_weak hl (P := fun s => s.runs[k]? = some r) (Q := fun s => ∃ q till, s.runs[k]? = some q ∧ q.phase = .asleep till)
      (fun s l t h hs => by
        by_cases e1 : l = .look k
        · subst e1
          cases hs with
          | look _ q hq _ => exact .inr ⟨_, _, List.getElem?_set_self (List.getElem?_eq_some_iff.1 h).1, rfl⟩
        · exact .inl (run_keep hs h (fun _ => e1) (fun till ht => by rw [hp] at ht; cases ht) (.inl hp)))
      (fun s l t h hs e1 => by
        subst e1
        cases hs with
        | look _ q hq _ => exact ⟨_, _, List.getElem?_set_self (List.getElem?_eq_some_iff.1 h).1, rfl⟩)
      (fun s h => ⟨_, _, rfl, .look s k r h hp⟩) hg
    exact sleeps m q till h1 h2

/-- The states of an execution in which a timer is made, run and called, and then time passes. -/
def shotRun : Nat → OneShot.State
  | 0 => {}
  | 1 => ⟨0, [⟨0⟩], []⟩
  | 2 => ⟨0, [⟨0⟩], [⟨⟨0⟩, .ready⟩]⟩
  | 3 => ⟨0, [⟨0⟩], [⟨⟨0⟩, .asleep 0⟩]⟩
  | n + 4 => ⟨n, [⟨0⟩], [⟨⟨0⟩, .calling 0⟩]⟩

/-- Its actions. -/
def shotAct : Nat → Option OneShot.Label
  | 0 => some (.at_ 0)
  | 1 => some (.run 0)
  | 2 => some (.look 0)
  | 3 => some (.call 0)
  | _ + 4 => some .tick

def shotExec : Exec (OneShot.Step (fun n => 1700000000 + n)) where
  run := shotRun
  act := shotAct
  next
    | 0 => .at_ _ 0 ⟨by decide, by decide⟩
    | 1 => .run _ 0 ⟨0⟩ rfl
    | 2 => .look _ 0 ⟨⟨0⟩, .ready⟩ rfl rfl
    | 3 => .call _ 0 ⟨⟨0⟩, .asleep 0⟩ 0 rfl rfl (by decide)
    | n + 4 => .tick ⟨n, [⟨0⟩], [⟨⟨0⟩, .calling 0⟩]⟩

example : shotExec.run 0 = {} ∧ (∀ N, ∃ m, N ≤ (shotExec.run m).now) ∧ shotExec.WeakFair (· = .look 0) ∧ shotExec.WeakFair (· = .call 0) ∧ 0 < (ran (shotExec.trace 2)).length := by
  refine ⟨rfl, fun N => ⟨N + 4, Nat.le_refl _⟩, fun n h => ?_, fun n h => ?_, by decide⟩ <;> exfalso <;>
  · obtain ⟨l, t, e, hs⟩ := h (n + 4) (by omega)
    subst e
    change OneShot.Step _ ⟨n, [⟨0⟩], [⟨⟨0⟩, .calling 0⟩]⟩ _ _ at hs
    cases hs <;> simp_all <;> (rename_i e; subst e; simp_all)

theorem sleep_wrapped {c d : Int} (h0 : 0 ≤ c) (h1 : c < 2 ^ 63) (hd : d < 2 ^ 63) (h : 2 ^ 63 ≤ c + d) : sleep (newTimerAfter c d) c = 0 := by
  have hx := unixts_range (c + d)
  have e : sleep (newTimerAfter c d) c = _ := sleep_eq h0 h1 hx.1 hx.2
  change _ = (if (wrap64 (c + d)).tdiv 1000000 * 1000000 > c then (wrap64 (c + d)).tdiv 1000000 * 1000000 - c / 1000000 * 1000000 else 0) at e
  have hw : wrap64 (c + d) < 0 := by
    unfold wrap64
    rw [Int.bmod_def]
    omega
  have := (tdiv_bounds _).2 hw
  rw [if_neg (by omega)] at e
  exact e

/-- **C136 is false as stated.** A timer asked for a duration after which the clock would show 2^63 ns or more (the year 2262) is called at once: with any clock that runs steadily, in the moment it is
made. -/
theorem C136_refuted (c d : Int) (h0 : 0 ≤ c) (h1 : c < 2 ^ 63) (hd : d < 2 ^ 63) (h : 2 ^ 63 ≤ c + d) :
    ∃ s, Steps (OneShot.Step (fun n => c + n)) {} [.after d, .run 0, .look 0, .call 0] s ∧ askedBy (fun n => c + n) [.after d, .run 0, .look 0] 0 (c + d) ∧ s.now = 0 := by
  have hs : sleep (newTimerAfter (c + (0 : Nat)) d) (c + (0 : Nat)) = 0 := sleep_wrapped (by omega) (by omega) hd (by omega)
  refine ⟨_, .cons (.after _ d ⟨by omega, hd⟩) (.cons (.run _ 0 _ rfl) (.cons (.look _ 0 _ rfl rfl) (.cons (.call _ 0 _ _ rfl rfl ?_) (.nil _)))), ⟨0, rfl, ?_⟩, rfl⟩
  · show ((0 : Nat) : Int) + sleep (newTimerAfter (c + (0 : Nat)) d) (c + (0 : Nat)) ≤ ((0 : Nat) : Int)
    rw [hs]; decide
  · show some (c + (0 : Nat) + d) = some (c + d)
    congr 1; omega

/-- The exact condition: a timer for a duration of a millisecond or more does not wait if and only if the clock would show 2^63 ns or more after it; and otherwise it sleeps for the duration, up to a
millisecond. -/
theorem C136_exact (c d : Int) (h0 : 0 ≤ c) (h1 : c < 2 ^ 63) (h2 : 1000000 ≤ d) (hd : d < 2 ^ 63) :
    (sleep (newTimerAfter c d) c = 0 ↔ 2 ^ 63 ≤ c + d) ∧ (c + d < 2 ^ 63 → d - 1000000 < sleep (newTimerAfter c d) c ∧ sleep (newTimerAfter c d) c < d + 1000000) := by
  have hx := unixts_range (c + d)
  have e : sleep (newTimerAfter c d) c = _ := sleep_eq h0 h1 hx.1 hx.2
  change _ = (if (wrap64 (c + d)).tdiv 1000000 * 1000000 > c then (wrap64 (c + d)).tdiv 1000000 * 1000000 - c / 1000000 * 1000000 else 0) at e
  by_cases h : 2 ^ 63 ≤ c + d
  · exact ⟨⟨fun _ => h, fun _ => sleep_wrapped h0 h1 hd h⟩, fun h' => by omega⟩
  · rw [wrap64_of_range (by omega) (by omega)] at e
    have := (tdiv_bounds (c + d)).1 (by omega)
    rw [if_pos (by omega)] at e
    rw [e]
    exact ⟨⟨fun _ => by omega, fun _ => by omega⟩, fun _ => by omega⟩

/-- November 2026, and the longest duration there is, 292 years: called at once. -/
example : (0 : Int) ≤ 1794850000000000000 ∧ (1794850000000000000 : Int) < 2 ^ 63 ∧ (9223372036854775807 : Int) < 2 ^ 63 ∧ (2 : Int) ^ 63 ≤ 1794850000000000000 + 9223372036854775807 ∧
    sleep (newTimerAfter 1794850000000000000 9223372036854775807) 1794850000000000000 = 0 := by decide

/-- The same with an hour. -/
example : (1000000 : Int) ≤ 3600000000000 ∧ sleep (newTimerAfter 1794850000000000000 3600000000000) 1794850000000000000 = 3600000000000 := by decide

end Zinx.Props
