import Verif.Model.AutoTimer
import Verif.Lemmas.ExecOf

/-! # C88: timer functions are called once each and do not get in each other's way -/

namespace Zinx.Props

open Zinx.AutoTimer

/-- The timers collected, in order. -/
def collected (ls : List AutoTimer.Label) : List Nat := ls.flatMap fun | .collect xs => xs | _ => []

/-- The timers whose functions have been handed to a goroutine, in order. -/
def dispatched (ls : List AutoTimer.Label) : List Nat := ls.filterMap fun | .dispatch x => some x | _ => none

structure AutoInv (isNil : Nat → Bool) (ls : List AutoTimer.Label) (s : AutoTimer.State) : Prop where
  pend : ∀ x, s.pending.count x + (collected ls).count x ≤ if x ∈ s.created then 1 else 0
  order : collected ls = dispatched ls ++ s.chan ++ s.batch
  start : ∀ x, (dispatched ls).count x = s.spawned.count x + ls.count (.begin x)
  ends : ∀ x, ls.count (.begin x) = s.running.count x + ls.count (.ret x) + ls.count (.recovered x)
  made : ∀ x, x ∈ s.created → .create x ∈ ls
  fatal : .fatal ∈ ls → ∃ x ∈ s.created, isNil x = true
  nil : ∀ x, .begin x ∈ ls → isNil x = false

theorem autoInv_step {cap : Nat} {isNil : Nat → Bool} {ls : List AutoTimer.Label} {s t : AutoTimer.State} {l : AutoTimer.Label} (h : AutoInv isNil ls s)
    (hs : AutoTimer.Step cap isNil s l t) : AutoInv isNil (ls ++ [l]) t := by
  have hp := h.pend
  have ho := h.order
  have hc := h.start
  have he := h.ends
  have hm := h.made
  have hf := h.fatal
  have hn := h.nil
  have hcol : collected (ls ++ [l]) = collected ls ++ (match l with | .collect xs => xs | _ => []) := by simp [collected]; cases l <;> rfl
  have hdis : dispatched (ls ++ [l]) = dispatched ls ++ (match l with | .dispatch x => [x] | _ => []) := by simp [dispatched]; cases l <;> rfl
  cases hs with
  | create x hx =>
    constructor
    case pend =>
      intro y
      simp only [hcol, List.append_nil]
      have h1 := hp y
      have h2 := hp x
      simp only [List.mem_cons, List.count_cons]
      by_cases e : y = x
      · subst e; simp_all
      · simp [e, Ne.symm e]; exact h1
    all_goals (try simp only [hcol, hdis, List.append_nil])
    all_goals (try simp)
    all_goals grind
  | cancel x =>
    constructor
    case pend =>
      intro y
      simp only [hcol, List.append_nil]
      have h1 := hp y
      have := (List.filter_sublist (p := (· ≠ x)) (l := s.pending)).count_le y
      omega
    all_goals (try simp only [hcol, hdis, List.append_nil])
    all_goals (try simp)
    all_goals grind
  | collect xs hb hnd hx =>
    constructor
    case pend =>
      intro y
      simp only [hcol]
      have h1 := hp y
      rw [List.count_append]
      by_cases e : y ∈ xs
      · have h2 : xs.count y ≤ 1 := List.nodup_iff_count.1 hnd y
        have h3 : (s.pending.filter (· ∉ xs)).count y = 0 := List.count_eq_zero.2 (by simp [e])
        have h4 : 0 < s.pending.count y := List.count_pos_iff.2 (hx y e)
        simp only [h3]; omega
      · have h2 : xs.count y = 0 := List.count_eq_zero.2 e
        have := (List.filter_sublist (p := (· ∉ xs)) (l := s.pending)).count_le y
        simp only [decide_not] at this ⊢
        omega
    all_goals (try simp only [hcol, hdis, List.append_nil])
    all_goals (try simp)
    all_goals grind
  | trigger x xs hb hl =>
    constructor
    all_goals (try simp only [hcol, hdis, List.append_nil])
    all_goals (try simp)
    all_goals grind
  | dispatch x xs hb =>
    constructor
    case start =>
      intro y
      simp only [hdis]
      have h1 := hc y
      simp [List.count_append, List.count_cons]; omega
    all_goals (try simp only [hcol, hdis, List.append_nil])
    all_goals (try simp)
    all_goals grind
  | begin x hx hi =>
    constructor
    case start =>
      intro y
      simp only [hdis, List.append_nil]
      have h1 := hc y
      have h4 : 0 < s.spawned.count x := List.count_pos_iff.2 hx
      simp only [List.count_append, List.count_cons, List.count_nil, List.count_erase]
      by_cases e : y = x
      · subst e; simp; omega
      · simp [Ne.symm e]; exact h1
    case ends =>
      intro y
      have h1 := he y
      simp only [List.count_append, List.count_cons, List.count_nil]
      simp; omega
    all_goals (try simp only [hcol, hdis, List.append_nil])
    all_goals (try simp)
    all_goals grind
  | beginNil x hx hi =>
    constructor
    case fatal =>
      intro _
      refine ⟨x, ?_, hi⟩
      have h1 := hp x
      have h2 := hc x
      have h4 : 0 < s.spawned.count x := List.count_pos_iff.2 hx
      rw [ho] at h1
      simp only [List.count_append] at h1
      by_cases e : x ∈ s.created
      · exact e
      · simp [e] at h1; omega
    all_goals (try simp only [hcol, hdis, List.append_nil])
    all_goals (try simp)
    all_goals grind
  | ret x hx =>
    constructor
    case ends =>
      intro y
      have h1 := he y
      have h4 : 0 < s.running.count x := List.count_pos_iff.2 hx
      simp only [List.count_append, List.count_cons, List.count_nil, List.count_erase]
      by_cases e : y = x
      · subst e; simp; omega
      · simp [Ne.symm e]; exact h1
    all_goals (try simp only [hcol, hdis, List.append_nil])
    all_goals (try simp)
    all_goals grind
  | recovered x hx =>
    constructor
    case ends =>
      intro y
      have h1 := he y
      have h4 : 0 < s.running.count x := List.count_pos_iff.2 hx
      simp only [List.count_append, List.count_cons, List.count_nil, List.count_erase]
      by_cases e : y = x
      · subst e; simp; omega
      · simp [Ne.symm e]; exact h1
    all_goals (try simp only [hcol, hdis, List.append_nil])
    all_goals (try simp)
    all_goals grind

theorem autoInv {cap : Nat} {isNil : Nat → Bool} {ls : List AutoTimer.Label} {t : AutoTimer.State} (h : Steps (AutoTimer.Step cap isNil) {} ls t) : AutoInv isNil ls t :=
  h.invariant_trace (P := AutoInv isNil) (fun _ _ _ _ => autoInv_step) (by constructor <;> simp [collected, dispatched])

theorem auto_gone {cap : Nat} {isNil : Nat → Bool} {x : Nat} {s t : AutoTimer.State} {ls : List AutoTimer.Label} (h : Steps (AutoTimer.Step cap isNil) s ls t) (h1 : x ∈ s.created)
    (h2 : x ∉ s.pending) : x ∉ collected ls := by
  induction h with
  | nil => simp [collected]
  | @cons s u t l ls hs _ ih =>
    have hl : collected (l :: ls) = (match l with | .collect xs => xs | _ => []) ++ collected ls := by simp [collected]; cases l <;> rfl
    rw [hl, List.mem_append, not_or]
    refine ⟨?_, ih ?_ ?_⟩ <;> cases hs <;> simp_all <;> grind

theorem auto_created {cap : Nat} {isNil : Nat → Bool} {x : Nat} {s t : AutoTimer.State} {ls : List AutoTimer.Label} (h : Steps (AutoTimer.Step cap isNil) s ls t)
    (h1 : x ∈ s.created ∨ .create x ∈ ls) : x ∈ t.created := by
  induction h with
  | nil => simpa using h1
  | cons hs _ ih => apply ih; cases hs <;> simp_all <;> grind

/-- **C88, safety.** Whatever timers are created and cancelled and whatever their functions do: the function of a timer begins at most once, and only after the timer was created and collected as due;
the functions are handed to goroutines in the order in which the timers were collected; a function that returns or panics has begun, and does so once; a timer cancelled before it was collected is
never called; and the process does not end, panics of the functions or not, unless a timer was made with a nil `*DelayFunc`. -/
theorem C88_once (cap : Nat) (isNil : Nat → Bool) (ls : List AutoTimer.Label) (t : AutoTimer.State) (h : Steps (AutoTimer.Step cap isNil) {} ls t) :
    (∀ x, ls.count (.begin x) ≤ 1) ∧
    (∀ a b x, ls = a ++ .begin x :: b → x ∈ collected a ∧ .create x ∈ a) ∧
    dispatched ls <+: collected ls ∧
    (∀ x, ls.count (.ret x) + ls.count (.recovered x) ≤ ls.count (.begin x)) ∧
    (∀ a b x, ls = a ++ .cancel x :: b → .create x ∈ a → x ∉ collected a → .begin x ∉ ls) ∧
    (.fatal ∈ ls → ∃ x, .create x ∈ ls ∧ isNil x = true) := by
  have hi := autoInv h
  have hb : ∀ x, ls.count (.begin x) ≤ (collected ls).count x := by
    intro x
    have h1 := hi.start x
    have h2 := congrArg (List.count x) hi.order
    simp only [List.count_append] at h2
    omega
  refine ⟨fun x => ?_, ?_, ⟨_, by rw [hi.order, List.append_assoc]⟩, fun x => ?_, ?_, fun hf => ?_⟩
  · have h1 := hi.pend x
    have h2 := hb x
    split at h1 <;> omega
  · rintro a b x rfl
    obtain ⟨u, h1, h2⟩ := h.split
    have hu := autoInv h1
    cases h2 with
    | cons hs _ =>
      cases hs with
      | begin x hx _ =>
        have h3 := hu.start x
        have h4 := congrArg (List.count x) hu.order
        have h5 : 0 < u.spawned.count x := List.count_pos_iff.2 hx
        have h6 := hu.pend x
        simp only [List.count_append] at h4
        refine ⟨List.count_pos_iff.1 (by omega), hu.made x ?_⟩
        by_cases e : x ∈ u.created
        · exact e
        · simp [e] at h6; omega
  · have := hi.ends x; omega
  · rintro a b x rfl hc hn hbg
    obtain ⟨u, h1, h2⟩ := h.split
    have hcr : x ∈ u.created := auto_created h1 (.inr hc)
    have h3 : x ∈ collected (a ++ .cancel x :: b) := List.count_pos_iff.1 (Nat.lt_of_lt_of_le (List.count_pos_iff.2 hbg) (hb x))
    have hl : collected (a ++ .cancel x :: b) = collected a ++ collected b := by simp [collected]
    rw [hl, List.mem_append] at h3
    rcases h3 with h3 | h3
    · exact hn h3
    · cases h2 with
      | cons hs h4 =>
        cases hs with
        | cancel => exact auto_gone h4 hcr (by simp) h3
  · obtain ⟨x, hx, hn⟩ := hi.fatal hf
    exact ⟨x, hi.made x hx, hn⟩

theorem auto_spawned {cap : Nat} {isNil : Nat → Bool} (e : Exec (AutoTimer.Step cap isNil)) (x : Nat) (hx : isNil x = false) (hb : e.WeakFair (· = .begin x)) {n : Nat}
    (h : x ∈ (e.run n).spawned) : ∃ m, n ≤ m ∧ e.act m = some (.begin x) := by
  apply Classical.byContradiction
  intro hno
  have hst : ∀ d, x ∈ (e.run (n + d)).spawned := by
    intro d
    induction d with
    | zero => exact h
    | succ d ih =>
      have hn := e.next (n + d)
      have hne : e.act (n + d) ≠ some (.begin x) := fun h => hno ⟨n + d, by omega, h⟩
      rw [← Nat.add_assoc]
      generalize e.run (n + d + 1) = t at *
      cases ha : e.act (n + d) with
      | none => rw [ha] at hn; rw [hn]; exact ih
      | some l =>
        rw [ha] at hn hne
        cases hn <;> simp_all
        exact (List.mem_erase_of_ne (Ne.symm hne)).2 ih
  obtain ⟨m, l, hm, ha, rfl⟩ := hb n (fun m hm => ⟨_, _, rfl, .begin _ x (by obtain ⟨d, rfl⟩ := Nat.exists_eq_add_of_le hm; exact hst d) hx⟩)
  exact hno ⟨m, hm, ha⟩

/-- Steps of the goroutine that starts the functions. -/
def isDispatch (l : AutoTimer.Label) : Prop := ∃ y, l = .dispatch y

/-- Steps of the goroutine that sends due timers over the channel. -/
def isTrigger (l : AutoTimer.Label) : Prop := ∃ y, l = .trigger y

theorem auto_chan {cap : Nat} {isNil : Nat → Bool} (e : Exec (AutoTimer.Step cap isNil)) (x : Nat) (hd : e.WeakFair isDispatch) {n : Nat} (h : x ∈ (e.run n).chan) :
    ∃ m, n ≤ m ∧ x ∈ (e.run m).spawned := by
  refine e.leads_weak_dec hd (P := fun s => x ∈ s.chan) (Q := fun s => x ∈ s.spawned) (fun s => s.chan.idxOf x) (fun s l t hp hs => ?_) (fun s l t hp hs hA => ?_) (fun s hp => ?_) h
  · cases hs <;> simp_all [List.idxOf_append, List.idxOf_cons] <;> grind
  · obtain ⟨y, rfl⟩ := hA
    cases hs
    simp_all [List.idxOf_cons]
    grind
  · cases hc : s.chan with
    | nil => rw [hc] at hp; cases hp
    | cons y ys => exact ⟨_, _, ⟨y, rfl⟩, .dispatch s y ys hc⟩

theorem auto_head {cap : Nat} {isNil : Nat → Bool} (hcap : 0 < cap) (e : Exec (AutoTimer.Step cap isNil)) (ht : e.WeakFair isTrigger) (hd : e.WeakFair isDispatch) {x : Nat} {xs : List Nat}
    {n : Nat} (h : (e.run n).batch = x :: xs) : ∃ m, n ≤ m ∧ (e.run m).batch = xs ∧ x ∈ (e.run m).chan := by
  have h1 : ∃ m, n ≤ m ∧ (e.run m).batch = x :: xs ∧ (e.run m).chan.length < cap := by
    by_cases hl : (e.run n).chan.length < cap
    · exact ⟨n, Nat.le_refl _, h, hl⟩
    · refine e.leads_weak_dec hd (P := fun s => s.batch = x :: xs ∧ cap ≤ s.chan.length) (Q := fun s => s.batch = x :: xs ∧ s.chan.length < cap) (fun s => s.chan.length)
        (fun s l t hp hs => ?_) (fun s l t hp hs hA => ?_) (fun s hp => ?_) ⟨h, by omega⟩
      · cases hs <;> simp_all <;> omega
      · obtain ⟨y, rfl⟩ := hA
        cases hs
        simp_all
        omega
      · cases hc : s.chan with
        | nil => simp [hc] at hp; omega
        | cons y ys => exact ⟨_, _, ⟨y, rfl⟩, .dispatch s y ys hc⟩
  obtain ⟨m, hm, h2⟩ := h1
  obtain ⟨k, hk, h3⟩ := e.leads_weak ht (P := fun s => s.batch = x :: xs ∧ s.chan.length < cap) (Q := fun s => s.batch = xs ∧ x ∈ s.chan)
    (fun s l t hp hs => by cases hs <;> simp_all <;> omega)
    (fun s l t hp hs hA => by obtain ⟨y, rfl⟩ := hA; cases hs; simp_all)
    (fun s hp => ⟨_, _, ⟨x, rfl⟩, .trigger s x xs hp.1 hp.2⟩) h2
  exact ⟨k, by omega, h3⟩

theorem auto_batch {cap : Nat} {isNil : Nat → Bool} (hcap : 0 < cap) (e : Exec (AutoTimer.Step cap isNil)) (ht : e.WeakFair isTrigger) (hd : e.WeakFair isDispatch) :
    ∀ xs n, (e.run n).batch = xs → (∃ m, n ≤ m ∧ (e.run m).batch = []) ∧ ∀ x ∈ xs, ∃ m, n ≤ m ∧ x ∈ (e.run m).chan := by
  intro xs
  induction xs with
  | nil => intro n h; exact ⟨⟨n, Nat.le_refl _, h⟩, nofun⟩
  | cons y ys ih =>
    intro n h
    obtain ⟨m, hm, h1, h2⟩ := auto_head hcap e ht hd h
    obtain ⟨⟨k, hk, h3⟩, h4⟩ := ih m h1
    refine ⟨⟨k, by omega, h3⟩, fun x hx => ?_⟩
    rcases List.mem_cons.1 hx with rfl | hx
    · exact ⟨m, hm, h2⟩
    · obtain ⟨j, hj, h5⟩ := h4 x hx
      exact ⟨j, by omega, h5⟩

/-- **C88, liveness.** In every infinite execution in which the two goroutines of the scheduler and the goroutine started for timer `x` go on whenever they can, the function of every timer collected
begins, and the scheduler always comes to its next poll. Nothing is assumed of the timer functions: they may panic or never return. -/
theorem C88_called (cap : Nat) (hcap : 0 < cap) (isNil : Nat → Bool) (hnil : ∀ x, isNil x = false) (e : Exec (AutoTimer.Step cap isNil)) (ht : e.WeakFair isTrigger) (hd : e.WeakFair isDispatch) :
    (∀ n, ∃ m, n ≤ m ∧ (e.run m).batch = []) ∧
    ∀ n xs x, e.act n = some (.collect xs) → x ∈ xs → e.WeakFair (· = .begin x) → ∃ m, n < m ∧ e.act m = some (.begin x) := by
  refine ⟨fun n => (auto_batch hcap e ht hd _ n rfl).1, fun n xs x ha hx hb => ?_⟩
  have h1 : (e.run (n + 1)).batch = xs := by
    have hn := e.next n
    generalize e.run (n + 1) = t at *
    rw [ha] at hn
    cases hn
    rfl
  obtain ⟨m, hm, h2⟩ := (auto_batch hcap e ht hd _ _ h1).2 x hx
  obtain ⟨k, hk, h3⟩ := auto_chan e x hd h2
  obtain ⟨j, hj, h4⟩ := auto_spawned e x (hnil x) hb h3
  exact ⟨j, by omega, h4⟩

/-- Two timers, one of which panics; the second is collected while the first is still running. -/
theorem auto_example : ∃ t, Steps (AutoTimer.Step 2048 (fun _ => false)) {}
    [.create 1, .create 2, .create 3, .collect [2], .trigger 2, .dispatch 2, .begin 2, .cancel 3, .collect [1], .trigger 1, .dispatch 1, .begin 1, .recovered 1] t ∧ t.batch = [] ∧ t.chan = [] ∧
    t.spawned = [] ∧ t.running = [2] := by
  refine ⟨_, .cons (.create _ 1 (by simp)) (.cons (.create _ 2 (by simp)) (.cons (.create _ 3 (by simp)) (.cons (.collect _ [2] rfl (by simp) (by simp)) (.cons (.trigger _ 2 [] rfl (by simp))
    (.cons (.dispatch _ 2 [] rfl) (.cons (.begin _ 2 (by simp) rfl) (.cons (.cancel _ 3) (.cons (.collect _ [1] rfl (by simp) (by simp)) (.cons (.trigger _ 1 [] rfl (by simp)) (.cons (.dispatch _ 1 [] rfl)
    (.cons (.begin _ 1 (by simp) rfl) (.cons (.recovered _ 1 (by simp)) (.nil _))))))))))))), ?_⟩
  simp

example : ∃ ls t, Steps (AutoTimer.Step 2048 (fun _ => false)) {} ls t ∧ .begin 2 ∈ ls ∧ .recovered 1 ∈ ls ∧ (∃ a b, ls = a ++ .cancel 3 :: b ∧ .create 3 ∈ a ∧ 3 ∉ collected a) :=
  let ⟨t, h, _⟩ := auto_example
  ⟨_, t, h, by simp, by simp, [.create 1, .create 2, .create 3, .collect [2], .trigger 2, .dispatch 2, .begin 2], _, rfl, by simp, by simp [collected]⟩

/-- Such an execution, going on for ever with the function of timer 2 never returning. -/
example : ∃ e : Exec (AutoTimer.Step 2048 (fun _ => false)), e.run 0 = {} ∧ e.WeakFair isTrigger ∧ e.WeakFair isDispatch ∧ (∀ x, e.WeakFair (· = .begin x)) ∧ e.act 8 = some (.collect [1]) ∧
    (∀ n, e.act n ≠ some (.ret 2)) ∧ (∀ n, e.act n ≠ some (.recovered 2)) := by
  obtain ⟨t, h, h1, h2, h3, h4⟩ := auto_example
  obtain ⟨e, e1, e2, e3, e4⟩ := Exec.ofSteps h
  refine ⟨e, e1, Exec.weakFair_of_end e4 ?_, Exec.weakFair_of_end e4 ?_, fun x => Exec.weakFair_of_end e4 ?_, by rw [e2]; rfl, fun n hn => ?_, fun n hn => ?_⟩
  · rintro ⟨l, u, ⟨y, rfl⟩, hs⟩; cases hs; simp_all
  · rintro ⟨l, u, ⟨y, rfl⟩, hs⟩; cases hs; simp_all
  · rintro ⟨l, u, rfl, hs⟩; cases hs; simp_all
  · rw [e2] at hn; have := List.mem_of_getElem? hn; simp at this
  · rw [e2] at hn; have := List.mem_of_getElem? hn; simp at this

/-- The limit of C88: with a nil `*DelayFunc` in place of one made by `NewDelayFunc`: the panic of the call is recovered, but the deferred function itself panics, and the process ends. -/
theorem C88_nil : ∃ ls t, Steps (AutoTimer.Step 2048 (fun x => x == 1)) {} ls t ∧ .fatal ∈ ls ∧ ∀ x, .create x ∈ ls → x = 1 :=
  ⟨_, _, .cons (.create _ 1 (by simp)) (.cons (.collect _ [1] rfl (by simp) (by simp)) (.cons (.trigger _ 1 [] rfl (by simp)) (.cons (.dispatch _ 1 [] rfl) (.cons (.beginNil _ 1 (by simp) rfl) (.nil _))))),
    by simp, by simp⟩

end Zinx.Props
