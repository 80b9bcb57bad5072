import Verif.Lemmas.Async

/-! # C56 to C58: asynchronous operations -/

namespace Zinx.Props

open Zinx Zinx.Async

theorem async_inv {calls : Nat → Call} {ls : List Nat} {s : Async.State} (h : Steps (Async.Step calls) Async.init ls s) : Async.Inv calls s :=
  h.invariant (P := Async.Inv calls) (fun _ _ _ hi hs => Async.inv_step hs hi) (Async.inv_init calls)

/-! ## C56 -/

/-- **C56 (at most once).** For any number of `SetReturnedObj` and `OnComplete` calls in any interleaving, at most one callback is dispatched, and it
is one that was registered. -/
theorem C56_at_most_once (calls : Nat → Call) (ls : List Nat) (s : Async.State) (h : Steps (Async.Step calls) Async.init ls s) :
    s.dispatched = [] ∨ ∃ i f, calls i = .on (some f) ∧ s.dispatched = [f] := by
  have hi := async_inv h
  cases hc : s.called with
  | false => exact .inl (hi.fresh hc)
  | true =>
    right
    obtain ⟨f, h1, h2⟩ := hi.once hc
    have hf : s.hasFn = true := by
      cases e : s.hasFn with
      | true => rfl
      | false => rw [hi.nreg e] at h1; cases h1
    rcases hi.fn hf with ⟨i, ho, hw⟩ | ⟨i, f', ho, hw⟩
    · rw [(hi.onWon i ho hw).1] at h1; cases h1
    · rw [h1] at hw
      exact ⟨i, f, by rw [ho, hw], h2⟩

/-- **C56 (exactly once).** When no call is under way, at least one `SetReturnedObj` and one `OnComplete` have finished, and no nil callback is
registered, exactly one callback has been dispatched. -/
theorem C56_exactly_once (calls : Nat → Call) (ls : List Nat) (s : Async.State) (h : Steps (Async.Step calls) Async.init ls s)
    (hnil : ∀ i, calls i ≠ .on none) (hrest : ∀ i, s.pc i = .start ∨ s.pc i = .done)
    (hset : ∃ i v, calls i = .set v ∧ s.pc i = .done) (hon : ∃ i f, calls i = .on f ∧ s.pc i = .done) :
    ∃ i f, calls i = .on (some f) ∧ s.dispatched = [f] := by
  have hi := async_inv h
  rcases C56_at_most_once calls ls s h with h0 | h1
  · exfalso
    obtain ⟨i, v, hc, hp⟩ := hset
    obtain ⟨j, f, hc', hp'⟩ := hon
    have hr := hi.ret i (by rw [hc]; trivial) (by rw [hp]; nofun)
    have hf := hi.reg j (by rw [hc']; trivial) (by rw [hp']; nofun)
    have hfn : s.fn ≠ none := by
      rcases hi.fn hf with ⟨k, _, hw⟩ | ⟨k, f', ho, hw⟩
      · rcases hrest k with e | e <;> (rw [hw] at e; cases e)
      · rw [hw]
        intro e
        rw [e] at ho
        exact hnil k ho
    have hcl : s.called = false := by
      cases e : s.called with
      | false => rfl
      | true =>
        obtain ⟨g, _, hd⟩ := hi.once e
        rw [h0] at hd; cases hd
    obtain ⟨k, hk⟩ := hi.duty hr hfn hcl
    rcases hk with hk | ⟨_, hk⟩ | hk | ⟨g, hk⟩
    all_goals rcases hrest k with e | e <;> (rw [hk] at e; cases e)
  · exact h1

/-- Three calls: two results and a callback; the second result is set meanwhile and loses. -/
def threeCalls : Nat → Call
  | 0 => .set 5
  | 1 => .on (some 7)
  | _ => .set 6

example : ∃ s, Steps (Async.Step threeCalls) Async.init [0, 1, 2, 1, 0, 1, 0, 1, 0, 1] s ∧ s.pc 0 = .done ∧ s.pc 1 = .done ∧ s.pc 2 = .done ∧
    s.dispatched = [7] := by
  refine ⟨_, .cons (.setWin (v := 5) rfl rfl rfl) (.cons (.onWin (f := some 7) rfl rfl rfl) (.cons (.setLose (v := 6) rfl rfl rfl)
    (.cons (.onWrite (f := some 7) rfl rfl) (.cons (.setWrite (v := 5) rfl rfl) (.cons (.onLoad (i := 1) rfl) (.cons (.readFn (i := 0) rfl)
      (.cons (.readFn (i := 1) rfl) (.cons (.fireWin (i := 0) (f := 7) rfl rfl) (.cons (.fireLose (i := 1) (f := 7) rfl rfl) (.nil _)))))))))),
        rfl, rfl, rfl, rfl⟩

/-! ## C57 -/

/-- **C57 refuted.** `SetReturnedObj` marks the result as present before storing it. A callback registered in between is dispatched, runs, and
reads nil. -/
theorem C57_refuted : ∃ (s : Async.State), Steps (Async.Step fun | 0 => .set 5 | _ => .on (some 7)) Async.init [0, 1, 1, 1, 1, 1, 9] s ∧
    s.dispatched = [7] ∧ s.reads = [none] :=
  ⟨_, .cons (.setWin (v := 5) rfl rfl rfl) (.cons (.onWin (f := some 7) rfl rfl rfl) (.cons (.onWrite (f := some 7) rfl rfl)
    (.cons (.onLoad (i := 1) rfl) (.cons (.readFn (i := 1) rfl) (.cons (.fireWin (i := 1) (f := 7) rfl rfl) (.cons (.run (by decide)) (.nil _))))))), rfl, rfl⟩

/-- **C57 (result stored).** If the callback runs while no `SetReturnedObj` call is between its two writes, it reads the value of one of the
`SetReturnedObj` calls. Missing: the other case, in which it reads nil. -/
theorem C57_partial (calls : Nat → Call) (ls : List Nat) (s s' : Async.State) (i : Nat) (h : Steps (Async.Step calls) Async.init ls s)
    (hs : Async.Step calls s i s') (hread : s'.reads ≠ s.reads)
    (hw : ∀ j v, calls j = .set v → s.pc j ≠ .won) : ∃ j v, calls j = .set v ∧ s'.reads = s.reads ++ [some v] := by
  have hi := async_inv h
  have hrun : s.reads.length < s.dispatched.length ∧ s'.reads = s.reads ++ [s.obj] := by
    cases hs with
    | run hr => exact ⟨hr, rfl⟩
    | _ => exact absurd rfl hread
  obtain ⟨hrun, hs'⟩ := hrun
  have hret : s.hasRet = true := by
    have inv : ∀ {s : Async.State} {ls : List Nat}, Steps (Async.Step calls) Async.init ls s →
        (s.dispatched ≠ [] → s.hasRet = true) ∧ (∀ j, (s.pc j = .complete ∨ ∃ f, s.pc j = .fire f) → s.hasRet = true) := by
      intro s ls h
      have : Async.Inv calls s ∧ (s.dispatched ≠ [] → s.hasRet = true) ∧ (∀ j, (s.pc j = .complete ∨ ∃ f, s.pc j = .fire f) → s.hasRet = true) := by
        refine h.invariant (P := fun s => Async.Inv calls s ∧ (s.dispatched ≠ [] → s.hasRet = true) ∧
          (∀ j, (s.pc j = .complete ∨ ∃ f, s.pc j = .fire f) → s.hasRet = true)) ?_ ⟨Async.inv_init calls, fun e => absurd rfl e, fun j e => by
            rcases e with e | ⟨f, e⟩ <;> cases e⟩
        rintro s l t ⟨hi, h1, h2⟩ hs
        refine ⟨Async.inv_step hs hi, ?_⟩
        have ret := hi.ret
        cases hs <;> (constructor <;> (intros; simp only [State.goto] at * <;> grind [Call.isSet]))
      exact this.2
    apply (inv h).1
    intro e
    rw [e] at hrun
    exact absurd hrun (Nat.not_lt_zero _)
  rcases hi.obj hret with ⟨j, hj, hwj⟩ | ⟨j, v, hj, ho⟩
  · exfalso
    match e : calls j with
    | .set v => exact hw j v e hwj
    | .on f => rw [e] at hj; exact hj
  · exact ⟨j, v, hj, by rw [hs', ho]⟩

/-- The result is set first. -/
example : ∃ (s : Async.State), Steps (Async.Step fun | 0 => .set 5 | _ => .on (some 7)) Async.init [0, 0, 0, 1, 1, 1, 1, 1, 9] s ∧ s.reads = [some 5] :=
  ⟨_, .cons (.setWin (v := 5) rfl rfl rfl) (.cons (.setWrite (v := 5) rfl rfl) (.cons (.readFn (i := 0) rfl) (.cons (.onWin (f := some 7) rfl rfl rfl)
    (.cons (.onWrite (f := some 7) rfl rfl) (.cons (.onLoad (i := 1) rfl) (.cons (.readFn (i := 1) rfl) (.cons (.fireWin (i := 1) (f := 7) rfl rfl)
      (.cons (.run (by decide)) (.nil _))))))))), rfl⟩

/-! ## C58 -/

/-- **C58 (valid index).** For every 64-bit ID the index is one of the 2048 workers. -/
theorem C58_valid_index (opId : Int) (h : -9223372036854775808 ≤ opId ∧ opId ≤ 9223372036854775807) :
    0 ≤ workerIndex opId ∧ workerIndex opId < 2048 := by
  unfold workerIndex
  dsimp only
  by_cases hn : opId < 0
  · rw [if_pos hn]
    by_cases hm : opId = -9223372036854775808
    · subst hm; decide
    · have e : wrap64 (-opId) = -opId := by
        unfold wrap64
        rw [Int.bmod_eq_of_le] <;> omega
      rw [e, Int.tmod_eq_emod_of_nonneg (by omega)]
      omega
  · rw [if_neg hn, Int.tmod_eq_emod_of_nonneg (by omega)]
    omega

example : workerIndex (-9223372036854775808) = 0 ∧ workerIndex (-5) = 5 ∧ workerIndex 5 = 5 := by decide

/-- Operations of one ID submitted, begun and finished in a history, in order. -/
def submittedOf (id : Int) (ls : List WLabel) : List Async.Op := ls.filterMap fun | .submit o => if o.id = id then some o else none | _ => none
def begunOf (id : Int) (ls : List WLabel) : List Async.Op := ls.filterMap fun | .begin o => if o.id = id then some o else none | _ => none
def finishedOf (id : Int) (ls : List WLabel) : List Async.Op := ls.filterMap fun | .finish o _ => if o.id = id then some o else none | _ => none

/-- **C58.** In every execution, operations of one ID begin in the order of their submission, none is skipped, and one begins only when the one
before has finished, by returning or by a panic. -/
theorem C58_fifo (ls : List WLabel) (s : WState) (h : Steps WStep winit ls s) (id : Int) :
    (∃ waiting, submittedOf id ls = begunOf id ls ++ waiting) ∧
    (begunOf id ls = finishedOf id ls ∨ ∃ o, begunOf id ls = finishedOf id ls ++ [o]) := by
  have hi := winv h
  have e1 : submittedOf id ls = (submitted (workerIndex id) ls).filter (fun o => o.id = id) := by
    unfold submittedOf submitted
    rw [List.filter_filterMap]
    congr 1
    funext l
    cases l with
    | submit o =>
      dsimp only
      by_cases e : o.id = id
      · rw [if_pos e, if_pos (by rw [e])]; simp [Option.filter, e]
      · rw [if_neg e]
        by_cases e2 : workerIndex o.id = workerIndex id
        · rw [if_pos e2]; simp [Option.filter, e]
        · rw [if_neg e2]; rfl
    | _ => rfl
  have e2 : begunOf id ls = (begun (workerIndex id) ls).filter (fun o => o.id = id) := by
    unfold begunOf begun
    rw [List.filter_filterMap]
    congr 1
    funext l
    cases l with
    | begin o =>
      dsimp only
      by_cases e : o.id = id
      · rw [if_pos e, if_pos (by rw [e])]; simp [Option.filter, e]
      · rw [if_neg e]
        by_cases e2 : workerIndex o.id = workerIndex id
        · rw [if_pos e2]; simp [Option.filter, e]
        · rw [if_neg e2]; rfl
    | _ => rfl
  have e3 : finishedOf id ls = (finished (workerIndex id) ls).filter (fun o => o.id = id) := by
    unfold finishedOf finished
    rw [List.filter_filterMap]
    congr 1
    funext l
    cases l with
    | finish o pk =>
      dsimp only
      by_cases e : o.id = id
      · rw [if_pos e, if_pos (by rw [e])]; simp [Option.filter, e]
      · rw [if_neg e]
        by_cases e2 : workerIndex o.id = workerIndex id
        · rw [if_pos e2]; simp [Option.filter, e]
        · rw [if_neg e2]; rfl
    | _ => rfl
  constructor
  · refine ⟨(s.queue (workerIndex id)).filter (fun o => o.id = id), ?_⟩
    rw [e1, e2, hi.sub, List.filter_append]
  · rw [e2, e3, hi.beg, List.filter_append]
    cases s.busy (workerIndex id) with
    | none => left; simp
    | some o =>
      by_cases e : o.id = id
      · right; exact ⟨o, by simp [e]⟩
      · left; simp [e]

/-- IDs 3 and -3 share a worker; the second operation panics. -/
example : ∃ s, Steps WStep winit [.submit ⟨3, 0⟩, .begin ⟨3, 0⟩, .submit ⟨-3, 1⟩, .submit ⟨3, 2⟩, .finish ⟨3, 0⟩ false, .begin ⟨-3, 1⟩,
    .finish ⟨-3, 1⟩ true, .begin ⟨3, 2⟩] s ∧ s.busy 3 = some ⟨3, 2⟩ := by
  refine ⟨_, .cons (.submit (by decide)) (.cons (.begin (w := 3) (o := ⟨3, 0⟩) (rest := []) rfl (by decide)) (.cons (.submit (by decide))
    (.cons (.submit (by decide)) (.cons (.finish (w := 3) (by decide)) (.cons (.begin (w := 3) (o := ⟨-3, 1⟩) (rest := [⟨3, 2⟩]) (by decide) (by decide))
      (.cons (.finish (w := 3) (by decide)) (.cons (.begin (w := 3) (o := ⟨3, 2⟩) (rest := []) (by decide) (by decide)) (.nil _)))))))), by decide⟩

/-- **C58 (bounded queues).** No worker ever has more than 2048 operations waiting, and a submission is held up only while its worker has that
many. -/
theorem C58_bounded (ls : List WLabel) (s : WState) (h : Steps WStep winit ls s) :
    (∀ w, (s.queue w).length ≤ 2048) ∧ ∀ o, (s.queue (workerIndex o.id)).length ≠ 2048 → ∃ t, WStep s (.submit o) t := by
  have hq : ∀ w, (s.queue w).length ≤ 2048 := by
    refine h.invariant (P := fun s => ∀ w, (s.queue w).length ≤ 2048) ?_ (fun _ => by simp [winit])
    intro s l t hi hs w
    cases hs with
    | submit hlt =>
      rename_i o
      by_cases e : w = workerIndex o.id
      · subst e; simp [Async.wset]; omega
      · simp [Async.wset, e]; exact hi w
    | begin hb hq =>
      rename_i w' o rest
      by_cases e : w = w'
      · subst e; have := hi w; rw [hq] at this; simp [Async.wset] at this ⊢; omega
      · simp [Async.wset, e]; exact hi w
    | finish hb => exact hi w
  exact ⟨hq, fun o ho => ⟨_, .submit (by have := hq (workerIndex o.id); omega)⟩⟩

example : ∃ s, Steps WStep winit [.submit ⟨-5, 1⟩, .submit ⟨-5, 2⟩] s ∧ (s.queue 5).length = 2 :=
  ⟨_, .cons (.submit (by simp [winit])) (.cons (.submit (by simp [winit, Async.wset])) (.nil _)), by
    have : workerIndex (-5) = 5 := by decide
    simp [winit, Async.wset, this]⟩

end Zinx.Props
