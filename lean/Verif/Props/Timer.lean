import Verif.Lemmas.TimerTick

/-! # C52 to C55: timers -/

namespace Zinx.Props

open Zinx Zinx.Timer

/-! ## C52 -/

/-- **C52.** For every execution with fewer than 2^32 creations, every clock: a timer that was created and whose ID no `CancelTimer` has visited is
exactly once among the pending and the handed out timers, with its due time, and no other is there under its ID. -/
theorem C52_conserved (ls : List Label) (s : State) (h : Steps Step init ls s) (hc : creates ls < 4294967296) (t : Timer)
    (ht : .create t ∈ ls) (hv : ∀ n, .visit t.id n ∉ ls) : (s.pending ++ s.fired).filter (fun x => x.id = t.id) = [t] := by
  have hi := hinv h hc
  exact filter_one (hi.uniq t.id) (hi.kept t ht hv)

/-- **C52 (at rest).** When no rotation and no call is under way, such a timer is in exactly one slot of one wheel or has been handed out. -/
theorem C52_at_rest (ls : List Label) (s : State) (h : Steps Step init ls s) (hc : creates ls < 4294967296) (t : Timer)
    (ht : .create t ∈ ls) (hv : ∀ n, .visit t.id n ∉ ls) (hu : s.user = .idle) (hr : ∀ k, (s.rot k).phase = .idle) :
    ((s.wheel 2).timers 2 ++ (s.wheel 1).timers 1 ++ (s.wheel 0).timers 0 ++ s.fired).filter (fun x => x.id = t.id) = [t] := by
  have hw := wf_reach h
  have e : ∀ k, s.level k = (s.wheel k).timers k := by
    intro k
    obtain ⟨h1, h2⟩ := hw.idle k (hr k)
    unfold State.level Rot.timers
    rw [h1, h2]; simp
  have := C52_conserved ls s h hc t ht hv
  unfold State.pending at this
  rw [e, e, e, hu] at this
  simpa [User.timers] using this

/-- **C52 (nothing else).** Nothing is pending or handed out that was not created, and no ID is there twice. -/
theorem C52_only_created (ls : List Label) (s : State) (h : Steps Step init ls s) (hc : creates ls < 4294967296) :
    (∀ t ∈ s.pending ++ s.fired, .create t ∈ ls) ∧ ((s.pending ++ s.fired).map (·.id)).Nodup := by
  have hi := hinv h hc
  constructor
  · intro t ht
    apply Classical.byContradiction
    intro hn
    have := hi.from_ t hn
    unfold occ at this
    rw [List.countP_eq_zero] at this
    exact this t ht (by simp)
  · exact ids_nodup hi.uniq

/-- A timer due in 61 seconds, created at time 0; the minute wheel turns at 60000 and hands it to the second wheel. -/
theorem timer_example : ∃ s, Steps Step init [.create ⟨1, 61000⟩, .add 0, .add 0, .rotate 1, .rotate 1, .rotate 1, .rotate 1, .rotate 1] s ∧
    s.user.timers = [] ∧ (s.wheel 0).slots 1 = [⟨1, 61000⟩] ∧ (s.rot 1).phase = .idle := by
  have f2 : State.free { init with user := .adding ⟨1, 61000⟩ 2, idGen := 1 } 2 := by
    refine ⟨rfl, fun _ _ => trivial, ?_⟩
    intro t j e; injection e with _ e; omega
  have f1 : State.free { init with user := .adding ⟨1, 61000⟩ 1, idGen := 1 } 1 := by
    refine ⟨rfl, fun _ _ => trivial, ?_⟩
    intro t j e; injection e with _ e; omega
  refine ⟨_, .cons (.create (due := 61000) rfl) (.cons (.addDown (now := 0) rfl f2 rfl) (.cons (.addStore (now := 0) (j := 1) rfl f1 rfl)
    (.cons (.rotStart (i := 1) (by omega) ⟨rfl, fun _ _ => trivial, nofun⟩) (.cons (.rotNext (i := 1) (by omega) rfl)
      (.cons (.rotDown (i := 0) (a := []) (b := []) (t := ⟨1, 61000⟩) (now := 60000) (by omega) (by decide) rfl rfl rfl)
        (.cons (.carryStore (i := 1) (k := 0) (j := 1) (t := ⟨1, 61000⟩) (now := 60000) (by omega) rfl ⟨rfl, ?_, nofun⟩ rfl)
          (.cons (.rotEnd (i := 1) (by omega) rfl) (.nil _)))))))), rfl, rfl, rfl⟩
  intro i hi
  by_cases e : i = 1
  · subst e; exact Nat.le_refl 0
  · simp [wset, e, init, passes]

/-! ## C53 -/

/-- **C53.** For every execution with fewer than 2^32 creations: no timer is handed out twice, what is handed out was created and is no longer
pending, and it was due in less than 100 ms by the clock reading used. -/
theorem C53_once_and_not_early (ls : List Label) (s : State) (h : Steps Step init ls s) (hc : creates ls < 4294967296) :
    (s.fired.map (·.id)).Nodup ∧ (∀ t ∈ s.fired, .create t ∈ ls ∧ t ∉ s.pending) ∧
    (∀ now ts, .collect now ts ∈ ls → ∀ t ∈ ts, t.due - now < 100) := by
  obtain ⟨h1, h2⟩ := C52_only_created ls s h hc
  refine ⟨?_, ?_, ?_⟩
  · rw [List.map_append, List.nodup_append] at h2
    exact h2.2.1
  · intro t ht
    refine ⟨h1 t (List.mem_append_right _ ht), ?_⟩
    intro hp
    rw [List.map_append, List.nodup_append] at h2
    exact h2.2.2 t.id (List.mem_map.2 ⟨t, hp, rfl⟩) t.id (List.mem_map.2 ⟨t, ht, rfl⟩) rfl
  · have : Wf s ∧ ∀ now ts, .collect now ts ∈ ls → ∀ t ∈ ts, t.due - now < 100 := by
      refine Steps.invariant_trace (P := fun ls s => Wf s ∧ ∀ now ts, .collect now ts ∈ ls → ∀ t ∈ ts, t.due - now < 100) ?_ h ⟨hinv_init.wf, by simp⟩
      rintro ls s l s' ⟨hw, hi⟩ hs
      refine ⟨step_wf hs hw, ?_⟩
      intro now ts hm t ht
      rw [List.mem_append, List.mem_singleton] at hm
      rcases hm with hm | hm
      · exact hi now ts hm t ht
      · subst hm
        exact ((collected_from hs hw).1 t ht).2
    exact this.2

/-- **C53 (record).** What has been handed out is what the polls collected, in order. -/
theorem C53_fired (ls : List Label) (s : State) (h : Steps Step init ls s) :
    s.fired = (ls.map fun | .collect _ ts => ts | _ => []).flatten := by
  refine Steps.invariant_trace (P := fun ls s => s.fired = (ls.map fun | .collect _ ts => ts | _ => []).flatten) ?_ h rfl
  intro ls s l s' hi hs
  rw [List.map_append, List.flatten_append, ← hi]
  cases hs <;> simp

/-- A timer due at 50 is collected at 0. -/
example : ∃ s, Steps Step init [.create ⟨1, 50⟩, .add 0, .add 0, .add 0, .collect 0 [⟨1, 50⟩]] s ∧ s.fired = [⟨1, 50⟩] := by
  have f : ∀ k, State.free { init with user := .adding ⟨1, 50⟩ k, idGen := 1 } k := by
    intro k
    refine ⟨rfl, fun _ _ => trivial, ?_⟩
    intro t j e; injection e with _ e; omega
  refine ⟨_, .cons (.create (due := 50) rfl) (.cons (.addDown (now := 0) rfl (f 2) rfl) (.cons (.addDown (now := 0) rfl (f 1) rfl)
    (.cons (.addStore (now := 0) (j := 0) rfl (f 0) rfl) (.cons (.collect (now := 0) ⟨rfl, fun _ _ => trivial, nofun⟩ (List.Perm.refl _)) (.nil _))))), rfl⟩

/-! ## C54 -/

/-- **C54.** When `CancelTimer(id)` returns (its visit to the lowest wheel is done), no timer with that ID is pending anywhere, and in every
continuation without a creation under the same ID none is ever collected - whatever the rotations do meanwhile. -/
theorem C54_cancelled (ls : List Label) (s s' : State) (id : Nat) (h : Steps Step init ls s) (hv : Step s (.visit id 0) s') :
    (∀ x ∈ s'.pending, x.id ≠ id) ∧
    ∀ ls' s'', Steps Step s' ls' s'' → (∀ t, .create t ∈ ls' → t.id ≠ id) →
      (∀ x ∈ s''.pending, x.id ≠ id) ∧ ∀ now ts, .collect now ts ∈ ls' → ∀ t ∈ ts, t.id ≠ id := by
  have hw := wf_reach h
  have hg : Gone s := by
    have : Wf s ∧ Gone s := h.invariant (P := fun s => Wf s ∧ Gone s) (fun _ _ _ hi hs => ⟨step_wf hs hi.1, gone_step hs hi.1 hi.2⟩)
      ⟨hinv_init.wf, fun _ _ e => by cases e⟩
    exact this.2
  have pend : ∀ s, Away id s → ∀ x ∈ s.pending, x.id ≠ id := by
    intro s ha x hx
    unfold State.pending at hx
    simp only [List.mem_append] at hx
    rcases hx with ((hx | hx) | hx) | hx
    · exact ha.1 2 (by omega) x hx
    · exact ha.1 1 (by omega) x hx
    · exact ha.1 0 (by omega) x hx
    · exact ha.2 x hx
  have ha : Away id s' := by
    cases hv with
    | visit hc hfree =>
      refine ⟨?_, fun x hx => by cases hx⟩
      intro k hk x hx
      rw [mem_level] at hx
      by_cases e : k = 0
      · subst e
        rcases hx with hx | hx
        · dsimp only at hx
          rw [wset_same, remove_timers, List.mem_filter] at hx
          simpa using hx.2
        · have := hw.idle 0 hfree.1
          unfold Rot.timers at hx
          dsimp only at hx
          rw [this.1, this.2] at hx
          cases hx
      · dsimp only at hx
        rw [wset_other _ _ e] at hx
        exact hg id 1 hc k (by omega) hk x (mem_level.2 hx)
  have hw' := step_wf hv hw
  refine ⟨pend s' ha, ?_⟩
  intro ls' s'' h2 hcr
  have gen : ∀ {s s'' : State} {ls' : List Label}, Steps Step s ls' s'' → Wf s → Away id s → (∀ t, .create t ∈ ls' → t.id ≠ id) →
      Away id s'' ∧ ∀ now ts, .collect now ts ∈ ls' → ∀ t ∈ ts, t.id ≠ id := by
    intro s s'' ls' h
    induction h with
    | nil => intro _ ha _; exact ⟨ha, by simp⟩
    | @cons s m t l ls hs _ ih =>
      intro hw ha hc
      obtain ⟨h1, h2⟩ := ih (step_wf hs hw) (away_step hs hw ha (fun t e => hc t (by simp [e]))) (fun t ht => hc t (List.mem_cons_of_mem _ ht))
      refine ⟨h1, ?_⟩
      intro now ts hm t ht
      rw [List.mem_cons] at hm
      rcases hm with hm | hm
      · subst hm
        exact ha.1 0 (by omega) t ((collected_from hs hw).1 t ht).1
      · exact h2 now ts hm t ht
  obtain ⟨h1, h3⟩ := gen h2 hw' ha hcr
  exact ⟨pend s'' h1, h3⟩

/-- The minute wheel is turning and holds the timer while the call cancels; the call has to wait for it. -/
example : ∃ s s', Steps Step init [.create ⟨1, 61000⟩, .add 0, .add 0, .rotate 1, .cancel 1, .visit 1 2, .rotate 1, .rotate 1, .rotate 1, .rotate 1, .visit 1 1] s ∧
    (s.wheel 0).slots 1 = [⟨1, 61000⟩] ∧ Step s (.visit 1 0) s' ∧ (s'.wheel 0).slots 1 = [] := by
  have f2 : State.free { init with user := .adding ⟨1, 61000⟩ 2, idGen := 1 } 2 := by
    refine ⟨rfl, fun _ _ => trivial, ?_⟩
    intro t j e; injection e with _ e; omega
  have f1 : State.free { init with user := .adding ⟨1, 61000⟩ 1, idGen := 1 } 1 := by
    refine ⟨rfl, fun _ _ => trivial, ?_⟩
    intro t j e; injection e with _ e; omega
  refine ⟨_, _, .cons (.create (due := 61000) rfl) (.cons (.addDown (now := 0) rfl f2 rfl) (.cons (.addStore (now := 0) (j := 1) rfl f1 rfl)
    (.cons (.rotStart (i := 1) (by omega) ⟨rfl, fun _ _ => trivial, nofun⟩) (.cons (.cancel (id := 1) rfl)
      (.cons (.visit (n := 2) rfl ⟨rfl, ?_, nofun⟩) (.cons (.rotNext (i := 1) (by omega) rfl)
        (.cons (.rotDown (i := 0) (a := []) (b := []) (t := ⟨1, 61000⟩) (now := 60000) (by omega) (by decide) rfl rfl rfl)
          (.cons (.carryStore (i := 1) (k := 0) (j := 1) (t := ⟨1, 61000⟩) (now := 60000) (by omega) rfl ⟨rfl, ?_, nofun⟩ rfl)
            (.cons (.rotEnd (i := 1) (by omega) rfl) (.cons (.visit (n := 1) rfl ⟨rfl, ?_, nofun⟩) (.nil _))))))))))), rfl,
              .visit (n := 0) rfl ⟨rfl, ?_, nofun⟩, rfl⟩
  · intro i hi
    have e : i ≠ 1 := by omega
    simp [wset, e, init, passes]
  · intro i hi
    by_cases e : i = 1
    · subst e; exact Nat.le_refl 0
    · simp [wset, e, init, passes]
  · intro i hi
    have e : i ≠ 1 := by omega
    simp [wset, e, init, passes]
  · intro i hi
    by_cases e : i = 1
    · subst e; trivial
    · simp [wset, e, init, passes]

/-! ## C55 -/

/-- **C55.** If every wheel ticks exactly at its interval, in whatever phase, then in every reachable state in which the ticks due by now have
happened, every timer in any wheel that is due by now is in the slot the scheduler polls. -/
theorem C55_in_polled_slot (s0 s : Timed) (ls : List TLabel) (h0 : s0.start) (h : Steps TStep s0 ls s) (htick : ∀ k, k < 3 → s.now < s.next k)
    (k : Nat) (hk : k < 3) (x : Timer) (hx : x ∈ (s.wheel k).timers k) (hdue : x.due ≤ s.now) :
    k = 0 ∧ x ∈ (s.wheel 0).slots (s.wheel 0).cur := by
  have hi : TInv s := h.invariant (P := TInv) (fun _ _ _ hi hs => tinv_step hs hi) (tinv_start h0)
  rw [mem_timers] at hx
  obtain ⟨j, hj, hx⟩ := hx
  have hl := hi.lev k hk j hj x hx
  have ht := htick k hk
  have hI := interval_pos k
  rcases hl with hl | hl
  · refine ⟨hl.1, ?_⟩
    obtain ⟨rfl, hd⟩ := hl
    have := dist_zero (hi.cur 0) hd
    rw [this] at hx
    exact hx
  · exfalso
    have : (0 : Int) ≤ ((dist k (s.wheel k).cur j - 1 : Nat) : Int) * interval k := Int.mul_nonneg (by omega) (by omega)
    omega

/-- **C55 (delivery).** Under the same assumptions, with fewer than 2^32 creations: a created timer that was never cancelled and is due by now
has been collected once the next poll is done, if not before; the poll hands out exactly what it reports. -/
theorem C55_delivered (s0 s s' : Timed) (ls : List TLabel) (ts : List Timer) (h0 : s0.start) (h : Steps TStep s0 ls s)
    (htick : ∀ k, k < 3 → s.now < s.next k) (hp : TStep s (.collect ts) s') (hc : tcreates ls < 4294967296) (t : Timer) (ht : .create t ∈ ls)
    (hn : .cancel t.id ∉ ls) (hdue : t.due ≤ s.now) : s'.fired = s.fired ++ ts ∧ t ∈ s'.fired := by
  refine ⟨by cases hp; rfl, ?_⟩
  obtain ⟨ls', h1, hm⟩ := timed_sim h h0
  have hcons := C52_at_rest ls' s.rest h1 (by rw [hm.count]; exact hc) t ((hm.made t).2 ht) (fun n hv => hn (hm.visits _ n hv)) rfl (fun _ => rfl)
  have hmem : t ∈ (s.rest.wheel 2).timers 2 ++ (s.rest.wheel 1).timers 1 ++ (s.rest.wheel 0).timers 0 ++ s.rest.fired := by
    have : t ∈ ((s.rest.wheel 2).timers 2 ++ (s.rest.wheel 1).timers 1 ++ (s.rest.wheel 0).timers 0 ++ s.rest.fired).filter (fun x => x.id = t.id) := by
      rw [hcons]; simp
    exact (List.mem_filter.1 this).1
  cases hp with
  | collect =>
    dsimp only
    rw [List.mem_append]
    have slot : ∀ k, k < 3 → t ∈ (s.wheel k).timers k → t ∈ s.fired ∨ t ∈ ((s.wheel 0).slots (s.wheel 0).cur).filter (fun t => t.due - s.now < 100) := by
      intro k hk hx
      right
      rw [List.mem_filter]
      exact ⟨(C55_in_polled_slot s0 s ls h0 h htick k hk t hx hdue).2, by simp only [decide_eq_true_eq]; omega⟩
    simp only [List.mem_append] at hmem
    rcases hmem with ((hm | hm) | hm) | hm
    · exact slot 2 (by omega) hm
    · exact slot 1 (by omega) hm
    · exact slot 0 (by omega) hm
    · exact .inl hm

/-- A start with all ticks half an interval away; a timer due in 1700 ms: the second wheel turns at 500 and 1500. -/
example : ∃ s0 s : Timed, s0.start ∧
    Steps TStep s0 [.create ⟨1, 1700⟩, .pass 500, .tick 0, .pass 1000, .tick 0, .pass 200] s ∧ (∀ k, k < 3 → s.now < s.next k) ∧
    (⟨1, 1700⟩ : Timer).due ≤ s.now ∧ (s.wheel 0).slots (s.wheel 0).cur = [⟨1, 1700⟩] := by
  refine ⟨⟨fun _ => .empty, 0, fun k => interval k / 2, 0, []⟩, _, ⟨fun _ => rfl, rfl, rfl, ?_⟩,
    .cons (.create (due := 1700)) (.cons (.pass (d := 500) (by decide) ?_) (.cons (.tick (k := 0) (o := id) (by decide) (by decide) (fun _ => List.Perm.refl _))
      (.cons (.pass (d := 1000) (by decide) ?_) (.cons (.tick (k := 0) (o := id) (by decide) (by decide) (fun _ => List.Perm.refl _))
        (.cons (.pass (d := 200) (by decide) ?_) (.nil _)))))), ?_, by decide, by decide⟩
  all_goals
    intro k hk
    obtain rfl | rfl | rfl : k = 0 ∨ k = 1 ∨ k = 2 := by omega
    all_goals decide

end Zinx.Props
