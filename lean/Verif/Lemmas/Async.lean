import Verif.Model.Async

namespace Zinx.Async

open Zinx

/-! # Completion -/

def Call.isSet : Call → Prop | .set _ => True | .on _ => False
def Call.isOn : Call → Prop | .set _ => False | .on _ => True

structure Inv (calls : Nat → Call) (s : State) : Prop where
  ret : ∀ i, (calls i).isSet → s.pc i ≠ .start → s.hasRet = true
  reg : ∀ i, (calls i).isOn → s.pc i ≠ .start → s.hasFn = true
  nret : s.hasRet = false → s.obj = none
  nreg : s.hasFn = false → s.fn = none
  fresh : s.called = false → s.dispatched = []
  once : s.called = true → ∃ f, s.fn = some f ∧ s.dispatched = [f]
  fire : ∀ i f, s.pc i = .fire f → s.fn = some f
  setWon : ∀ i, (calls i).isSet → s.pc i = .won → s.obj = none ∧ ∀ j, j ≠ i → (calls j).isSet → s.pc j = .start ∨ s.pc j = .done
  onWon : ∀ i, (calls i).isOn → s.pc i = .won → s.fn = none ∧ ∀ j, j ≠ i → (calls j).isOn → s.pc j = .start ∨ s.pc j = .done
  wrote : ∀ i, s.pc i = .wrote → (calls i).isOn
  obj : s.hasRet = true → (∃ i, (calls i).isSet ∧ s.pc i = .won) ∨ ∃ i v, calls i = .set v ∧ s.obj = some v
  fn : s.hasFn = true → (∃ i, (calls i).isOn ∧ s.pc i = .won) ∨ ∃ i f, calls i = .on f ∧ s.fn = f
  duty : s.hasRet = true → s.fn ≠ none → s.called = false →
    ∃ i, s.pc i = .wrote ∨ ((calls i).isSet ∧ s.pc i = .won) ∨ s.pc i = .complete ∨ ∃ f, s.pc i = .fire f

theorem inv_init (calls : Nat → Call) : Inv calls init := by
  refine ⟨?_, ?_, fun _ => rfl, fun _ => rfl, fun _ => rfl, nofun, nofun, nofun, nofun, nofun, nofun, nofun, nofun⟩
  · intro i _ h; exact absurd rfl h
  · intro i _ h; exact absurd rfl h

theorem goto_same (s : State) (i : Nat) (p : Pc) : (s.goto i p).pc i = p := by simp [State.goto]
theorem goto_other (s : State) {i j : Nat} (p : Pc) (h : j ≠ i) : (s.goto i p).pc j = s.pc j := by simp [State.goto, h]

theorem inv_step {calls : Nat → Call} {s s' : State} {i : Nat} (h : Step calls s i s') (hi : Inv calls s) : Inv calls s' := by
  have so : ∀ c : Call, c.isSet → c.isOn → False := by intro c; cases c <;> simp [Call.isSet, Call.isOn]
  have si : ∀ c v, c = Call.set v → c.isSet ∧ ¬ c.isOn := by intro c v e; subst e; simp [Call.isSet, Call.isOn]
  have oi : ∀ c f, c = Call.on f → c.isOn ∧ ¬ c.isSet := by intro c v e; subst e; simp [Call.isSet, Call.isOn]
  obtain ⟨a1, a2, a3, a4, a5, a6, a7, a8, a9, a10, a11, a12, a13⟩ := hi
  cases h <;> (constructor <;> (intros; simp only [State.goto] at * <;> grind (splits := 20)))

/-! # Workers -/

/-- Operations submitted, begun and finished at a worker, in order. -/
def submitted (w : Int) (ls : List WLabel) : List Op :=
  ls.filterMap fun | .submit o => if workerIndex o.id = w then some o else none | _ => none
def begun (w : Int) (ls : List WLabel) : List Op :=
  ls.filterMap fun | .begin o => if workerIndex o.id = w then some o else none | _ => none
def finished (w : Int) (ls : List WLabel) : List Op :=
  ls.filterMap fun | .finish o _ => if workerIndex o.id = w then some o else none | _ => none

structure WInv (ls : List WLabel) (s : WState) : Prop where
  sub : ∀ w, submitted w ls = begun w ls ++ s.queue w
  beg : ∀ w, begun w ls = finished w ls ++ (s.busy w).toList
  qidx : ∀ w, ∀ o ∈ s.queue w, workerIndex o.id = w
  bidx : ∀ w o, s.busy w = some o → workerIndex o.id = w

theorem wset_same {α : Type} (f : Int → α) (i : Int) (a : α) : wset f i a i = a := by simp [wset]
theorem wset_other {α : Type} (f : Int → α) {i j : Int} (a : α) (h : j ≠ i) : wset f i a j = f j := by simp [wset, h]

theorem winv {ls : List WLabel} {s : WState} (h : Steps WStep winit ls s) : WInv ls s := by
  refine Steps.invariant_trace (P := WInv) ?_ h ⟨fun _ => rfl, fun _ => rfl, nofun, nofun⟩
  intro ls s l s' hi hs
  cases hs with
  | @submit o hlen =>
    refine ⟨?_, ?_, ?_, hi.bidx⟩
    · intro w
      unfold submitted begun
      rw [List.filterMap_append, List.filterMap_append]
      have := hi.sub w
      unfold submitted begun at this
      rw [this]
      by_cases e : workerIndex o.id = w
      · subst e
        simp [wset_same]
      · dsimp only
        rw [wset_other _ _ (Ne.symm e)]
        simp [e]
    · intro w
      have := hi.beg w
      unfold begun finished at this ⊢
      rw [List.filterMap_append, List.filterMap_append, this]
      simp
    · intro w x hx
      by_cases e : w = workerIndex o.id
      · subst e
        dsimp only at hx
        rw [wset_same, List.mem_append, List.mem_singleton] at hx
        rcases hx with hx | hx
        · exact hi.qidx _ x hx
        · rw [hx]
      · dsimp only at hx
        rw [wset_other _ _ e] at hx
        exact hi.qidx w x hx
  | @begin w o rest hb hq =>
    have ho : workerIndex o.id = w := hi.qidx w o (by rw [hq]; exact List.mem_cons_self)
    refine ⟨?_, ?_, ?_, ?_⟩
    · intro w'
      unfold submitted begun
      rw [List.filterMap_append, List.filterMap_append]
      have := hi.sub w'
      unfold submitted begun at this
      rw [this]
      by_cases e : w' = w
      · subst e
        simp [wset_same, ho, hq]
      · dsimp only
        rw [wset_other _ _ e]
        have : ¬ workerIndex o.id = w' := fun h => e (h.symm.trans ho)
        simp [this]
    · intro w'
      have := hi.beg w'
      unfold begun finished at this ⊢
      rw [List.filterMap_append, List.filterMap_append, this]
      by_cases e : w' = w
      · subst e
        simp [wset_same, ho, hb]
      · dsimp only
        rw [wset_other _ _ e]
        have : ¬ workerIndex o.id = w' := fun h => e (h.symm.trans ho)
        simp [this]
    · intro w' x hx
      by_cases e : w' = w
      · subst e
        dsimp only at hx
        rw [wset_same] at hx
        exact hi.qidx _ x (by rw [hq]; exact List.mem_cons_of_mem _ hx)
      · dsimp only at hx
        rw [wset_other _ _ e] at hx
        exact hi.qidx w' x hx
    · intro w' x hx
      by_cases e : w' = w
      · subst e
        dsimp only at hx
        rw [wset_same] at hx
        injection hx with hx
        rw [← hx]; exact ho
      · dsimp only at hx
        rw [wset_other _ _ e] at hx
        exact hi.bidx w' x hx
  | @finish w o pk hb =>
    have ho := hi.bidx w o hb
    refine ⟨?_, ?_, hi.qidx, ?_⟩
    · intro w'
      have := hi.sub w'
      unfold submitted begun at this ⊢
      rw [List.filterMap_append, List.filterMap_append, this]
      simp
    · intro w'
      have := hi.beg w'
      unfold begun finished at this ⊢
      rw [List.filterMap_append, List.filterMap_append, this]
      by_cases e : w' = w
      · subst e
        simp [wset_same, ho, hb]
      · dsimp only
        rw [wset_other _ _ e]
        have : ¬ workerIndex o.id = w' := fun h => e (h.symm.trans ho)
        simp [this]
    · intro w' x hx
      by_cases e : w' = w
      · subst e
        dsimp only at hx
        rw [wset_same] at hx
        cases hx
      · dsimp only at hx
        rw [wset_other _ _ e] at hx
        exact hi.bidx w' x hx

end Zinx.Async
