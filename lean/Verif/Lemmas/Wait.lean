import Verif.Lemmas.Race
import Verif.Model.Wait

/-!
# Excluding circular waiting

If all goroutines take locks in ascending order, they never wait for each other.
-/

namespace Zinx.Race

variable {F L : Type} [DecidableEq F] [DecidableEq L]
set_option linter.unusedSectionVars false

/-- The locks a goroutine holds; `none` if it takes one that is not above all it holds, or unlocks one it does not hold. -/
def orderStep (rank : L → Nat) (st : List (L × Bool)) : Act F L → Option (List (L × Bool))
  | .acq k x => if ∀ p ∈ st, rank p.1 < rank k then some ((k, x) :: st) else none
  | .rel k x => if (k, x) ∈ st then some (st.erase (k, x)) else none
  | _ => some st

/-- Every goroutine takes locks in ascending order. -/
def Ordered (rank : L → Nat) (code : Nat → Code F L) : Prop := ∀ t, checkBy (orderStep rank) (code t) [] ≠ none

theorem orderStep_blind (rank : L → Nat) : Blind (F := F) (orderStep rank) := fun _ _ => ⟨rfl, rfl, rfl⟩

theorem ordered_uses {rank : L → Nat} {methods : List (Code F L)} (h : checkBy (orderStep rank) (.any methods) [] = some []) : Ordered rank (uses methods) := by
  intro t
  simp [uses, checkBy, h]

/-- The locks goroutine `t` holds after `tr`. -/
def heldBy (rank : L → Nat) (tr : Trace F L) (t : Nat) : Option (List (L × Bool)) := followBy (orderStep rank) [] (proj t tr)

theorem heldBy_own (rank : L → Nat) (tr : Trace F L) (u : Nat) (a : Act F L) : heldBy rank (tr ++ [(u, a)]) u = (heldBy rank tr u).bind fun st => orderStep rank st a := by
  unfold heldBy
  rw [proj_append, followBy_append]
  have : proj u [(u, a)] = [a] := by simp [proj]
  rw [this]
  congr 1
  funext st
  simp only [followBy]
  cases orderStep rank st a <;> rfl

theorem heldBy_other (rank : L → Nat) (tr : Trace F L) {t u : Nat} (a : Act F L) (h : t ≠ u) : heldBy rank (tr ++ [(u, a)]) t = heldBy rank tr t := by
  unfold heldBy
  rw [proj_append]
  have : proj t [(u, a)] = [] := by simp [proj, Ne.symm h]
  rw [this, List.append_nil]

/-- Whoever holds a lock has it on the list. -/
def Listed (rank : L → Nat) (tr : Trace F L) (h : Held L) : Prop :=
  ∀ t st, heldBy rank tr t = some st → ∀ l, (h.excl l = some t → (l, true) ∈ st) ∧ (h.shared l).count t ≤ st.count (l, false)

theorem listed_start (rank : L → Nat) : Listed (F := F) rank [] {} := by
  intro t st _ l
  simp

theorem listed_step {rank : L → Nat} {tr : Trace F L} {h h' : Held L} {u : Nat} {a : Act F L} (ha : Listed rank tr h) (hs : lockStep h u a = some h') : Listed rank (tr ++ [(u, a)]) h' := by
  intro t st' ht l
  by_cases htu : t = u
  · subst htu
    rw [heldBy_own] at ht
    obtain ⟨st, e0, e1⟩ := Option.bind_eq_some_iff.1 ht
    have h0 := ha t st e0 l
    have easy : st' = st → h' = h → (h'.excl l = some t → (l, true) ∈ st') ∧ (h'.shared l).count t ≤ st'.count (l, false) := by
      rintro rfl rfl; exact h0
    cases a with
    | rd | wr | fork | snd | rcv | atom => exact easy (by simpa [orderStep] using e1.symm) (by simpa [lockStep] using hs.symm)
    | acq k x =>
      simp only [orderStep] at e1
      split at e1
      · cases e1
        cases x with
        | true =>
          simp only [lockStep] at hs
          split at hs
          · cases hs
            refine ⟨fun hx => ?_, ?_⟩
            · by_cases hk : l = k
              · simp [hk]
              · simp only [hk, if_false] at hx
                exact List.mem_cons_of_mem _ (h0.1 hx)
            · rw [List.count_cons]; exact Nat.le_trans h0.2 (Nat.le_add_right _ _)
          · cases hs
        | false =>
          simp only [lockStep] at hs
          split at hs
          · cases hs
            refine ⟨fun hx => List.mem_cons_of_mem _ (h0.1 hx), ?_⟩
            by_cases hk : l = k
            · simp only [hk, if_true]
              rw [List.count_cons_self, List.count_cons_self]
              exact Nat.succ_le_succ (hk ▸ h0.2)
            · simp only [hk, if_false]
              rw [List.count_cons]
              exact Nat.le_trans h0.2 (Nat.le_add_right _ _)
          · cases hs
      · cases e1
    | rel k x =>
      simp only [orderStep] at e1
      split at e1
      · cases e1
        cases x with
        | true =>
          simp only [lockStep] at hs
          split at hs
          · cases hs
            refine ⟨fun hx => ?_, ?_⟩
            · by_cases hk : l = k
              · simp [hk] at hx
              · simp only [hk, if_false] at hx
                exact (List.mem_erase_of_ne (by simp [hk])).2 (h0.1 hx)
            · rw [List.count_erase_of_ne (by simp)]; exact h0.2
          · cases hs
        | false =>
          simp only [lockStep] at hs
          split at hs
          · cases hs
            refine ⟨fun hx => (List.mem_erase_of_ne (by simp)).2 (h0.1 hx), ?_⟩
            by_cases hk : l = k
            · simp only [hk, if_true]
              rw [List.count_erase_self, List.count_erase_self]
              exact Nat.sub_le_sub_right (hk ▸ h0.2) 1
            · simp only [hk, if_false]
              rw [List.count_erase_of_ne (by simp [hk])]
              exact h0.2
          · cases hs
      · cases e1
  · rw [heldBy_other rank tr a htu] at ht
    have h0 := ha t st' ht l
    have htu' : u ≠ t := Ne.symm htu
    cases a with
    | rd | wr | fork | snd | rcv | atom =>
      have : h' = h := by simpa [lockStep] using hs.symm
      rw [this]; exact h0
    | acq k x =>
      cases x <;> simp only [lockStep] at hs <;> split at hs <;> cases hs
      · refine ⟨h0.1, ?_⟩
        by_cases hk : l = k
        · simp only [hk, if_true]
          rw [List.count_cons_of_ne htu']
          exact hk ▸ h0.2
        · simp only [hk, if_false]; exact h0.2
      · refine ⟨fun hx => ?_, h0.2⟩
        by_cases hk : l = k
        · simp [hk] at hx; exact absurd hx htu'
        · simp only [hk, if_false] at hx; exact h0.1 hx
    | rel k x =>
      cases x <;> simp only [lockStep] at hs <;> split at hs <;> cases hs
      · refine ⟨h0.1, ?_⟩
        by_cases hk : l = k
        · simp only [hk, if_true]
          rw [List.count_erase_of_ne htu]
          exact hk ▸ h0.2
        · simp only [hk, if_false]; exact h0.2
      · refine ⟨fun hx => ?_, h0.2⟩
        by_cases hk : l = k
        · simp [hk] at hx
        · simp only [hk, if_false] at hx; exact h0.1 hx

theorem listed {rank : L → Nat} {tr : Trace F L} : ∀ {pre : Trace F L} {h0 h : Held L}, Listed rank pre h0 → locks h0 tr = some h → Listed rank (pre ++ tr) h := by
  induction tr with
  | nil => intro pre h0 h hp hl; cases hl; simpa using hp
  | cons e tr ih =>
    intro pre h0 h hp hl
    obtain ⟨t, a⟩ := e
    simp only [locks] at hl
    obtain ⟨h1, e1, e2⟩ := Option.bind_eq_some_iff.1 hl
    have := ih (listed_step hp e1) e2
    simpa using this

/-- Everything a goroutine holds is below the lock it wants. -/
theorem below {rank : L → Nat} {code : Nat → Code F L} {tr : Trace F L} (ho : Ordered rank code) {t : Nat} {l : L} {x : Bool} (hn : ∃ rest, Lang (code t) (proj t tr ++ .acq l x :: rest)) :
    ∃ st, heldBy rank tr t = some st ∧ ∀ p ∈ st, rank p.1 < rank l := by
  obtain ⟨rest, hl⟩ := hn
  obtain ⟨st', hst⟩ := Option.ne_none_iff_exists'.1 (ho t)
  have h1 := checkBy_sound (orderStep_blind rank) hl hst
  rw [followBy_append] at h1
  obtain ⟨st, h2, h3⟩ := Option.bind_eq_some_iff.1 h1
  refine ⟨st, h2, ?_⟩
  simp only [followBy, orderStep] at h3
  split at h3
  · assumption
  · cases h3

theorem highest (f : Nat → Nat) : ∀ {D : List Nat}, D ≠ [] → ∃ t ∈ D, ∀ u ∈ D, f u ≤ f t := by
  intro D
  induction D with
  | nil => intro h; exact absurd rfl h
  | cons a D ih =>
    intro _
    by_cases hD : D = []
    · exact ⟨a, by simp, by simp [hD]⟩
    · obtain ⟨t, ht, hm⟩ := ih hD
      rcases Nat.le_total (f t) (f a) with h | h
      · exact ⟨a, by simp, fun u hu => (List.mem_cons.1 hu).elim (fun e => e ▸ Nat.le_refl _) fun hu => Nat.le_trans (hm u hu) h⟩
      · exact ⟨t, List.mem_cons_of_mem _ ht, fun u hu => (List.mem_cons.1 hu).elim (fun e => e ▸ h) (hm u)⟩

/-- Goroutines that take locks in ascending order never wait in a circle. -/
theorem no_circle {rank : L → Nat} {code : Nat → Code F L} {tr : Trace F L} {group : List Nat} {wants : Nat → L × Bool} (ho : Ordered rank code) : ¬ CircularWait code tr group wants := by
  intro hc
  obtain ⟨h, hl, hw⟩ := hc.waits
  have hlist : Listed rank tr h := by simpa using listed (listed_start rank) hl
  obtain ⟨t, ht, hmax⟩ := highest (fun t => rank (wants t).1) hc.nonempty
  have hold : ∀ u ∈ group, (h.excl (wants t).1 = some u ∨ u ∈ h.shared (wants t).1) → False := by
    intro u hu hh
    obtain ⟨st, e, hb⟩ := below ho (hc.next u hu)
    have h0 := hlist u st e (wants t).1
    have : rank (wants t).1 < rank (wants u).1 := by
      rcases hh with hh | hh
      · exact hb (_, true) (h0.1 hh)
      · have := List.count_pos_iff.2 hh
        exact hb (_, false) (List.count_pos_iff.1 (Nat.lt_of_lt_of_le this h0.2))
    exact absurd (hmax u hu) (Nat.not_le.2 this)
  obtain ⟨u, hu, h1 | ⟨_, h2⟩ | ⟨_, h3⟩⟩ := hw t ht
  · exact hold u hu (.inl h1)
  · exact hold u hu (.inr h2)
  · obtain ⟨v, hv, h4 | ⟨_, h5⟩ | ⟨h6, _⟩⟩ := hw u hu
    · rw [h3] at h4; exact hold v hv (.inl h4)
    · rw [h3] at h5; exact hold v hv (.inr h5)
    · rw [h3] at h6; cases h6

/-! ## Chains -/

/-- Nobody who waits for a lock above `bar` waits, however indirectly, for somebody who waits for one that is not. -/
theorem chain_above {rank : L → Nat} {code : Nat → Code F L} {tr : Trace F L} {h : Held L} {waiting : Nat → Option (L × Bool)} (ho : Ordered rank code) (hw : Waiting code tr waiting)
    (hl : locks {} tr = some h) {bar : Nat} {t u : Nat} (hc : WaitChain h waiting t u) :
    (∀ p, waiting t = some p → bar < rank p.1) → ∀ p, waiting u = some p → bar < rank p.1 := by
  have hlist : Listed rank tr h := by simpa using listed (listed_start rank) hl
  have hone : ∀ {t u : Nat}, WaitsOn h waiting t u → (∀ p, waiting t = some p → bar < rank p.1) → ∀ p, waiting u = some p → bar < rank p.1 := by
    intro t u hs ht p hp
    obtain ⟨l, x, e, hh⟩ := hs
    have hb := ht _ e
    have hold : (h.excl l = some u ∨ u ∈ h.shared l) → bar < rank p.1 := by
      intro hh
      obtain ⟨st, e1, hbel⟩ := below ho (hw u p hp)
      have h0 := hlist u st e1 l
      refine Nat.lt_trans hb ?_
      rcases hh with hh | hh
      · exact hbel (_, true) (h0.1 hh)
      · have := List.count_pos_iff.2 hh
        exact hbel (_, false) (List.count_pos_iff.1 (Nat.lt_of_lt_of_le this h0.2))
    rcases hh with h1 | ⟨_, h2⟩ | ⟨_, h3⟩
    · exact hold (.inl h1)
    · exact hold (.inr h2)
    · rw [h3] at hp; cases hp; exact hb
  induction hc with
  | one hs => exact hone hs
  | more hs _ ih => exact fun ht => ih (hone hs ht)

/-- The locks code may take. -/
def takes : Code F L → List L
  | .acq l _ => [l]
  | .seq c d => takes c ++ takes d
  | .alt c d => takes c ++ takes d
  | .star c => takes c
  | _ => []

theorem takes_sound {c : Code F L} {w : List (Act F L)} (h : Lang c w) : ∀ {l : L} {x : Bool}, .acq l x ∈ w → l ∈ takes c := by
  induction h with
  | seq h1 h2 ih1 ih2 =>
    intro l x hm
    rcases List.mem_append.1 hm with hm | hm
    · exact List.mem_append_left _ (ih1 hm)
    · exact List.mem_append_right _ (ih2 hm)
  | altl h ih => exact fun hm => List.mem_append_left _ (ih hm)
  | altr h ih => exact fun hm => List.mem_append_right _ (ih hm)
  | more h1 h2 ih1 ih2 =>
    intro l x hm
    rcases List.mem_append.1 hm with hm | hm
    · exact ih1 hm
    · exact ih2 hm
  | _ => intro l x hm; simp [takes] at hm ⊢ <;> simp_all

/-! ## Circles last -/

/-- Goroutines that wait for locks held by each other or by those in `idle`, whatever the way of serving readers and writers. -/
def Locked (h : Held L) (group idle : List Nat) (wants : Nat → L × Bool) : Prop :=
  ∀ t ∈ group, ∃ u ∈ group ++ idle, h.excl (wants t).1 = some u ∨ ((wants t).2 = true ∧ u ∈ h.shared (wants t).1)

theorem locked_refuses {h : Held L} {group idle : List Nat} {wants : Nat → L × Bool} (hl : Locked h group idle wants) {t : Nat} (ht : t ∈ group) :
    lockStep (F := F) h t (.acq (wants t).1 (wants t).2) = none := by
  obtain ⟨u, _, h1 | ⟨h2, h3⟩⟩ := hl t ht
  · cases (wants t).2 <;> simp [lockStep, h1]
  · rw [h2]
    simp only [lockStep]
    rw [if_neg]
    rintro ⟨_, h4⟩
    rw [h4] at h3; cases h3

theorem locked_other {h h' : Held L} {group idle : List Nat} {wants : Nat → L × Bool} (hl : Locked h group idle wants) {t : Nat} (ht : t ∉ group ++ idle) {a : Act F L} (hs : lockStep h t a = some h') :
    Locked h' group idle wants := by
  intro v hv
  obtain ⟨u, hu, hh⟩ := hl v hv
  have hne : t ≠ u := fun e => ht (e ▸ hu)
  refine ⟨u, hu, ?_⟩
  cases a with
  | rd | wr | fork | snd | rcv | atom =>
    have : h' = h := by simpa [lockStep] using hs.symm
    rw [this]; exact hh
  | acq k x =>
    cases x <;> simp only [lockStep] at hs <;> split at hs <;> cases hs
    · refine hh.imp id (And.imp_right fun hm => ?_)
      by_cases hk : (wants v).1 = k
      · simp only [hk, if_true]; exact List.mem_cons_of_mem _ (hk ▸ hm)
      · simp only [hk, if_false]; exact hm
    · rename_i hfree
      rcases hh with hh | hh
      · refine .inl ?_
        by_cases hk : (wants v).1 = k
        · rw [hk, hfree.1] at hh; cases hh
        · simp only [hk, if_false]; exact hh
      · exact .inr hh
  | rel k x =>
    cases x <;> simp only [lockStep] at hs <;> split at hs <;> cases hs
    · refine hh.imp id (And.imp_right fun hm => ?_)
      by_cases hk : (wants v).1 = k
      · simp only [hk, if_true]; exact (List.mem_erase_of_ne (Ne.symm hne)).2 (hk ▸ hm)
      · simp only [hk, if_false]; exact hm
    · rename_i hx
      rcases hh with hh | hh
      · refine .inl ?_
        by_cases hk : (wants v).1 = k
        · rw [hk, hx] at hh; exact absurd (Option.some.inj hh) hne
        · simp only [hk, if_false]; exact hh
      · exact .inr hh

/-- As long as those in `idle` do nothing, the others do nothing either, however the execution goes on. -/
theorem locked_forever {group idle : List Nat} {wants : Nat → L × Bool} {ext : Trace F L} : ∀ {h h' : Held L}, Locked h group idle wants → locks h ext = some h' →
    (∀ t ∈ group, ∀ a w, proj t ext = a :: w → a = .acq (wants t).1 (wants t).2) → (∀ t ∈ idle, proj t ext = []) → ∀ t ∈ group, proj t ext = [] := by
  induction ext with
  | nil => intros; rfl
  | cons e ext ih =>
    intro h h' hl hs hn hi t ht
    obtain ⟨u, a⟩ := e
    simp only [locks] at hs
    obtain ⟨h1, e1, e2⟩ := Option.bind_eq_some_iff.1 hs
    have hu : u ∉ group ++ idle := by
      intro hu
      rcases List.mem_append.1 hu with hu | hu
      · have : a = .acq (wants u).1 (wants u).2 := hn u hu a (proj u ext) (by simp [proj])
        rw [this, locked_refuses hl hu] at e1
        cases e1
      · have := hi u hu
        simp [proj] at this
    have hp : ∀ v ∈ group ++ idle, proj v ((u, a) :: ext) = proj v ext := by
      intro v hv
      have : u ≠ v := fun e => hu (e ▸ hv)
      simp [proj, this]
    rw [hp t (List.mem_append_left _ ht)]
    exact ih (locked_other hl hu e1) e2 (fun v hv a w e => hn v hv a w (hp v (List.mem_append_left _ hv) ▸ e)) (fun v hv => hp v (List.mem_append_right _ hv) ▸ hi v hv) t ht

end Zinx.Race
