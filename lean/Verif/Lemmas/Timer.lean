import Verif.Model.Timer

/-! # Counting timers -/

namespace Zinx.Timer

/-- Sum over the three levels. -/
def sum3 (f : Nat → Nat) : Nat := f 0 + f 1 + f 2

theorem sum3_change {f g : Nat → Nat} {k : Nat} (hk : k < 3) (h : ∀ j, j ≠ k → g j = f j) : sum3 g + f k = sum3 f + g k := by
  unfold sum3
  obtain rfl | rfl | rfl : k = 0 ∨ k = 1 ∨ k = 2 := by omega
  · rw [h 1 (by omega), h 2 (by omega)]; omega
  · rw [h 0 (by omega), h 2 (by omega)]; omega
  · rw [h 1 (by omega), h 0 (by omega)]; omega

theorem sum3_le {f : Nat → Nat} {k : Nat} (hk : k < 3) : f k ≤ sum3 f := by
  unfold sum3
  obtain rfl | rfl | rfl : k = 0 ∨ k = 1 ∨ k = 2 := by omega
  all_goals omega

theorem wset_same {α : Type} (f : Nat → α) (k : Nat) (a : α) : wset f k a k = a := by simp [wset]

theorem wset_other {α : Type} (f : Nat → α) {k i : Nat} (a : α) (h : i ≠ k) : wset f k a i = f i := by simp [wset, h]

theorem flatMap_same {f g : Nat → List Timer} (q : Timer → Bool) (n : Nat) (h : ∀ i, i < n → g i = f i) :
    ((List.range n).flatMap g).countP q = ((List.range n).flatMap f).countP q := by
  induction n with
  | zero => rfl
  | succ n ih =>
    rw [List.range_succ, List.flatMap_append, List.flatMap_append, List.countP_append, List.countP_append, ih (fun i hi => h i (by omega))]
    simp [h n (by omega)]

theorem flatMap_change {f g : Nat → List Timer} (q : Timer → Bool) (n j : Nat) (hj : j < n) (h : ∀ i, i ≠ j → g i = f i) :
    ((List.range n).flatMap g).countP q + (f j).countP q = ((List.range n).flatMap f).countP q + (g j).countP q := by
  induction n with
  | zero => omega
  | succ n ih =>
    rw [List.range_succ, List.flatMap_append, List.flatMap_append, List.countP_append, List.countP_append]
    have e1 : ∀ f : Nat → List Timer, [n].flatMap f = f n := by simp
    rw [e1, e1]
    by_cases hn : j = n
    · subst hn
      rw [flatMap_same q j (fun i hi => h i (by omega))]
      omega
    · rw [h n (by omega)]
      have := ih (by omega)
      omega

theorem set_count (w : Wheel) (k j : Nat) (l : List Timer) (q : Timer → Bool) (hj : j < scales k) :
    ((w.set j l).timers k).countP q + (w.slots j).countP q = (w.timers k).countP q + l.countP q := by
  have := flatMap_change (f := w.slots) (g := (w.set j l).slots) q (scales k) j hj (by intro i hi; simp [Wheel.set, hi])
  have e : (w.set j l).slots j = l := by simp [Wheel.set]
  rw [e] at this
  exact this

theorem slot_le (w : Wheel) (k j : Nat) (q : Timer → Bool) (hj : j < scales k) : (w.slots j).countP q ≤ (w.timers k).countP q := by
  have := set_count w k j [] q hj
  simp only [List.countP_nil] at this
  omega

theorem put_count (l : List Timer) (t : Timer) (q : Timer → Bool) (h : l.countP (fun x => x.id = t.id) = 0) :
    (put l t).countP q = l.countP q + [t].countP q := by
  unfold put
  have : l.filter (fun x => x.id ≠ t.id) = l := by
    rw [List.filter_eq_self]
    intro a ha
    rw [List.countP_eq_zero] at h
    simpa using h a ha
  rw [this, List.countP_append]

theorem store_count (w : Wheel) (k j : Nat) (t : Timer) (q : Timer → Bool) (hj : j < scales k)
    (h : (w.timers k).countP (fun x => x.id = t.id) = 0) :
    ((w.store j t).timers k).countP q = (w.timers k).countP q + [t].countP q := by
  have h1 := set_count w k j (put (w.slots j) t) q hj
  have h2 := slot_le w k j (fun x => x.id = t.id) hj
  rw [put_count _ _ _ (by omega)] at h1
  show ((w.set j (put (w.slots j) t)).timers k).countP q = _
  omega

theorem flatMap_filter (f : Nat → List Timer) (p : Timer → Bool) (is : List Nat) :
    is.flatMap (fun i => (f i).filter p) = (is.flatMap f).filter p := by
  induction is with
  | nil => rfl
  | cons i is ih => rw [List.flatMap_cons, List.flatMap_cons, List.filter_append, ih]

theorem remove_timers (w : Wheel) (k id : Nat) : (w.remove k id).timers k = (w.timers k).filter (fun x => x.id ≠ id) := by
  unfold Wheel.timers
  rw [← flatMap_filter]
  unfold List.flatMap
  congr 1
  apply List.map_congr_left
  intro i hi
  rw [List.mem_range] at hi
  simp [Wheel.remove, hi]

theorem place_lt {k cur j : Nat} {d : Int} {force : Bool} (hc : cur < scales k) (h : place k cur d force = some j) : j < scales k := by
  have hp : 0 < scales k := by omega
  unfold place at h
  by_cases h1 : d ≥ interval k
  · rw [if_pos h1] at h
    injection h with h
    rw [← h]
    exact Nat.mod_lt _ hp
  · rw [if_neg h1] at h
    by_cases h2 : k = 0
    · rw [if_pos h2] at h
      injection h with h
      rw [← h]
      by_cases h3 : force = true
      · rw [if_pos h3]; exact Nat.mod_lt _ hp
      · rw [if_neg h3]; exact hc
    · rw [if_neg h2] at h; cases h

theorem after_lt (w : Wheel) (k : Nat) : w.after k < scales k := by
  unfold Wheel.after
  apply Nat.mod_lt
  unfold scales
  split <;> omega

/-! ## The invariant -/

structure Wf (s : State) : Prop where
  cur : ∀ k, (s.wheel k).cur < scales k
  carry : ∀ i t k, (s.rot i).carry = some (t, k) → k < i ∧ i < 3
  user : ∀ t k, s.user = .adding t k → k < 3
  vis : ∀ id n, s.user = .cancelling id (n + 1) → n < 3
  idle : ∀ i, (s.rot i).phase = .idle → (s.rot i).todo = [] ∧ (s.rot i).carry = none

/-- Everything there is. -/
def occ (q : Timer → Bool) (s : State) : Nat := (s.pending ++ s.fired).countP q

def W (q : Timer → Bool) (s : State) (k : Nat) : Nat := ((s.wheel k).timers k).countP q

def R (q : Timer → Bool) (s : State) (k : Nat) : Nat := (s.rot k).timers.countP q

theorem occ_eq (q : Timer → Bool) (s : State) :
    occ q s = sum3 (W q s) + sum3 (R q s) + s.user.timers.countP q + s.fired.countP q := by
  unfold occ State.pending State.level sum3 W R
  simp only [List.countP_append]
  omega

def Uniq (s : State) : Prop := ∀ id, occ (fun x => x.id = id) s ≤ 1

/-- How a step changes the counts. -/
def Change (s : State) (l : Label) (s' : State) : Prop :=
  match l with
  | .create t => ∀ q, occ q s' = occ q s + [t].countP q
  | .visit id n => ∀ q, occ q s' + ((s.wheel n).timers n).countP (fun x => q x && decide (x.id = id)) = occ q s
  | _ => ∀ q, occ q s' = occ q s

/-- Storing a timer that was in someone's hands. -/
theorem in_hand {s : State} {t : Timer} {k : Nat} (hk : k < 3) (hu : Uniq s)
    (h : 1 ≤ sum3 (R (fun x => x.id = t.id) s) + s.user.timers.countP (fun x => x.id = t.id)) :
    ((s.wheel k).timers k).countP (fun x => x.id = t.id) = 0 := by
  have h1 := hu t.id
  rw [occ_eq] at h1
  have h2 : W (fun x => x.id = t.id) s k ≤ sum3 (W (fun x => x.id = t.id) s) := sum3_le hk
  have h3 : W (fun x => x.id = t.id) s k = ((s.wheel k).timers k).countP (fun x => x.id = t.id) := rfl
  omega

theorem occ_change (q : Timer → Bool) {s s' : State} {kw kr : Nat} (hkw : kw < 3) (hkr : kr < 3) (h1 : ∀ j, j ≠ kw → s'.wheel j = s.wheel j)
    (h2 : ∀ j, j ≠ kr → s'.rot j = s.rot j) :
    occ q s' + ((s.wheel kw).timers kw).countP q + (s.rot kr).timers.countP q + s.user.timers.countP q + s.fired.countP q =
    occ q s + ((s'.wheel kw).timers kw).countP q + (s'.rot kr).timers.countP q + s'.user.timers.countP q + s'.fired.countP q := by
  have e1 := sum3_change (f := W q s) (g := W q s') hkw (by intro j hj; unfold W; rw [h1 j hj])
  have e2 := sum3_change (f := R q s) (g := R q s') hkr (by intro j hj; unfold R; rw [h2 j hj])
  rw [occ_eq, occ_eq]
  unfold W R at *
  omega

theorem rot_timers_le {s : State} {i : Nat} (hi : i < 3) (q : Timer → Bool) : (s.rot i).timers.countP q ≤ sum3 (R q s) := sum3_le (f := R q s) hi

theorem step_change {s s' : State} {l : Label} (h : Step s l s') (hw : Wf s) (hu : Uniq s) : Change s l s' := by
  cases h with
  | create hi =>
    intro q
    rename_i due
    have := occ_change q (s := s) (s' := { s with user := .adding ⟨(s.idGen + 1) % 4294967296, due⟩ 2, idGen := (s.idGen + 1) % 4294967296 })
      (kw := 0) (kr := 0) (by omega) (by omega) (fun _ _ => rfl) (fun _ _ => rfl)
    rw [hi] at this
    simp only [User.timers, List.countP_nil] at this
    omega
  | @addStore t k j now hadd hfree hp =>
    intro q
    have hk := hw.user t k hadd
    have hz := in_hand (t := t) hk hu (by rw [hadd]; simp [User.timers])
    have hst := store_count (s.wheel k) k j t q (place_lt (hw.cur k) hp) hz
    have := occ_change q (s := s) (s' := { s with user := .idle, wheel := wset s.wheel k ((s.wheel k).store j t) }) (kw := k) (kr := 0) hk (by omega)
      (fun i hi => wset_other _ _ hi) (fun _ _ => rfl)
    rw [hadd] at this
    simp only [User.timers, List.countP_nil, wset_same] at this
    omega
  | @addDown t k now hadd hfree hp =>
    intro q
    have := occ_change q (s := s) (s' := { s with user := .adding t k }) (kw := 0) (kr := 0) (by omega) (by omega) (fun _ _ => rfl) (fun _ _ => rfl)
    rw [hadd] at this
    simp only [User.timers] at this
    omega
  | @cancel id hi =>
    intro q
    have := occ_change q (s := s) (s' := { s with user := .cancelling id 3 }) (kw := 0) (kr := 0) (by omega) (by omega) (fun _ _ => rfl) (fun _ _ => rfl)
    rw [hi] at this
    simp only [User.timers] at this
    omega
  | @visit id n hc hfree =>
    intro q
    have hn := hw.vis id n hc
    have := occ_change q (s := s) (s' := { s with user := .visited id n, wheel := wset s.wheel n ((s.wheel n).remove n id) }) (kw := n) (kr := 0) hn (by omega) (fun i hi => wset_other _ _ hi) (fun _ _ => rfl)
    simp only [wset_same, remove_timers] at this
    have e : (User.visited id n).timers = [] := by cases n <;> rfl
    rw [hc, e] at this
    have f : ((s.wheel n).timers n).countP q = (((s.wheel n).timers n).filter (fun x => x.id ≠ id)).countP q +
        ((s.wheel n).timers n).countP (fun x => q x && decide (x.id = id)) := by
      generalize (s.wheel n).timers n = l
      induction l with
      | nil => rfl
      | cons a l ih =>
        rw [List.countP_cons, List.countP_cons, ih]
        by_cases ha : a.id = id
        · rw [List.filter_cons_of_neg (by simpa using ha)]
          simp [ha]; omega
        · rw [List.filter_cons_of_pos (by simpa using ha), List.countP_cons]
          simp [ha]; omega
    simp only [User.timers] at this
    omega
  | @rotStart i hi hfree =>
    intro q
    have h0 := hw.idle i hfree.1
    have := occ_change q (s := s) (s' := { s with rot := wset s.rot i ⟨.cur, (s.wheel i).slots (s.wheel i).cur, none⟩, wheel := wset s.wheel i ((s.wheel i).set (s.wheel i).cur []) }) (kw := i) (kr := i) hi hi (fun i hi => wset_other _ _ hi)
      (fun i hi => wset_other _ _ hi)
    have hs := set_count (s.wheel i) i (s.wheel i).cur [] q (hw.cur i)
    simp only [wset_same, Rot.timers, h0.1, h0.2, Option.map_none, Option.toList_none, List.append_nil, List.countP_nil] at this hs
    omega
  | @rotStore i j a b t now hi hph htd hcr hp =>
    intro q
    have hz := in_hand (t := t) hi hu (by
      have := rot_timers_le (s := s) hi (fun x => x.id = t.id)
      unfold Rot.timers at this
      rw [htd] at this
      simp only [List.countP_append, List.countP_cons, decide_true, if_true] at this
      omega)
    have hst := store_count (s.wheel i) i j t q (place_lt (hw.cur i) hp) hz
    have := occ_change q (s := s) (s' := { s with rot := wset s.rot i ⟨(s.rot i).phase, a ++ b, none⟩, wheel := wset s.wheel i ((s.wheel i).store j t) })
      (kw := i) (kr := i) hi hi (fun i hi => wset_other _ _ hi) (fun i hi => wset_other _ _ hi)
    simp only [wset_same, Rot.timers, htd, hcr, Option.map_none, Option.toList_none, List.append_nil, List.countP_append, List.countP_cons,
      List.countP_nil] at this hst
    omega
  | @rotDown i a b t now hi hph htd hcr hp =>
    intro q
    have := occ_change q (s := s) (s' := { s with rot := wset s.rot (i + 1) ⟨(s.rot (i + 1)).phase, a ++ b, some (t, i)⟩ })
      (kw := 0) (kr := i + 1) (by omega) hi (fun _ _ => rfl) (fun i hi => wset_other _ _ hi)
    simp only [wset_same, Rot.timers, htd, hcr, Option.map_none, Option.map_some, Option.toList_none, Option.toList_some, List.append_nil,
      List.countP_append, List.countP_cons, List.countP_nil] at this
    omega
  | @carryStore i j k t now hi hcr hfree hp =>
    intro q
    have hk : k < 3 := by have := hw.carry i t k hcr; omega
    have hz := in_hand (t := t) hk hu (by
      have := rot_timers_le (s := s) hi (fun x => x.id = t.id)
      unfold Rot.timers at this
      rw [hcr] at this
      simp only [List.countP_append, Option.map_some, Option.toList_some, List.countP_cons, decide_true, if_true] at this
      omega)
    have hst := store_count (s.wheel k) k j t q (place_lt (hw.cur k) hp) hz
    have := occ_change q (s := s) (s' := { s with rot := wset s.rot i ⟨(s.rot i).phase, (s.rot i).todo, none⟩, wheel := wset s.wheel k ((s.wheel k).store j t) })
      (kw := k) (kr := i) hk hi (fun i hi => wset_other _ _ hi) (fun i hi => wset_other _ _ hi)
    simp only [wset_same, Rot.timers, hcr, Option.map_none, Option.map_some, Option.toList_none, Option.toList_some, List.append_nil,
      List.countP_append, List.countP_cons, List.countP_nil] at this hst
    omega
  | @carryDown i k t now hi hcr hfree hp =>
    intro q
    have := occ_change q (s := s) (s' := { s with rot := wset s.rot i ⟨(s.rot i).phase, (s.rot i).todo, some (t, k)⟩ }) (kw := 0) (kr := i) (by omega) hi
      (fun _ _ => rfl) (fun i hi => wset_other _ _ hi)
    simp only [wset_same, Rot.timers, hcr, Option.map_some] at this
    omega
  | @rotNext i hi hr =>
    intro q
    have := occ_change q (s := s) (s' := { s with rot := wset s.rot i ⟨.next, (s.wheel i).slots ((s.wheel i).after i), none⟩, wheel := wset s.wheel i ((s.wheel i).set ((s.wheel i).after i) []) }) (kw := i) (kr := i) hi hi (fun i hi => wset_other _ _ hi)
      (fun i hi => wset_other _ _ hi)
    have hs := set_count (s.wheel i) i ((s.wheel i).after i) [] q (after_lt _ _)
    simp only [wset_same, Rot.timers, hr, Option.map_none, Option.toList_none, List.append_nil, List.countP_nil] at this hs
    omega
  | @rotEnd i hi hr =>
    intro q
    have := occ_change q (s := s) (s' := { s with rot := wset s.rot i ⟨.idle, [], none⟩, wheel := wset s.wheel i ⟨(s.wheel i).after i, (s.wheel i).slots⟩ }) (kw := i) (kr := i) hi hi (fun i hi => wset_other _ _ hi)
      (fun i hi => wset_other _ _ hi)
    simp only [wset_same, Rot.timers, hr, Wheel.timers] at this
    omega
  | @collect now ts hfree hts =>
    intro q
    have := occ_change q (s := s) (s' := { s with fired := s.fired ++ ts, wheel := wset s.wheel 0 ((s.wheel 0).set (s.wheel 0).cur (((s.wheel 0).slots (s.wheel 0).cur).filter (fun t => ¬ t.due - now < 100))) }) (kw := 0) (kr := 0) (by omega) (by omega)
      (fun i hi => wset_other _ _ hi) (fun _ _ => rfl)
    have hs := set_count (s.wheel 0) 0 (s.wheel 0).cur (((s.wheel 0).slots (s.wheel 0).cur).filter (fun t => ¬ t.due - now < 100)) q (hw.cur 0)
    have hc := hts.countP_eq q
    have split : ∀ l : List Timer, l.countP q = (l.filter (fun t => decide (t.due - now < 100))).countP q +
        (l.filter (fun t => decide ¬ t.due - now < 100)).countP q := by
      intro l
      induction l with
      | nil => rfl
      | cons a l ih =>
        by_cases ha : a.due - now < 100
        · rw [List.filter_cons_of_pos (by simpa using ha), List.filter_cons_of_neg (by simpa using ha), List.countP_cons, List.countP_cons, ih]
          omega
        · rw [List.filter_cons_of_neg (by simpa using ha), List.filter_cons_of_pos (by simpa using ha), List.countP_cons, List.countP_cons, ih]
          omega
    have hsp := split ((s.wheel 0).slots (s.wheel 0).cur)
    simp only [wset_same, List.countP_append] at this
    omega

theorem step_wf {s s' : State} {l : Label} (h : Step s l s') (hw : Wf s) : Wf s' := by
  have hset : ∀ (k : Nat) (w : Wheel), w.cur < scales k → ∀ i, (wset s.wheel k w i).cur < scales i := by
    intro k w h i
    unfold wset
    by_cases hi : i = k
    · rw [if_pos hi, hi]; exact h
    · rw [if_neg hi]; exact hw.cur i
  have hcar : ∀ (k : Nat) (r : Rot), (∀ t j, r.carry = some (t, j) → j < k ∧ k < 3) → ∀ i t j, (wset s.rot k r i).carry = some (t, j) →
      j < i ∧ i < 3 := by
    intro k r h i t j
    unfold wset
    by_cases hi : i = k
    · rw [if_pos hi, hi]; exact h t j
    · rw [if_neg hi]; exact hw.carry i t j
  have hidl : ∀ (k : Nat) (r : Rot), (r.phase = .idle → r.todo = [] ∧ r.carry = none) → ∀ i, (wset s.rot k r i).phase = .idle →
      (wset s.rot k r i).todo = [] ∧ (wset s.rot k r i).carry = none := by
    intro k r h i
    unfold wset
    by_cases hi : i = k
    · rw [if_pos hi]; exact h
    · rw [if_neg hi]; exact hw.idle i
  cases h with
  | create hi => exact ⟨hw.cur, hw.carry, fun t k e => (by injection e; omega), fun _ _ e => (by cases e), hw.idle⟩
  | @addStore t k j now hadd hfree hp => exact ⟨hset k _ (hw.cur k), hw.carry, fun t k e => (by cases e), fun _ _ e => (by cases e), hw.idle⟩
  | @addDown t k now hadd hfree hp =>
    exact ⟨hw.cur, hw.carry, fun t' k' e => (by have := hw.user _ _ hadd; injection e; omega), fun _ _ e => (by cases e), hw.idle⟩
  | cancel hi => exact ⟨hw.cur, hw.carry, fun t k e => (by cases e), fun _ _ e => (by injection e; omega), hw.idle⟩
  | @visit id n hc hfree =>
    refine ⟨hset n _ (hw.cur n), hw.carry, fun t k e => by (cases n <;> cases e), ?_, hw.idle⟩
    intro id' n' e
    have := hw.vis id n hc
    cases n with
    | zero => cases e
    | succ m => injection e; omega
  | @rotStart i hi hfree => exact ⟨hset i _ (hw.cur i), hcar i _ (fun _ _ e => (by cases e)), hw.user, hw.vis, hidl i _ (fun e => (by cases e))⟩
  | @rotStore i j a b t now hi hph htd hcr hp =>
    exact ⟨hset i _ (hw.cur i), hcar i _ (fun t j e => (by cases e)), hw.user, hw.vis, hidl i _ (fun e => absurd e hph)⟩
  | @rotDown i a b t now hi hph htd hcr hp =>
    exact ⟨hw.cur, hcar _ _ (fun t' j e => by injection e with e; injection e; omega), hw.user, hw.vis, hidl _ _ (fun e => absurd e hph)⟩
  | @carryStore i j k t now hi hcr hfree hp =>
    exact ⟨hset k _ (hw.cur k), hcar i _ (fun t j e => (by cases e)), hw.user, hw.vis,
      hidl i _ (fun e => by have := (hw.idle i e).2; rw [hcr] at this; cases this)⟩
  | @carryDown i k t now hi hcr hfree hp =>
    exact ⟨hw.cur, hcar i _ (fun t' j e => by have := hw.carry i _ _ hcr; injection e with e; injection e; omega), hw.user, hw.vis,
      hidl i _ (fun e => by have := (hw.idle i e).2; rw [hcr] at this; cases this)⟩
  | @rotNext i hi hr => exact ⟨hset i _ (hw.cur i), hcar i _ (fun _ _ e => (by cases e)), hw.user, hw.vis, hidl i _ (fun e => (by cases e))⟩
  | @rotEnd i hi hr => exact ⟨hset i _ (after_lt _ _), hcar i _ (fun _ _ e => (by cases e)), hw.user, hw.vis, hidl i _ (fun _ => ⟨rfl, rfl⟩)⟩
  | @collect now ts hfree hts => exact ⟨hset 0 _ (hw.cur 0), hw.carry, hw.user, hw.vis, hw.idle⟩

/-! ## Histories -/

/-- Number of creations. -/
def creates (ls : List Label) : Nat := (ls.filter fun | .create _ => true | _ => false).length

theorem creates_snoc (ls : List Label) (l : Label) : creates (ls ++ [l]) = creates ls + (match l with | .create _ => 1 | _ => 0) := by
  unfold creates
  rw [List.filter_append, List.length_append]
  cases l <;> rfl

structure HInv (ls : List Label) (s : State) : Prop where
  wf : Wf s
  gen : s.idGen = creates ls
  uniq : Uniq s
  ids : ∀ id, occ (fun x => x.id = id) s ≠ 0 → 1 ≤ id ∧ id ≤ creates ls
  made : ∀ t, .create t ∈ ls → t.id ≤ creates ls ∧ 1 ≤ t.id
  kept : ∀ t, .create t ∈ ls → (∀ n, .visit t.id n ∉ ls) → occ (fun x => x = t) s = 1
  from_ : ∀ t, .create t ∉ ls → occ (fun x => x = t) s = 0

theorem occ_le {q r : Timer → Bool} (h : ∀ x, q x = true → r x = true) (s : State) : occ q s ≤ occ r s := by
  unfold occ
  apply List.countP_mono_left
  intro x _ hx
  exact h x hx

theorem hinv_init : HInv [] init := by
  have z : ∀ q, occ q init = 0 := by
    intro q
    have : init.pending ++ init.fired = [] := by decide
    unfold occ
    rw [this]; rfl
  refine ⟨⟨?_, ?_, ?_, ?_, ?_⟩, rfl, fun id => by rw [z]; omega, fun id h => absurd (z _) h, by simp, by simp, fun t _ => z _⟩
  · intro k; unfold init Wheel.empty scales; dsimp only; split <;> omega
  · intro i t k h; cases h
  · intro t k h; cases h
  · intro t k h; cases h
  · intro i _; exact ⟨rfl, rfl⟩

theorem idGen_step {s s' : State} {l : Label} (h : Step s l s') (hl : ∀ t, l ≠ .create t) : s'.idGen = s.idGen := by
  cases h <;> first | rfl | exact absurd rfl (hl _)

theorem hinv_step {ls : List Label} {s s' : State} {l : Label} (hi : HInv ls s) (h : Step s l s') (hc : creates (ls ++ [l]) < 4294967296) :
    HInv (ls ++ [l]) s' := by
  have hch := step_change h hi.wf hi.uniq
  have hwf := step_wf h hi.wf
  by_cases hcr : ∃ t, l = .create t
  · obtain ⟨t, rfl⟩ := hcr
    have ec : creates (ls ++ [Label.create t]) = creates ls + 1 := creates_snoc _ _
    have et : t.id = creates ls + 1 ∧ s'.idGen = creates ls + 1 := by
      cases h with
      | create _ =>
        have := hi.gen
        constructor <;> (dsimp only; omega)
    have fresh : occ (fun x => x.id = t.id) s = 0 := by
      by_cases hz : occ (fun x => x.id = t.id) s = 0
      · exact hz
      · have := hi.ids _ hz; omega
    have hch : ∀ q, occ q s' = occ q s + [t].countP q := hch
    refine ⟨hwf, by rw [et.2, ec], ?_, ?_, ?_, ?_, ?_⟩
    · intro id
      rw [hch]
      by_cases he : t.id = id
      · subst he
        rw [fresh]; simp
      · have := hi.uniq id
        simp [he]; exact this
    · intro id hz
      rw [hch] at hz
      by_cases he : t.id = id
      · omega
      · simp [he] at hz
        have := hi.ids id hz
        omega
    · intro x hx
      rw [List.mem_append, List.mem_singleton] at hx
      rcases hx with hx | hx
      · have := hi.made x hx; omega
      · injection hx with hx; subst hx; omega
    · intro x hx hv
      rw [hch]
      rw [List.mem_append, List.mem_singleton] at hx
      rcases hx with hx | hx
      · have h1 := hi.kept x hx (fun n hn => hv n (by simp [hn]))
        have hne : t ≠ x := by
          intro e
          have := (hi.made x hx).1
          rw [← e] at this
          omega
        rw [h1]; simp [hne]
      · injection hx with hx
        subst hx
        have := occ_le (q := fun y => y = x) (r := fun y => y.id = x.id) (by intro y hy; simp only [decide_eq_true_eq] at *; rw [hy]) s
        have h0 : occ (fun y => y = x) s = 0 := by omega
        rw [h0]; simp
    · intro x hx
      rw [List.mem_append, List.mem_singleton] at hx
      rw [hch, hi.from_ x (fun h => hx (.inl h))]
      have : t ≠ x := fun e => hx (.inr (by rw [e]))
      simp [this]
  · have hnc : ∀ t, l ≠ .create t := fun t e => hcr ⟨t, e⟩
    have ec : creates (ls ++ [l]) = creates ls := by
      rw [creates_snoc]
      cases l <;> first | rfl | exact absurd rfl (hnc _)
    have hle : ∀ q, occ q s' ≤ occ q s := by
      intro q
      unfold Change at hch
      cases l with
      | create t => exact absurd rfl (hnc t)
      | visit id n => have := hch q; omega
      | _ => exact Nat.le_of_eq (hch q)
    have hmem : ∀ t, Label.create t ∈ ls ++ [l] → Label.create t ∈ ls := by
      intro t ht
      rw [List.mem_append, List.mem_singleton] at ht
      rcases ht with ht | ht
      · exact ht
      · exact absurd ht.symm (hnc t)
    refine ⟨hwf, by rw [idGen_step h hnc, hi.gen, ec], fun id => Nat.le_trans (hle _) (hi.uniq id), ?_, ?_, ?_, ?_⟩
    · intro id hz
      rw [ec]
      exact hi.ids id (by have := hle (fun x => x.id = id); omega)
    · intro t ht
      rw [ec]
      exact hi.made t (hmem t ht)
    · intro t ht hv
      have h1 := hi.kept t (hmem t ht) (fun n hn => hv n (by simp [hn]))
      rw [← h1]
      unfold Change at hch
      cases l with
      | create t => exact absurd rfl (hnc t)
      | visit id n =>
        have hne : t.id ≠ id := fun e => hv n (by simp [e])
        have := hch (fun x => x = t)
        have z : ((s.wheel n).timers n).countP (fun x => decide (x = t) && decide (x.id = id)) = 0 := by
          rw [List.countP_eq_zero]
          intro x _ hx
          simp only [Bool.and_eq_true, decide_eq_true_eq] at hx
          exact hne (by rw [← hx.1]; exact hx.2)
        omega
      | _ => exact hch _
    · intro t ht
      have h1 := hi.from_ t (fun h => ht (by simp [h]))
      have := hle (fun x => x = t)
      omega

theorem hinv {ls : List Label} {s : State} (h : Steps Step init ls s) (hc : creates ls < 4294967296) : HInv ls s := by
  refine Steps.invariant_trace (P := fun ls s => creates ls < 4294967296 → HInv ls s) ?_ h (fun _ => hinv_init) hc
  intro ls s l t hi hs hc
  refine hinv_step (hi ?_) hs hc
  rw [creates_snoc] at hc
  omega

theorem filter_one {l : List Timer} {t : Timer} (h1 : l.countP (fun x => x.id = t.id) ≤ 1) (h2 : l.countP (fun x => x = t) = 1) :
    l.filter (fun x => x.id = t.id) = [t] := by
  have hm : t ∈ l := by
    have : 0 < l.countP (fun x => x = t) := by omega
    rw [List.countP_pos_iff] at this
    obtain ⟨a, ha, he⟩ := this
    simp only [decide_eq_true_eq] at he
    rw [← he]; exact ha
  rw [List.countP_eq_length_filter] at h1
  have hm' : t ∈ l.filter (fun x => x.id = t.id) := by simp [hm]
  match hl : l.filter (fun x => x.id = t.id) with
  | [] => rw [hl] at hm'; cases hm'
  | [a] => rw [hl] at hm'; simp at hm'; subst hm'; exact hl
  | a :: b :: r => rw [hl] at h1; simp at h1

theorem ids_nodup {l : List Timer} (h : ∀ id, l.countP (fun x => x.id = id) ≤ 1) : (l.map (·.id)).Nodup := by
  induction l with
  | nil => exact List.nodup_nil
  | cons a l ih =>
    rw [List.map_cons, List.nodup_cons]
    constructor
    · intro hm
      rw [List.mem_map] at hm
      obtain ⟨b, hb, he⟩ := hm
      have := h a.id
      rw [List.countP_cons] at this
      simp only [decide_true, if_true] at this
      have : 0 < l.countP (fun x => x.id = a.id) := by
        rw [List.countP_pos_iff]
        exact ⟨b, hb, by simpa using he⟩
      omega
    · apply ih
      intro id
      have := h id
      rw [List.countP_cons] at this
      omega

/-! ## Where timers can come from -/

theorem mem_timers {w : Wheel} {k : Nat} {x : Timer} : x ∈ w.timers k ↔ ∃ j, j < scales k ∧ x ∈ w.slots j := by
  unfold Wheel.timers
  simp [List.mem_flatMap]

theorem mem_set {w : Wheel} {k j : Nat} {l : List Timer} {x : Timer} (h : x ∈ (w.set j l).timers k) : x ∈ w.timers k ∨ x ∈ l := by
  rw [mem_timers] at h
  obtain ⟨i, hi, hx⟩ := h
  unfold Wheel.set at hx
  dsimp only at hx
  by_cases e : i = j
  · rw [if_pos e] at hx; exact .inr hx
  · rw [if_neg e] at hx; exact .inl (mem_timers.2 ⟨i, hi, hx⟩)

theorem mem_put {l : List Timer} {t x : Timer} (h : x ∈ put l t) : x ∈ l ∨ x = t := by
  unfold put at h
  rw [List.mem_append, List.mem_singleton, List.mem_filter] at h
  rcases h with h | h
  · exact .inl h.1
  · exact .inr h

theorem mem_store {w : Wheel} {k j : Nat} {t x : Timer} (hj : j < scales k) (h : x ∈ (w.store j t).timers k) : x ∈ w.timers k ∨ x = t := by
  rcases mem_set h with h | h
  · exact .inl h
  · rcases mem_put h with h | h
    · exact .inl (mem_timers.2 ⟨j, hj, h⟩)
    · exact .inr h

theorem mem_level {s : State} {k : Nat} {x : Timer} : x ∈ s.level k ↔ x ∈ (s.wheel k).timers k ∨ x ∈ (s.rot k).timers := by
  unfold State.level
  rw [List.mem_append]

/-- Timers stay at their level or go down. -/
theorem flow {s s' : State} {l : Label} (h : Step s l s') (hw : Wf s) (k : Nat) (x : Timer) (hx : x ∈ s'.level k) :
    x ∈ s.level k ∨ (∃ i, k < i ∧ i < 3 ∧ x ∈ s.level i) ∨ x ∈ s.user.timers := by
  rw [mem_level] at hx
  have wcase : ∀ (i : Nat) (w : Wheel), x ∈ (wset s.wheel i w k).timers k → (k = i → x ∈ w.timers k → x ∈ s.level k ∨ (∃ i, k < i ∧ i < 3 ∧ x ∈ s.level i) ∨ x ∈ s.user.timers) →
      x ∈ s.level k ∨ (∃ i, k < i ∧ i < 3 ∧ x ∈ s.level i) ∨ x ∈ s.user.timers := by
    intro i w hm hf
    unfold wset at hm
    by_cases e : k = i
    · rw [if_pos e] at hm; exact hf e hm
    · rw [if_neg e] at hm; exact .inl (mem_level.2 (.inl hm))
  have rcase : ∀ (i : Nat) (r : Rot), x ∈ (wset s.rot i r k).timers → (k = i → x ∈ r.timers → x ∈ s.level k) →
      x ∈ s.level k ∨ (∃ i, k < i ∧ i < 3 ∧ x ∈ s.level i) ∨ x ∈ s.user.timers := by
    intro i w hm hf
    unfold wset at hm
    by_cases e : k = i
    · rw [if_pos e] at hm; exact .inl (hf e hm)
    · rw [if_neg e] at hm; exact .inl (mem_level.2 (.inr hm))
  have rsame : x ∈ (s.rot k).timers → x ∈ s.level k ∨ (∃ i, k < i ∧ i < 3 ∧ x ∈ s.level i) ∨ x ∈ s.user.timers := fun h => .inl (mem_level.2 (.inr h))
  have wsame : x ∈ (s.wheel k).timers k → x ∈ s.level k ∨ (∃ i, k < i ∧ i < 3 ∧ x ∈ s.level i) ∨ x ∈ s.user.timers := fun h => .inl (mem_level.2 (.inl h))
  cases h with
  | create _ => exact hx.elim wsame rsame
  | addDown _ _ _ => exact hx.elim wsame rsame
  | cancel _ => exact hx.elim wsame rsame
  | @addStore t i j now hadd hfree hp =>
    refine hx.elim (fun hx => wcase _ _ hx ?_) rsame
    rintro rfl hm
    rcases mem_store (place_lt (hw.cur _) hp) hm with hm | rfl
    · exact wsame hm
    · right; right; rw [hadd]; simp [User.timers]
  | @visit id n hc hfree =>
    refine hx.elim (fun hx => wcase _ _ hx ?_) rsame
    rintro rfl hm
    rw [remove_timers, List.mem_filter] at hm
    exact wsame hm.1
  | @rotStart i hi hfree =>
    refine hx.elim (fun hx => wcase _ _ hx ?_) (fun hx => rcase _ _ hx ?_)
    · rintro rfl hm
      rcases mem_set hm with hm | hm
      · exact wsame hm
      · cases hm
    · rintro rfl hm
      simp only [Rot.timers, Option.map_none, Option.toList_none, List.append_nil] at hm
      exact mem_level.2 (.inl (mem_timers.2 ⟨_, hw.cur _, hm⟩))
  | @rotStore i j a b t now hi hph htd hcr hp =>
    have ht : ∀ y, y ∈ a ∨ y = t ∨ y ∈ b → y ∈ s.level i := by
      intro y hy
      apply mem_level.2
      right
      unfold Rot.timers
      rw [htd]
      simp only [List.mem_append, List.mem_cons]
      rcases hy with h | h | h
      · exact .inl (.inl h)
      · exact .inl (.inr (.inl h))
      · exact .inl (.inr (.inr h))
    refine hx.elim (fun hx => wcase _ _ hx ?_) (fun hx => rcase _ _ hx ?_)
    · rintro rfl hm
      rcases mem_store (place_lt (hw.cur _) hp) hm with hm | rfl
      · exact wsame hm
      · exact .inl (ht _ (.inr (.inl rfl)))
    · rintro rfl hm
      simp only [Rot.timers, Option.map_none, Option.toList_none, List.append_nil, List.mem_append] at hm
      exact ht _ (hm.elim .inl (fun h => .inr (.inr h)))
  | @rotDown i a b t now hi hph htd hcr hp =>
    refine hx.elim wsame (fun hx => rcase _ _ hx ?_)
    rintro rfl hm
    simp only [Rot.timers, Option.map_some, Option.toList_some, List.mem_append, List.mem_singleton] at hm
    apply mem_level.2
    right
    unfold Rot.timers
    rw [htd]
    simp only [List.mem_append, List.mem_cons]
    rcases hm with (h | h) | h
    · exact .inl (.inl h)
    · exact .inl (.inr (.inr h))
    · exact .inl (.inr (.inl h))
  | @carryStore i j n t now hi hcr hfree hp =>
    have hlt := hw.carry i t n hcr
    refine hx.elim (fun hx => wcase _ _ hx ?_) (fun hx => rcase _ _ hx ?_)
    · rintro rfl hm
      rcases mem_store (place_lt (hw.cur _) hp) hm with hm | rfl
      · exact wsame hm
      · right; left
        refine ⟨i, hlt.1, hlt.2, mem_level.2 (.inr ?_)⟩
        unfold Rot.timers
        rw [hcr]; simp
    · rintro rfl hm
      simp only [Rot.timers, Option.map_none, Option.toList_none, List.append_nil] at hm
      apply mem_level.2
      right
      unfold Rot.timers
      rw [List.mem_append]
      exact .inl hm
  | @carryDown i n t now hi hcr hfree hp =>
    refine hx.elim wsame (fun hx => rcase _ _ hx ?_)
    rintro rfl hm
    apply mem_level.2
    right
    unfold Rot.timers at hm ⊢
    rw [hcr]
    exact hm
  | @rotNext i hi hr =>
    refine hx.elim (fun hx => wcase _ _ hx ?_) (fun hx => rcase _ _ hx ?_)
    · rintro rfl hm
      rcases mem_set hm with hm | hm
      · exact wsame hm
      · cases hm
    · rintro rfl hm
      simp only [Rot.timers, Option.map_none, Option.toList_none, List.append_nil] at hm
      exact mem_level.2 (.inl (mem_timers.2 ⟨_, after_lt _ _, hm⟩))
  | @rotEnd i hi hr =>
    refine hx.elim (fun hx => wcase _ _ hx ?_) (fun hx => rcase _ _ hx ?_)
    · rintro rfl hm
      exact wsame hm
    · rintro rfl hm
      simp [Rot.timers] at hm
  | @collect now ts hfree hts =>
    refine hx.elim (fun hx => wcase _ _ hx ?_) rsame
    rintro rfl hm
    rcases mem_set hm with hm | hm
    · exact wsame hm
    · rw [List.mem_filter] at hm
      exact wsame (mem_timers.2 ⟨_, hw.cur _, hm.1⟩)

theorem wf_reach {ls : List Label} {s : State} (h : Steps Step init ls s) : Wf s :=
  h.invariant (P := Wf) (fun _ _ _ hw hs => step_wf hs hw) hinv_init.wf

/-- While `id` is being cancelled, it is gone from the levels already visited. -/
def Gone (s : State) : Prop := ∀ id n, s.user = .cancelling id n → ∀ k, n ≤ k → k < 3 → ∀ x ∈ s.level k, x.id ≠ id

theorem gone_step {s s' : State} {l : Label} (h : Step s l s') (hw : Wf s) (hg : Gone s) : Gone s' := by
  intro id n hu k hnk hk x hx
  -- the call was already there, and nothing but a visit changes it
  have same : s.user = .cancelling id n → x.id ≠ id := by
    intro hs
    rcases flow h hw k x hx with h1 | ⟨i, h1, h2, h3⟩ | h1
    · exact hg id n hs k hnk hk x h1
    · exact hg id n hs i (by omega) h2 x h3
    · rw [hs] at h1; cases h1
  cases h with
  | create _ => cases hu
  | addStore _ _ _ => cases hu
  | addDown _ _ _ => cases hu
  | cancel _ => injection hu; omega
  | @visit id' n' hc hfree =>
    have he : id' = id ∧ n' = n := by
      cases n' with
      | zero => cases hu
      | succ m => injection hu with h1 h2; exact ⟨h1, h2⟩
    obtain ⟨rfl, rfl⟩ := he
    rw [mem_level] at hx
    by_cases e : k = n'
    · subst e
      rcases hx with hx | hx
      · dsimp only at hx
        rw [wset_same, remove_timers, List.mem_filter] at hx
        simpa using hx.2
      · have := hw.idle k hfree.1
        unfold Rot.timers at hx
        dsimp only at hx
        rw [this.1, this.2] at hx
        cases hx
    · dsimp only at hx
      rw [wset_other _ _ e] at hx
      exact hg id' (n' + 1) hc k (by omega) hk x (mem_level.2 hx)
  | rotStart _ _ => exact same hu
  | rotStore _ _ _ _ _ => exact same hu
  | rotDown _ _ _ _ _ => exact same hu
  | carryStore _ _ _ _ => exact same hu
  | carryDown _ _ _ _ => exact same hu
  | rotNext _ _ => exact same hu
  | rotEnd _ _ => exact same hu
  | collect _ _ => exact same hu

/-- `id` is nowhere. -/
def Away (id : Nat) (s : State) : Prop := (∀ k, k < 3 → ∀ x ∈ s.level k, x.id ≠ id) ∧ ∀ x ∈ s.user.timers, x.id ≠ id

theorem away_step {s s' : State} {l : Label} (h : Step s l s') (hw : Wf s) {id : Nat} (ha : Away id s) (hl : ∀ t, l = .create t → t.id ≠ id) :
    Away id s' := by
  constructor
  · intro k hk x hx
    rcases flow h hw k x hx with h1 | ⟨i, h1, h2, h3⟩ | h1
    · exact ha.1 k hk x h1
    · exact ha.1 i h2 x h3
    · exact ha.2 x h1
  · intro x hx
    cases h with
    | create _ =>
      simp only [User.timers, List.mem_singleton] at hx
      rw [hx]; exact hl _ rfl
    | addStore _ _ _ => cases hx
    | addDown hadd _ _ => exact ha.2 x (by rw [hadd]; exact hx)
    | cancel _ => cases hx
    | @visit id' n hc hfree => cases n <;> cases hx
    | rotStart _ _ => exact ha.2 x hx
    | rotStore _ _ _ _ _ => exact ha.2 x hx
    | rotDown _ _ _ _ _ => exact ha.2 x hx
    | carryStore _ _ _ _ => exact ha.2 x hx
    | carryDown _ _ _ _ => exact ha.2 x hx
    | rotNext _ _ => exact ha.2 x hx
    | rotEnd _ _ => exact ha.2 x hx
    | collect _ _ => exact ha.2 x hx

theorem collected_from {s s' : State} {now : Int} {ts : List Timer} (h : Step s (.collect now ts) s') (hw : Wf s) :
    (∀ t ∈ ts, t ∈ s.level 0 ∧ t.due - now < 100) ∧ s'.fired = s.fired ++ ts := by
  cases h with
  | collect hfree hts =>
    refine ⟨?_, rfl⟩
    intro t ht
    have := hts.mem_iff.1 ht
    rw [List.mem_filter] at this
    exact ⟨mem_level.2 (.inl (mem_timers.2 ⟨_, hw.cur _, this.1⟩)), by simpa using this.2⟩

end Zinx.Timer
