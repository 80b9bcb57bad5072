import Verif.Lemmas.Timer

/-! # Punctual ticks -/

namespace Zinx.Timer

/-- How many slots ahead of the pointer a slot is. -/
def dist (k cur j : Nat) : Nat := if cur ≤ j then j - cur else j + scales k - cur

theorem scales_ge (k : Nat) : 12 ≤ scales k := by unfold scales; split <;> omega

theorem interval_pos (k : Nat) : 0 < interval k := by unfold interval; split <;> omega

theorem dist_add {k cur : Nat} (hc : cur < scales k) (n : Nat) : dist k cur ((cur + n) % scales k) = n % scales k := by
  rw [← Nat.add_mod_mod]
  have hm : n % scales k < scales k := Nat.mod_lt _ (by omega)
  unfold dist
  by_cases h : cur + n % scales k < scales k
  · rw [Nat.mod_eq_of_lt h, if_pos (by omega)]; omega
  · rw [Nat.mod_eq_sub_mod (by omega), Nat.mod_eq_of_lt (by omega), if_neg (by omega)]; omega

theorem dist_self (k cur : Nat) : dist k cur cur = 0 := by unfold dist; rw [if_pos (Nat.le_refl _)]; omega

theorem dist_zero {k cur j : Nat} (hc : cur < scales k) (h : dist k cur j = 0) : j = cur := by
  unfold dist at h; split at h <;> omega

theorem dist_succ {k cur j : Nat} (hc : cur < scales k) (hj : j < scales k) :
    dist k ((cur + 1) % scales k) j = if dist k cur j = 0 then scales k - 1 else dist k cur j - 1 := by
  by_cases h : cur + 1 = scales k
  · rw [h, Nat.mod_self]
    unfold dist
    rw [if_pos (Nat.zero_le _)]
    by_cases h2 : cur ≤ j
    · rw [if_pos h2, if_pos (by omega)]; omega
    · rw [if_neg h2, if_neg (by omega)]; omega
  · rw [Nat.mod_eq_of_lt (by omega)]
    unfold dist
    by_cases h2 : cur + 1 ≤ j
    · have h3 : cur ≤ j := by omega
      rw [if_pos h2, if_pos h3, if_neg (by omega)]; omega
    · rw [if_neg h2]
      by_cases h3 : cur ≤ j
      · rw [if_pos h3, if_pos (by omega)]; omega
      · rw [if_neg h3, if_neg (by omega)]; omega

/-- Bounds on the due times in a wheel, depending on the distance from the pointer. -/
def Lev (w : Wheel) (k : Nat) (C : Nat → Int → Prop) : Prop := ∀ j, j < scales k → ∀ x ∈ w.slots j, C (dist k w.cur j) x.due

/-- The bound between ticks, the next one being at `T`. -/
def Ok (k : Nat) (T : Int) (m : Nat) (due : Int) : Prop := (k = 0 ∧ m = 0) ∨ T + ((m - 1 : Nat) : Int) * interval k ≤ due

theorem lev_store {w : Wheel} {k j : Nat} {C : Nat → Int → Prop} {t : Timer} (h : Lev w k C) (ht : C (dist k w.cur j) t.due) :
    Lev (w.store j t) k C := by
  intro i hi x hx
  unfold Wheel.store Wheel.set at hx
  dsimp only at hx
  by_cases e : i = j
  · rw [if_pos e] at hx
    rcases mem_put hx with hx | hx
    · exact h i hi x (by rw [e]; exact hx)
    · subst hx; rw [e]; exact ht
  · rw [if_neg e] at hx
    exact h i hi x hx

theorem lev_set {w : Wheel} {k j : Nat} {C : Nat → Int → Prop} (h : ∀ i, i < scales k → i ≠ j → ∀ x ∈ w.slots i, C (dist k w.cur i) x.due) :
    Lev (w.set j []) k C := by
  intro i hi x hx
  unfold Wheel.set at hx
  dsimp only at hx
  by_cases e : i = j
  · rw [if_pos e] at hx; cases hx
  · rw [if_neg e] at hx
    exact h i hi e x hx

/-- What a timer must satisfy to be added with bound `C`. -/
def Accepts (k : Nat) (now : Int) (C : Nat → Int → Prop) (force : Bool) (due : Int) : Prop :=
  (∀ dn : Nat, 1 ≤ dn → now + dn * interval k ≤ due → C (dn % scales k) due) ∧
  (k = 0 → due - now < interval k → C (if force then 1 else 0) due)

/-- Wheels in the course of adding at level `k`. -/
structure Mid (next : Nat → Int) (ws0 : Nat → Wheel) (k : Nat) (C : Nat → Int → Prop) (ws : Nat → Wheel) : Prop where
  low : ∀ i, i < k → Lev (ws i) i (Ok i (next i))
  at_ : Lev (ws k) k C
  cur : ∀ i, (ws i).cur = (ws0 i).cur
  high : ∀ i, k < i → ws i = ws0 i

theorem place_spec {k cur : Nat} {d : Int} {force : Bool} (hc : cur < scales k) :
    match place k cur d force with
    | some j => (∃ dn : Nat, 1 ≤ dn ∧ dn * interval k ≤ d ∧ j < scales k ∧ dist k cur j = dn % scales k) ∨
        (k = 0 ∧ d < interval k ∧ dist k cur j = if force then 1 else 0)
    | none => k ≠ 0 := by
  have hI := interval_pos k
  have hS := scales_ge k
  unfold place
  by_cases h : d ≥ interval k
  · rw [if_pos h]
    left
    have hd : 1 ≤ d / interval k := by
      have := Int.ediv_le_ediv hI h
      rw [Int.ediv_self (by omega)] at this
      exact this
    refine ⟨(d / interval k).toNat, by omega, ?_, Nat.mod_lt _ (by omega), dist_add hc _⟩
    rw [Int.toNat_of_nonneg (by omega)]
    exact Int.ediv_mul_le d (by omega)
  · rw [if_neg h]
    by_cases hk : k = 0
    · rw [if_pos hk]
      right
      refine ⟨hk, by omega, ?_⟩
      cases force with
      | false => rw [if_neg (by decide), if_neg (by decide)]; exact dist_self _ _
      | true =>
        rw [if_pos rfl, if_pos rfl, dist_add hc]
        exact Nat.mod_eq_of_lt (by omega)
    · rw [if_neg hk]
      exact hk

theorem ok_accepts {k : Nat} {now T due : Int} (h : T ≤ now + interval k) : Accepts k now (Ok k T) false due := by
  have hI := interval_pos k
  constructor
  · intro dn h1 h2
    right
    have hm : dn % scales k ≤ dn := Nat.mod_le _ _
    have h3 : ((dn % scales k - 1 : Nat) : Int) * interval k ≤ ((dn - 1 : Nat) : Int) * interval k :=
      Int.mul_le_mul_of_nonneg_right (by omega) (by omega)
    have h4 : ((dn - 1 : Nat) : Int) * interval k = dn * interval k - interval k := by
      have : ((dn - 1 : Nat) : Int) = dn - 1 := by omega
      rw [this, Int.sub_mul]; omega
    omega
  · intro hk _
    exact .inl ⟨hk, rfl⟩

theorem addAt_mid {next : Nat → Int} {now : Int} :
    ∀ (k : Nat) {ws0 : Nat → Wheel} (_ : ∀ i, (ws0 i).cur < scales i) {C : Nat → Int → Prop} {ws : Nat → Wheel} (t : Timer) (force : Bool), (∀ i, i < k → next i ≤ now + interval i) →
    Mid next ws0 k C ws → Accepts k now C force t.due → Mid next ws0 k C (addAt ws now t force k) := by
  intro k
  induction k with
  | zero =>
    intro ws0 hcur C ws t force hn hm ha
    have hc : (ws 0).cur < scales 0 := by rw [hm.cur]; exact hcur 0
    have hp := place_spec (d := t.due - now) (force := force) hc
    unfold addAt
    split
    · rename_i j e
      rw [e] at hp
      refine ⟨fun i hi => absurd hi (by omega), ?_, ?_, ?_⟩
      · rw [wset_same]
        apply lev_store hm.at_
        rcases hp with ⟨dn, h1, h2, _, h4⟩ | ⟨h1, h2, h3⟩
        · rw [h4]; exact ha.1 dn h1 (by omega)
        · rw [h3]; exact ha.2 h1 h2
      · intro i
        unfold wset
        by_cases e : i = 0
        · rw [if_pos e, e]; exact hm.cur 0
        · rw [if_neg e]; exact hm.cur i
      · intro i hi
        rw [wset_other _ _ (by omega)]
        exact hm.high i hi
    · exact hm
  | succ k ih =>
    intro ws0 hcur C ws t force hn hm ha
    have hc : (ws (k + 1)).cur < scales (k + 1) := by rw [hm.cur]; exact hcur (k + 1)
    have hp := place_spec (d := t.due - now) (force := force) hc
    unfold addAt
    split
    · rename_i j e
      rw [e] at hp
      refine ⟨?_, ?_, ?_, ?_⟩
      · intro i hi
        rw [wset_other _ _ (by omega)]
        exact hm.low i hi
      · rw [wset_same]
        apply lev_store hm.at_
        rcases hp with ⟨dn, h1, h2, _, h4⟩ | ⟨h1, h2, h3⟩
        · rw [h4]; exact ha.1 dn h1 (by omega)
        · rw [h3]; exact ha.2 h1 h2
      · intro i
        unfold wset
        by_cases e : i = k + 1
        · rw [if_pos e, e]; exact hm.cur (k + 1)
        · rw [if_neg e]; exact hm.cur i
      · intro i hi
        rw [wset_other _ _ (by omega)]
        exact hm.high i hi
    · have hmk : Mid next (fun i => if i = k + 1 then ws (k + 1) else ws0 i) k (Ok k (next k)) ws := by
        refine ⟨fun i hi => hm.low i (by omega), hm.low k (by omega), ?_, ?_⟩
        · intro i
          show (ws i).cur = (if i = k + 1 then ws (k + 1) else ws0 i).cur
          by_cases e : i = k + 1
          · rw [if_pos e, e]
          · rw [if_neg e]; exact hm.cur i
        · intro i hi
          show ws i = (if i = k + 1 then ws (k + 1) else ws0 i)
          by_cases e : i = k + 1
          · rw [if_pos e, e]
          · rw [if_neg e]; exact hm.high i (by omega)
      have hr := ih (ws0 := fun i => if i = k + 1 then ws (k + 1) else ws0 i) (by
        intro i
        show (if i = k + 1 then ws (k + 1) else ws0 i).cur < _
        by_cases e : i = k + 1
        · rw [if_pos e, e]; exact hc
        · rw [if_neg e]; exact hcur i) t false (fun i hi => hn i (by omega)) hmk (ok_accepts (hn k (by omega)))
      show Mid next ws0 (k + 1) C (addAt ws now t false k)
      refine ⟨?_, ?_, ?_, ?_⟩
      · intro i hi
        by_cases e : i = k
        · rw [e]; exact hr.at_
        · exact hr.low i (by omega)
      · have := hr.high (k + 1) (by omega)
        rw [if_pos rfl] at this
        rw [this]; exact hm.at_
      · intro i
        have := hr.cur i
        rw [this]
        by_cases e : i = k + 1
        · rw [if_pos e, e]; exact hm.cur _
        · rw [if_neg e]
      · intro i hi
        have := hr.high i (by omega)
        rw [if_neg (by omega)] at this
        exact this

theorem addAll_mid {next : Nat → Int} {now : Int} {k : Nat} {ws0 : Nat → Wheel} (hcur : ∀ i, (ws0 i).cur < scales i) {C : Nat → Int → Prop}
    (hn : ∀ i, i < k → next i ≤ now + interval i) (ts : List Timer) : ∀ {ws : Nat → Wheel}, (∀ t ∈ ts, Accepts k now C true t.due) →
    Mid next ws0 k C ws → Mid next ws0 k C (addAll ws now k ts) := by
  induction ts with
  | nil => intro ws _ hm; exact hm
  | cons t ts ih =>
    intro ws ha hm
    exact ih (fun x hx => ha x (List.mem_cons_of_mem _ hx)) (addAt_mid k hcur t true hn hm (ha t List.mem_cons_self))

/-- Bound during the first loop of a tick at `now`. -/
def B1 (k : Nat) (now : Int) (m : Nat) (due : Int) : Prop :=
  (m = 0 → now + scales k * interval k ≤ due) ∧ (m = 1 → k = 0 ∨ now ≤ due) ∧ (2 ≤ m → now + ((m - 1 : Nat) : Int) * interval k ≤ due)

/-- Bound during the second loop. -/
def B2 (k : Nat) (now : Int) (m : Nat) (due : Int) : Prop :=
  (m = 0 → now + scales k * interval k ≤ due) ∧ (m = 1 → k = 0 ∨ now + interval k ≤ due) ∧ (2 ≤ m → now + ((m - 1 : Nat) : Int) * interval k ≤ due)

theorem b2_b1 {k : Nat} {now due : Int} {m : Nat} (h : B2 k now m due) : B1 k now m due := by
  have := interval_pos k
  refine ⟨h.1, fun e => (h.2.1 e).elim .inl (fun h => .inr (by omega)), h.2.2⟩

theorem b2_accepts {k : Nat} {now due : Int} : Accepts k now (B2 k now) true due := by
  have hI := interval_pos k
  have hS := scales_ge k
  constructor
  · intro dn h1 h2
    refine ⟨?_, ?_, ?_⟩
    · intro h
      have h3 : scales k ≤ dn := Nat.le_of_dvd (by omega) (Nat.dvd_of_mod_eq_zero h)
      have h4 : (scales k : Int) * interval k ≤ (dn : Int) * interval k := Int.mul_le_mul_of_nonneg_right (by omega) (by omega)
      omega
    · intro _
      right
      have h4 : (1 : Int) * interval k ≤ (dn : Int) * interval k := Int.mul_le_mul_of_nonneg_right (by omega) (by omega)
      omega
    · intro _
      have hm : dn % scales k ≤ dn := Nat.mod_le _ _
      have h4 : ((dn % scales k - 1 : Nat) : Int) * interval k ≤ (dn : Int) * interval k := Int.mul_le_mul_of_nonneg_right (by omega) (by omega)
      omega
  · intro hk _
    rw [if_pos rfl]
    exact ⟨fun h => by omega, fun _ => .inl hk, fun h => by omega⟩

theorem tick_spec {o : List Timer → List Timer} {ws : Nat → Wheel} {now : Int} {k : Nat} {next : Nat → Int}
    (hcur : ∀ i, (ws i).cur < scales i) (hlow : ∀ i, i < k → Lev (ws i) i (Ok i (next i))) (hat : Lev (ws k) k (Ok k now))
    (hn : ∀ i, i < k → next i ≤ now + interval i) :
    (∀ i, i < k → Lev (tick o ws now k i) i (Ok i (next i))) ∧ Lev (tick o ws now k k) k (Ok k (now + interval k)) ∧
    (∀ i, (tick o ws now k i).cur < scales i) ∧ (∀ i, k < i → tick o ws now k i = ws i) := by
  have hI := interval_pos k
  have hS := scales_ge k
  -- first loop
  have m0 : Mid next ws k (B1 k now) (wset ws k ((ws k).set (ws k).cur [])) := by
    refine ⟨?_, ?_, ?_, ?_⟩
    · intro i hi; rw [wset_other _ _ (by omega)]; exact hlow i hi
    · rw [wset_same]
      apply lev_set
      intro i hi hne x hx
      have h := hat i hi x hx
      have hd : dist k (ws k).cur i ≠ 0 := fun e => hne (dist_zero (hcur k) e)
      refine ⟨fun e => absurd e hd, ?_, ?_⟩
      · intro e
        rw [e] at h
        rcases h with h | h
        · omega
        · right; simp at h; exact h
      · intro e
        rcases h with h | h
        · omega
        · exact h
    · intro i
      unfold wset
      by_cases e : i = k
      · rw [if_pos e, e]; rfl
      · rw [if_neg e]
    · intro i hi; rw [wset_other _ _ (by omega)]
  have m1 := addAll_mid (k := k) hcur hn (o ((ws k).slots (ws k).cur)) (fun t _ => ⟨fun dn h1 h2 => b2_b1 (b2_accepts.1 dn h1 h2), fun h1 h2 => b2_b1 (b2_accepts.2 h1 h2)⟩) m0
  unfold tick
  generalize hw1 : addAll (wset ws k ((ws k).set (ws k).cur [])) now k (o ((ws k).slots (ws k).cur)) = ws1 at *
  have hc1 : ∀ i, (ws1 i).cur < scales i := fun i => by rw [m1.cur]; exact hcur i
  have hd1 : dist k (ws1 k).cur ((ws1 k).after k) = 1 := by
    unfold Wheel.after
    rw [dist_add (hc1 k)]
    exact Nat.mod_eq_of_lt (by omega)
  -- second loop
  have m2 : Mid next ws1 k (B2 k now) (wset ws1 k ((ws1 k).set ((ws1 k).after k) [])) := by
    refine ⟨?_, ?_, ?_, ?_⟩
    · intro i hi; rw [wset_other _ _ (by omega)]; exact m1.low i hi
    · rw [wset_same]
      apply lev_set
      intro i hi hne x hx
      have h := m1.at_ i hi x hx
      refine ⟨h.1, ?_, h.2.2⟩
      intro e
      exfalso
      apply hne
      unfold dist at e hd1
      have := after_lt (ws1 k) k
      have := hc1 k
      split at e <;> split at hd1 <;> omega
    · intro i
      unfold wset
      by_cases e : i = k
      · rw [if_pos e, e]; rfl
      · rw [if_neg e]
    · intro i hi; rw [wset_other _ _ (by omega)]
  have m3 := addAll_mid (k := k) hc1 hn (o ((ws1 k).slots ((ws1 k).after k))) (fun t _ => b2_accepts) m2
  dsimp only
  generalize addAll (wset ws1 k ((ws1 k).set ((ws1 k).after k) [])) now k (o ((ws1 k).slots ((ws1 k).after k))) = ws2 at *
  refine ⟨?_, ?_, ?_, ?_⟩
  · intro i hi; rw [wset_other _ _ (by omega)]; exact m3.low i hi
  · rw [wset_same]
    intro j hj x hx
    have h := m3.at_ j hj x hx
    rw [m3.cur k] at h
    have hds := dist_succ (hc1 k) hj
    show Ok k (now + interval k) (dist k ((ws1 k).after k) j) x.due
    unfold Wheel.after
    rw [hds]
    by_cases e : dist k (ws1 k).cur j = 0
    · rw [if_pos e]
      right
      have h1 := h.1 e
      have e1 : ((scales k - 1 - 1 : Nat) : Int) = (scales k : Int) - 2 := by omega
      rw [e1, Int.sub_mul]
      omega
    · rw [if_neg e]
      by_cases e1 : dist k (ws1 k).cur j = 1
      · rw [e1]
        rcases h.2.1 e1 with h | h
        · exact .inl ⟨h, rfl⟩
        · right; simp; exact h
      · right
        have h1 := h.2.2 (by omega)
        obtain ⟨n, hn⟩ : ∃ n, dist k (ws1 k).cur j = n + 2 := ⟨dist k (ws1 k).cur j - 2, by omega⟩
        rw [hn] at h1 ⊢
        have e2 : ((n + 2 - 1 : Nat) : Int) = n + 1 := by omega
        have e3 : ((n + 2 - 1 - 1 : Nat) : Int) = n := by omega
        rw [e2, Int.add_mul] at h1
        rw [e3]
        omega
  · intro i
    unfold wset
    by_cases e : i = k
    · rw [if_pos e, e]; exact after_lt _ _
    · rw [if_neg e, m3.cur]; exact hc1 i
  · intro i hi
    rw [wset_other _ _ (by omega), m3.high i hi, m1.high i hi]

structure TInv (s : Timed) : Prop where
  cur : ∀ i, (s.wheel i).cur < scales i
  lo : ∀ k, k < 3 → s.now ≤ s.next k
  hi : ∀ k, k < 3 → s.next k ≤ s.now + interval k
  lev : ∀ k, k < 3 → Lev (s.wheel k) k (Ok k (s.next k))

theorem tinv_start {s : Timed} (h : s.start) : TInv s := by
  refine ⟨?_, fun k hk => (h.2.2.2 k hk).1, fun k hk => (h.2.2.2 k hk).2, ?_⟩
  · intro i; rw [h.1]; have := scales_ge i; show 0 < scales i; omega
  · intro k hk j hj x hx; rw [h.1] at hx; cases hx

theorem tinv_step {s s' : Timed} {l : TLabel} (h : TStep s l s') (hi : TInv s) : TInv s' := by
  cases h with
  | pass hd hp => exact ⟨hi.cur, hp, fun k hk => by have := hi.hi k hk; dsimp only; omega, hi.lev⟩
  | @tick k o hk hT ho =>
    have hspec := tick_spec (o := o) (k := k) (now := s.now) (next := s.next) hi.cur (fun i hik => hi.lev i (by omega)) (by rw [hT]; exact hi.lev k hk) (fun i hik => hi.hi i (by omega))
    obtain ⟨h1, h2, h3, h4⟩ := hspec
    have hI := interval_pos k
    refine ⟨h3, ?_, ?_, ?_⟩
    · intro i hi3
      dsimp only
      by_cases e : i = k
      · rw [e, wset_same]; omega
      · rw [wset_other _ _ e]; exact hi.lo i hi3
    · intro i hi3
      dsimp only
      by_cases e : i = k
      · rw [e, wset_same]; omega
      · rw [wset_other _ _ e]; exact hi.hi i hi3
    · intro i hi3
      dsimp only
      by_cases e : i = k
      · rw [e, wset_same, ← hT]; exact h2
      · rw [wset_other _ _ e]
        by_cases e2 : i < k
        · exact h1 i e2
        · rw [h4 i (by omega)]; exact hi.lev i hi3
  | @create due =>
    have := addAt_mid 2 (next := s.next) (now := s.now) hi.cur (C := Ok 2 (s.next 2)) (ws := s.wheel) ⟨(s.idGen + 1) % 4294967296, due⟩ false (fun i hik => hi.hi i (by omega))
      ⟨fun i hik => hi.lev i (by omega), hi.lev 2 (by omega), fun _ => rfl, fun _ _ => rfl⟩ (ok_accepts (hi.hi 2 (by omega)))
    refine ⟨fun i => by dsimp only; rw [this.cur]; exact hi.cur i, hi.lo, hi.hi, ?_⟩
    intro k hk
    by_cases e : k = 2
    · rw [e]; exact this.at_
    · exact this.low k (by omega)
  | @cancel id =>
    refine ⟨?_, hi.lo, hi.hi, ?_⟩
    · intro i
      dsimp only
      split
      · exact hi.cur i
      · exact hi.cur i
    · intro k hk j hj x hx
      dsimp only at hx ⊢
      rw [if_pos hk] at hx ⊢
      unfold Wheel.remove at hx ⊢
      dsimp only at hx ⊢
      rw [if_pos hj, List.mem_filter] at hx
      exact hi.lev k hk j hj x hx.1
  | collect =>
    refine ⟨?_, hi.lo, hi.hi, ?_⟩
    · intro i
      dsimp only
      by_cases e : i = 0
      · rw [e, wset_same]; exact hi.cur 0
      · rw [wset_other _ _ e]; exact hi.cur i
    · intro k hk j hj x hx
      dsimp only at hx ⊢
      by_cases e : k = 0
      · subst e
        rw [wset_same] at hx ⊢
        show Ok 0 (s.next 0) (dist 0 (s.wheel 0).cur j) x.due
        apply hi.lev 0 hk j hj x
        unfold Wheel.set at hx
        dsimp only at hx
        by_cases e2 : j = (s.wheel 0).cur
        · rw [if_pos e2, List.mem_filter] at hx
          rw [e2]; exact hx.1
        · rw [if_neg e2] at hx; exact hx
      · rw [wset_other _ _ e] at hx ⊢
        exact hi.lev k hk j hj x hx

/-! ## Punctual executions are executions -/

theorem wset_wset {α : Type} (f : Nat → α) (k : Nat) (a b : α) : wset (wset f k a) k b = wset f k b := by
  funext i; unfold wset; by_cases h : i = k <;> simp [h]

/-- Only goroutine `i` is at work. -/
def Alone (s : State) (i : Nat) : Prop := s.user = .idle ∧ ∀ j, j ≠ i → (s.rot j).phase = .idle ∧ (s.rot j).carry = none

theorem alone_free {s : State} {i k : Nat} (h : Alone s i) (hk : k ≠ i) (hc : passes k (s.rot i).carry) : s.free k := by
  refine ⟨(h.2 k hk).1, ?_, ?_⟩
  · intro j _
    by_cases e : j = i
    · rw [e]; exact hc
    · rw [(h.2 j e).2]; trivial
  · intro t j e; rw [h.1] at e; cases e

theorem alone_wset {s : State} {i : Nat} (h : Alone s i) (r : Rot) (w : Nat → Wheel) :
    Alone { s with rot := wset s.rot i r, wheel := w } i := by
  refine ⟨h.1, ?_⟩
  intro j hj
  dsimp only
  rw [wset_other _ _ hj]
  exact h.2 j hj

theorem carry_steps (now : Int) (t : Timer) {i : Nat} (hi : i < 3) {ph : Phase} {l : List Timer} : ∀ (k : Nat), k < i → ∀ (s : State),
    Alone s i → s.rot i = ⟨ph, l, some (t, k)⟩ →
    ∃ ls, (∀ x ∈ ls, x = Label.rotate i) ∧
      Steps Step s ls { s with rot := wset s.rot i ⟨ph, l, none⟩, wheel := addAt s.wheel now t false k } := by
  intro k
  induction k with
  | zero =>
    intro hk s ha hr
    have hc : (s.rot i).carry = some (t, 0) := by rw [hr]
    have hf : s.free 0 := alone_free ha (by omega) (by rw [hc]; exact Nat.le_refl _)
    match hp : place 0 (s.wheel 0).cur (t.due - now) false with
    | none => unfold place at hp; split at hp <;> simp at hp
    | some j =>
      refine ⟨[.rotate i], by simp, .cons (.carryStore hi hc hf hp) ?_⟩
      have e : addAt s.wheel now t false 0 = wset s.wheel 0 ((s.wheel 0).store j t) := by unfold addAt; rw [hp]
      rw [e, hr]
      exact .nil _
  | succ k ih =>
    intro hk s ha hr
    have hc : (s.rot i).carry = some (t, k + 1) := by rw [hr]
    have hf : s.free (k + 1) := alone_free ha (by omega) (by rw [hc]; exact Nat.le_refl _)
    match hp : place (k + 1) (s.wheel (k + 1)).cur (t.due - now) false with
    | none =>
      have e : addAt s.wheel now t false (k + 1) = addAt s.wheel now t false k := by
        rw [addAt, hp]
      obtain ⟨ls, h1, h2⟩ := ih (by omega) { s with rot := wset s.rot i ⟨(s.rot i).phase, (s.rot i).todo, some (t, k)⟩ } (alone_wset ha _ _)
        (by dsimp only; rw [wset_same, hr])
      refine ⟨.rotate i :: ls, by simpa using h1, .cons (.carryDown hi hc hf hp) ?_⟩
      rw [e]
      dsimp only at h2
      rw [wset_wset] at h2
      exact h2
    | some j =>
      refine ⟨[.rotate i], by simp, .cons (.carryStore hi hc hf hp) ?_⟩
      have e : addAt s.wheel now t false (k + 1) = wset s.wheel (k + 1) ((s.wheel (k + 1)).store j t) := by rw [addAt, hp]
      rw [e, hr]
      exact .nil _

theorem add_steps (now : Int) (t : Timer) {i : Nat} (hi : i < 3) {ph : Phase} (hph : ph ≠ .idle) {a b : List Timer} (s : State)
    (ha : Alone s i) (hr : s.rot i = ⟨ph, a ++ t :: b, none⟩) :
    ∃ ls, (∀ x ∈ ls, x = Label.rotate i) ∧
      Steps Step s ls { s with rot := wset s.rot i ⟨ph, a ++ b, none⟩, wheel := addAt s.wheel now t true i } := by
  have h1 : (s.rot i).phase ≠ .idle := by rw [hr]; exact hph
  have h2 : (s.rot i).todo = a ++ t :: b := by rw [hr]
  have h3 : (s.rot i).carry = none := by rw [hr]
  match hp : place i (s.wheel i).cur (t.due - now) true with
  | some j =>
    refine ⟨[.rotate i], by simp, .cons (.rotStore hi h1 h2 h3 hp) ?_⟩
    have e : addAt s.wheel now t true i = wset s.wheel i ((s.wheel i).store j t) := by rw [addAt.eq_def, hp]
    rw [e, hr]
    exact .nil _
  | none =>
    match i, hi, ha, hr, h1, h2, h3, hp with
    | 0, hi, ha, hr, h1, h2, h3, hp => unfold place at hp; split at hp <;> simp at hp
    | i + 1, hi, ha, hr, h1, h2, h3, hp =>
      have e : addAt s.wheel now t true (i + 1) = addAt s.wheel now t false i := by rw [addAt, hp]
      obtain ⟨ls, g1, g2⟩ := carry_steps now t hi (ph := ph) (l := a ++ b) i (by omega)
        { s with rot := wset s.rot (i + 1) ⟨(s.rot (i + 1)).phase, a ++ b, some (t, i)⟩ } (alone_wset ha _ _) (by dsimp only; rw [wset_same, hr])
      refine ⟨.rotate (i + 1) :: ls, by simpa using g1, .cons (.rotDown hi h1 h2 h3 hp) ?_⟩
      rw [e]
      dsimp only at g2
      rw [wset_wset] at g2
      exact g2

theorem addAll_steps (now : Int) {i : Nat} (hi : i < 3) {ph : Phase} (hph : ph ≠ .idle) (ts : List Timer) : ∀ (l : List Timer) (s : State), ts.Perm l →
    Alone s i → s.rot i = ⟨ph, l, none⟩ →
    ∃ ls, (∀ x ∈ ls, x = Label.rotate i) ∧
      Steps Step s ls { s with rot := wset s.rot i ⟨ph, [], none⟩, wheel := addAll s.wheel now i ts } := by
  induction ts with
  | nil =>
    intro l s hp ha hr
    have := hp.nil_eq
    subst this
    refine ⟨[], by simp, ?_⟩
    have e : wset s.rot i ⟨ph, [], none⟩ = s.rot := by
      funext j; unfold wset; by_cases h : j = i
      · rw [if_pos h, h, hr]
      · rw [if_neg h]
    rw [e]
    exact .nil _
  | cons t ts ih =>
    intro l s hp ha hr
    have hm : t ∈ l := hp.mem_iff.1 List.mem_cons_self
    obtain ⟨a, b, rfl⟩ := List.append_of_mem hm
    have hp' : ts.Perm (a ++ b) := List.Perm.cons_inv (hp.trans List.perm_middle)
    obtain ⟨l1, g1, g2⟩ := add_steps now t hi hph s ha hr
    obtain ⟨l2, g3, g4⟩ := ih (a ++ b) _ hp' (alone_wset ha ⟨ph, a ++ b, none⟩ (addAt s.wheel now t true i)) (by dsimp only; rw [wset_same])
    refine ⟨l1 ++ l2, ?_, g2.append ?_⟩
    · intro x hx; rw [List.mem_append] at hx; exact hx.elim (g1 x) (g3 x)
    · dsimp only at g4
      rw [wset_wset] at g4
      exact g4

/-- Nothing is at work. -/
def Quiet (s : State) : Prop := s.user = .idle ∧ ∀ j, s.rot j = ⟨.idle, [], none⟩

theorem quiet_alone {s : State} (h : Quiet s) (i : Nat) : Alone s i := ⟨h.1, fun j _ => by rw [h.2 j]; exact ⟨rfl, rfl⟩⟩

theorem quiet_free {s : State} (h : Quiet s) (k : Nat) : s.free k := by
  refine ⟨by rw [h.2 k], fun i _ => by rw [h.2 i]; trivial, ?_⟩
  intro t j e; rw [h.1] at e; cases e

theorem addAt_cur (now : Int) : ∀ (k : Nat) (ws : Nat → Wheel) (t : Timer) (f : Bool) (j : Nat), (addAt ws now t f k j).cur = (ws j).cur := by
  have aux : ∀ (ws : Nat → Wheel) (k j' : Nat) (t : Timer) (j : Nat), (wset ws k ((ws k).store j' t) j).cur = (ws j).cur := by
    intro ws k j' t j
    unfold wset
    by_cases e : j = k
    · rw [if_pos e, e]; rfl
    · rw [if_neg e]
  intro k
  induction k with
  | zero =>
    intro ws t f j
    rw [addAt.eq_def]
    cases place 0 (ws 0).cur (t.due - now) f with
    | none => rfl
    | some j' => exact aux _ _ _ _ _
  | succ k ih =>
    intro ws t f j
    rw [addAt.eq_def]
    cases place (k + 1) (ws (k + 1)).cur (t.due - now) f with
    | none => exact ih _ _ _ _
    | some j' => exact aux _ _ _ _ _

theorem tick_steps (o : List Timer → List Timer) (ho : ∀ l, (o l).Perm l) (now : Int) {i : Nat} (hi : i < 3) {s : State} (hq : Quiet s) :
    ∃ ls, (∀ x ∈ ls, x = Label.rotate i) ∧ Steps Step s ls { s with wheel := tick o s.wheel now i } := by
  have ha := quiet_alone hq i
  have st1 := Step.rotStart hi (quiet_free hq i)
  obtain ⟨l1, g1, g2⟩ := addAll_steps now hi (ph := .cur) (by decide) (o ((s.wheel i).slots (s.wheel i).cur)) _ _ (ho _)
    (alone_wset ha ⟨.cur, (s.wheel i).slots (s.wheel i).cur, none⟩ (wset s.wheel i ((s.wheel i).set (s.wheel i).cur []))) (by dsimp only; rw [wset_same])
  dsimp only at g2
  rw [wset_wset] at g2
  unfold tick
  generalize addAll (wset s.wheel i ((s.wheel i).set (s.wheel i).cur [])) now i (o ((s.wheel i).slots (s.wheel i).cur)) = w1 at *
  have st2 := Step.rotNext (s := { s with rot := wset s.rot i ⟨.cur, [], none⟩, wheel := w1 }) hi (by dsimp only; rw [wset_same])
  obtain ⟨l2, g3, g4⟩ := addAll_steps now hi (ph := .next) (by decide) (o ((w1 i).slots ((w1 i).after i))) _ _ (ho _)
    (alone_wset ha ⟨.next, (w1 i).slots ((w1 i).after i), none⟩ (wset w1 i ((w1 i).set ((w1 i).after i) []))) (by dsimp only; rw [wset_same])
  dsimp only at g4 st2
  rw [wset_wset] at g4 st2
  dsimp only
  generalize hw2 : addAll (wset w1 i ((w1 i).set ((w1 i).after i) [])) now i (o ((w1 i).slots ((w1 i).after i))) = w2 at *
  have st3 := Step.rotEnd (s := { s with rot := wset s.rot i ⟨.next, [], none⟩, wheel := w2 }) hi (by dsimp only; rw [wset_same])
  dsimp only at st3
  rw [wset_wset] at st3
  have er : wset s.rot i ⟨.idle, [], none⟩ = s.rot := by
    funext j; unfold wset; by_cases h : j = i
    · rw [if_pos h, h, hq.2]
    · rw [if_neg h]
  have hcur : (w2 i).after i = ((w2 i).cur + 1) % scales i := rfl
  have addAll_cur : ∀ (ts : List Timer) (ws : Nat → Wheel) (j : Nat), (addAll ws now i ts j).cur = (ws j).cur := by
    intro ts
    induction ts with
    | nil => intro ws j; rfl
    | cons t ts ih => intro ws j; exact (ih _ j).trans (addAt_cur now i ws t true j)
  have ec : (w2 i).after i = (w1 i).after i := by
    unfold Wheel.after
    rw [← hw2, addAll_cur, wset_same]; rfl
  rw [er, ec] at st3
  refine ⟨.rotate i :: (l1 ++ .rotate i :: (l2 ++ [.rotate i])), ?_, .cons st1 (g2.append (.cons st2 (g4.append (.cons st3 (.nil _)))))⟩
  intro x hx
  simp only [List.mem_cons, List.mem_append, List.not_mem_nil, or_false] at hx
  rcases hx with h | h | h | h | h
  · exact h
  · exact g1 x h
  · exact h
  · exact g3 x h
  · exact h

theorem user_steps (now : Int) (t : Timer) : ∀ (k : Nat), k < 3 → ∀ (s : State), s.user = .adding t k → (∀ j, s.rot j = ⟨.idle, [], none⟩) →
    ∃ ls, (∀ x ∈ ls, x = Label.add now) ∧ Steps Step s ls { s with user := .idle, wheel := addAt s.wheel now t false k } := by
  intro k
  have free : ∀ (k : Nat) (s : State), s.user = .adding t k → (∀ j, s.rot j = ⟨.idle, [], none⟩) → s.free k := by
    intro k s hu hr
    refine ⟨by rw [hr k], fun i _ => by rw [hr i]; trivial, ?_⟩
    intro t' j e
    rw [hu] at e
    injection e with _ e
    omega
  induction k with
  | zero =>
    intro hk s hu hr
    match hp : place 0 (s.wheel 0).cur (t.due - now) false with
    | none => unfold place at hp; split at hp <;> simp at hp
    | some j =>
      refine ⟨[.add now], by simp, .cons (.addStore hu (free 0 s hu hr) hp) ?_⟩
      have e : addAt s.wheel now t false 0 = wset s.wheel 0 ((s.wheel 0).store j t) := by unfold addAt; rw [hp]
      rw [e]
      exact .nil _
  | succ k ih =>
    intro hk s hu hr
    match hp : place (k + 1) (s.wheel (k + 1)).cur (t.due - now) false with
    | none =>
      have e : addAt s.wheel now t false (k + 1) = addAt s.wheel now t false k := by rw [addAt, hp]
      obtain ⟨ls, h1, h2⟩ := ih (by omega) { s with user := .adding t k } rfl hr
      refine ⟨.add now :: ls, by simpa using h1, .cons (.addDown hu (free _ s hu hr) hp) ?_⟩
      rw [e]
      exact h2
    | some j =>
      refine ⟨[.add now], by simp, .cons (.addStore hu (free _ s hu hr) hp) ?_⟩
      have e : addAt s.wheel now t false (k + 1) = wset s.wheel (k + 1) ((s.wheel (k + 1)).store j t) := by rw [addAt, hp]
      rw [e]
      exact .nil _

theorem cancel_steps (id : Nat) {s : State} (hq : Quiet s) :
    Steps Step s [.cancel id, .visit id 2, .visit id 1, .visit id 0]
      { s with wheel := wset (wset (wset s.wheel 2 ((s.wheel 2).remove 2 id)) 1 ((s.wheel 1).remove 1 id)) 0 ((s.wheel 0).remove 0 id) } := by
  have hu := hq.1
  have free : ∀ (k n : Nat) (w : Nat → Wheel), State.free { s with user := .cancelling id n, wheel := w } k := by
    intro k n w
    refine ⟨by dsimp only; rw [hq.2 k], fun i _ => by dsimp only; rw [hq.2 i]; trivial, fun t j e => by cases e⟩
  have e := Step.visit (s := { s with user := .cancelling id 1, wheel := wset (wset s.wheel 2 ((s.wheel 2).remove 2 id)) 1 ((s.wheel 1).remove 1 id) }) (n := 0) rfl (free 0 1 _)
  refine .cons (.cancel hu) (.cons (.visit (n := 2) rfl (free _ _ _)) (.cons (.visit (n := 1) rfl (free _ _ _)) (.cons e ?_)))
  have e2 : ({ s with wheel := wset (wset (wset s.wheel 2 ((s.wheel 2).remove 2 id)) 1 ((s.wheel 1).remove 1 id)) 0 ((s.wheel 0).remove 0 id) } : State) =
    { s with user := .idle, wheel := wset (wset (wset s.wheel 2 ((s.wheel 2).remove 2 id)) 1 ((s.wheel 1).remove 1 id)) 0 ((s.wheel 0).remove 0 id) } := by
      rw [hu]
  rw [e2]
  exact .nil _

/-- The scheduler at rest. -/
def Timed.rest (s : Timed) : State := ⟨s.wheel, fun _ => ⟨.idle, [], none⟩, .idle, s.idGen, s.fired⟩

theorem rest_quiet (s : Timed) : Quiet s.rest := ⟨rfl, fun _ => rfl⟩

/-- Number of creations. -/
def tcreates (ls : List TLabel) : Nat := (ls.filter fun | .create _ => true | _ => false).length

theorem tcreates_snoc (ls : List TLabel) (l : TLabel) : tcreates (ls ++ [l]) = tcreates ls + (match l with | .create _ => 1 | _ => 0) := by
  unfold tcreates
  rw [List.filter_append, List.length_append]
  cases l <;> rfl

theorem creates_append (a b : List Label) : creates (a ++ b) = creates a + creates b := by
  unfold creates
  rw [List.filter_append, List.length_append]

theorem creates_none {ls : List Label} (h : ∀ x ∈ ls, ∀ t, x ≠ .create t) : creates ls = 0 := by
  unfold creates
  rw [List.length_eq_zero_iff, List.filter_eq_nil_iff]
  intro x hx
  have := h x hx
  cases x <;> simp at this ⊢

/-- How the histories correspond. -/
structure Match (ls : List TLabel) (ls' : List Label) : Prop where
  made : ∀ t, .create t ∈ ls' ↔ .create t ∈ ls
  visits : ∀ id n, .visit id n ∈ ls' → .cancel id ∈ ls
  count : creates ls' = tcreates ls

theorem Match.plain {ls : List TLabel} {ls' : List Label} (h : Match ls ls') {l : TLabel} {more : List Label}
    (hl : (∃ d, l = .pass d) ∨ (∃ k, l = .tick k) ∨ (∃ ts, l = .collect ts)) (hm : ∀ x ∈ more, (∀ t, x ≠ .create t) ∧ ∀ id n, x ≠ .visit id n) :
    Match (ls ++ [l]) (ls' ++ more) := by
  refine ⟨?_, ?_, ?_⟩
  · intro t
    simp only [List.mem_append, List.mem_singleton]
    rw [h.made t]
    constructor
    · rintro (h | h)
      · exact .inl h
      · exact absurd rfl ((hm _ h).1 t)
    · rintro (h | h)
      · exact .inl h
      · rcases hl with ⟨_, e⟩ | ⟨_, e⟩ | ⟨_, e⟩ <;> (rw [e] at h; cases h)
  · intro id n hv
    rw [List.mem_append] at hv
    rcases hv with hv | hv
    · exact List.mem_append_left _ (h.visits id n hv)
    · exact absurd rfl ((hm _ hv).2 id n)
  · rw [creates_append, creates_none (fun x hx => (hm x hx).1), h.count, tcreates_snoc]
    rcases hl with ⟨_, e⟩ | ⟨_, e⟩ | ⟨_, e⟩ <;> rw [e]

/-- A punctual execution is an execution. -/
theorem timed_sim {s0 s : Timed} {ls : List TLabel} (h : Steps TStep s0 ls s) (hs : s0.start) :
    ∃ ls', Steps Step init ls' s.rest ∧ Match ls ls' := by
  refine Steps.invariant_trace (P := fun ls s => ∃ ls', Steps Step init ls' s.rest ∧ Match ls ls') ?_ h ?_
  · rintro ls s l t ⟨ls', h1, hm⟩ hst
    cases hst with
    | pass hd hp => exact ⟨ls' ++ [], by rw [List.append_nil]; exact h1, hm.plain (.inl ⟨_, rfl⟩) (by simp)⟩
    | @tick k o hk hT ho =>
      obtain ⟨l1, g1, g2⟩ := tick_steps o ho s.now hk (rest_quiet s)
      refine ⟨ls' ++ l1, h1.append g2, hm.plain (.inr (.inl ⟨_, rfl⟩)) ?_⟩
      intro x hx
      rw [g1 x hx]
      exact ⟨nofun, nofun⟩
    | @create due =>
      obtain ⟨l1, g1, g2⟩ := user_steps s.now ⟨(s.idGen + 1) % 4294967296, due⟩ 2 (by omega)
        { s.rest with user := .adding ⟨(s.idGen + 1) % 4294967296, due⟩ 2, idGen := (s.idGen + 1) % 4294967296 } rfl (fun _ => rfl)
      refine ⟨ls' ++ (.create ⟨(s.idGen + 1) % 4294967296, due⟩ :: l1), h1.append (.cons (.create rfl) g2), ?_, ?_, ?_⟩
      · intro t
        simp only [List.mem_append, List.mem_cons, List.not_mem_nil, or_false, Label.create.injEq, TLabel.create.injEq]
        rw [hm.made t]
        constructor
        · rintro (h | h | h)
          · exact .inl h
          · exact .inr h
          · have := g1 _ h; cases this
        · rintro (h | h)
          · exact .inl h
          · exact .inr (.inl h)
      · intro id n hv
        simp only [List.mem_append, List.mem_cons] at hv
        rcases hv with h | h | h
        · exact List.mem_append_left _ (hm.visits id n h)
        · cases h
        · have := g1 _ h; cases this
      · have e : creates l1 = 0 := creates_none (fun x hx t e => by rw [g1 x hx] at e; cases e)
        have e2 : creates (.create ⟨(s.idGen + 1) % 4294967296, due⟩ :: l1) = 1 + creates l1 := by
          rw [← List.singleton_append, creates_append]; rfl
        rw [creates_append, e2, e, hm.count, tcreates_snoc]
    | @cancel id =>
      have g := cancel_steps id (rest_quiet s)
      refine ⟨ls' ++ [.cancel id, .visit id 2, .visit id 1, .visit id 0], h1.append ?_, ?_, ?_, ?_⟩
      · have e : (fun k => if k < 3 then (s.wheel k).remove k id else s.wheel k) =
          wset (wset (wset s.wheel 2 ((s.wheel 2).remove 2 id)) 1 ((s.wheel 1).remove 1 id)) 0 ((s.wheel 0).remove 0 id) := by
          funext k
          unfold wset
          by_cases h0 : k = 0
          · rw [if_pos h0, if_pos (by omega), h0]
          · by_cases h1 : k = 1
            · rw [if_neg h0, if_pos h1, if_pos (by omega), h1]
            · by_cases h2 : k = 2
              · rw [if_neg h0, if_neg h1, if_pos h2, if_pos (by omega), h2]
              · rw [if_neg h0, if_neg h1, if_neg h2, if_neg (by omega)]
        unfold Timed.rest
        dsimp only
        rw [e]
        exact g
      · intro t
        simp only [List.mem_append, List.mem_cons, List.not_mem_nil, or_false]
        rw [hm.made t]
        constructor
        · rintro (h | h | h | h | h)
          · exact .inl h
          all_goals cases h
        · rintro (h | h)
          · exact .inl h
          · cases h
      · intro id' n hv
        simp only [List.mem_append, List.mem_cons, List.not_mem_nil, or_false] at hv
        rcases hv with h | h | h | h | h
        · exact List.mem_append_left _ (hm.visits id' n h)
        · cases h
        all_goals (injection h with h _; rw [h]; simp)
      · rw [creates_append, hm.count, tcreates_snoc]; rfl
    | collect =>
      refine ⟨ls' ++ [.collect s.now (((s.wheel 0).slots (s.wheel 0).cur).filter (fun t => t.due - s.now < 100))], h1.snoc (.collect (quiet_free (rest_quiet s) 0) (List.Perm.refl _)),
        hm.plain (.inr (.inr ⟨_, rfl⟩)) ?_⟩
      intro x hx
      rw [List.mem_singleton] at hx
      rw [hx]
      exact ⟨nofun, nofun⟩
  · refine ⟨[], ?_, ⟨by simp, by simp, rfl⟩⟩
    have e : s0.rest = init := by
      unfold Timed.rest init
      rw [hs.2.1, hs.2.2.1, funext hs.1]
    rw [e]
    exact .nil _

end Zinx.Timer
