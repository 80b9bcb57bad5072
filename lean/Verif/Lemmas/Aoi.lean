import Verif.Model.Aoi

/-! # Lemmas about grids -/

namespace Zinx.Aoi

theorem fillRow_get (c : Int → Int → Grid) (cx y : Int) (g : Int → Option Grid) (j : Int) : ∀ n : Nat,
    fillRow c cx y n g j = if y * cx ≤ j ∧ j < y * cx + n then some (c (j - y * cx) y) else g j := by
  intro n
  induction n with
  | zero =>
    rw [if_neg (by omega)]; rfl
  | succ n ih =>
    unfold fillRow at ih ⊢
    rw [List.range_succ, List.foldl_append]
    show (if j = y * cx + n then some (c n y) else _) = _
    by_cases h : j = y * cx + n
    · rw [if_pos h, if_pos (by omega)]
      rw [show j - y * cx = n by omega]
    · rw [if_neg h, ih]
      by_cases h2 : y * cx ≤ j ∧ j < y * cx + n
      · rw [if_pos h2, if_pos (by omega)]
      · rw [if_neg h2, if_neg (by omega)]

theorem mul_succ' (a b : Int) : (a + 1) * b = a * b + b := by rw [Int.add_mul, Int.one_mul]

theorem rows_get (c : Int → Int → Grid) (cx : Int) (hx : 0 ≤ cx) (j : Int) : ∀ n : Nat,
    (List.range n).foldl (fun g (y : Nat) => fillRow c cx y cx.toNat g) (fun _ => none) j =
      if 0 ≤ j ∧ j < n * cx then some (c (j % cx) (j / cx)) else none := by
  intro n
  induction n with
  | zero =>
    have e : ((0 : Nat) : Int) * cx = 0 := Int.zero_mul cx
    rw [if_neg (by omega)]; rfl
  | succ n ih =>
    rw [List.range_succ, List.foldl_append]
    show fillRow c cx n cx.toNat _ j = _
    rw [fillRow_get, ih]
    have e : (((n + 1 : Nat) : Int)) * cx = n * cx + cx := by rw [Int.natCast_succ, mul_succ']
    have h0 : 0 ≤ (n : Int) * cx := Int.mul_nonneg (by omega) hx
    rw [e]
    by_cases h : (n : Int) * cx ≤ j ∧ j < n * cx + cx.toNat
    · rw [if_pos h, if_pos (by omega)]
      have hd : j / cx = n := by
        rw [Int.ediv_eq_iff_of_pos (by omega)]
        constructor <;> omega
      have hm : j % cx = j - n * cx := by
        rw [Int.emod_def, hd, Int.mul_comm]
      rw [hd, hm]
    · rw [if_neg h]
      by_cases h2 : 0 ≤ j ∧ j < n * cx
      · rw [if_pos h2, if_pos (by omega)]
      · rw [if_neg h2, if_neg (by omega)]

section
variable {minX maxX cx minY maxY cy : Int}

theorem grids_get (hx : 0 ≤ cx) (hy : 0 ≤ cy) (j : Int) : (newMgr minX maxX cx minY maxY cy).grids j =
    if 0 ≤ j ∧ j < cy * cx then some (cell minX maxX cx minY maxY cy (j % cx) (j / cx)) else none := by
  unfold newMgr
  dsimp only
  rw [rows_get _ _ hx, show ((cy.toNat : Nat) : Int) = cy by omega]

theorem col_row {x y : Int} (hx : 0 ≤ x ∧ x < cx) : (y * cx + x) % cx = x ∧ (y * cx + x) / cx = y := by
  constructor
  · rw [Int.add_comm, Int.add_mul_emod_self_right, Int.emod_eq_of_lt hx.1 hx.2]
  · rw [Int.add_comm, Int.add_mul_ediv_right _ _ (by omega), Int.ediv_eq_zero_of_lt hx.1 hx.2]; omega

theorem id_range {x y : Int} (hx : 0 ≤ x ∧ x < cx) (hy : 0 ≤ y ∧ y < cy) : 0 ≤ y * cx + x ∧ y * cx + x < cy * cx := by
  have h1 : 0 ≤ y * cx := Int.mul_nonneg hy.1 (by omega)
  have h2 : (y + 1) * cx ≤ cy * cx := Int.mul_le_mul_of_nonneg_right (by omega) (by omega)
  rw [mul_succ'] at h2
  omega

theorem grids_cell {x y : Int} (hx : 0 ≤ x ∧ x < cx) (hy : 0 ≤ y ∧ y < cy) :
    (newMgr minX maxX cx minY maxY cy).grids (y * cx + x) = some (cell minX maxX cx minY maxY cy x y) := by
  rw [grids_get (by omega) (by omega), if_pos (id_range hx hy), (col_row hx).1, (col_row hx).2]

/-- Coordinates of the surrounding grids, the grid itself first. -/
def around (cx cy x y : Int) : List (Int × Int) :=
  ((0, 0) :: directions).filterMap fun d =>
    if x + d.1 ≥ 0 ∧ x + d.1 < cx ∧ y + d.2 ≥ 0 ∧ y + d.2 < cy then some (x + d.1, y + d.2) else none

theorem mem_around {x y : Int} (p : Int × Int) :
    p ∈ around cx cy x y ↔ (0 ≤ p.1 ∧ p.1 < cx) ∧ (0 ≤ p.2 ∧ p.2 < cy) ∧ (p.1 - x ≤ 1 ∧ x - p.1 ≤ 1) ∧ (p.2 - y ≤ 1 ∧ y - p.2 ≤ 1) := by
  unfold around
  rw [List.mem_filterMap]
  constructor
  · rintro ⟨d, hd, e⟩
    by_cases hc : x + d.1 ≥ 0 ∧ x + d.1 < cx ∧ y + d.2 ≥ 0 ∧ y + d.2 < cy
    · rw [if_pos hc] at e
      injection e with e
      subst e
      have : (-1 ≤ d.1 ∧ d.1 ≤ 1) ∧ (-1 ≤ d.2 ∧ d.2 ≤ 1) := by
        simp only [directions, List.mem_cons, List.not_mem_nil, or_false] at hd
        rcases hd with h | h | h | h | h | h | h | h | h <;> (subst h; decide)
      dsimp only
      omega
    · rw [if_neg hc] at e; cases e
  · rintro ⟨h1, h2, h3, h4⟩
    refine ⟨(p.1 - x, p.2 - y), ?_, ?_⟩
    · have hd1 : p.1 - x = -1 ∨ p.1 - x = 0 ∨ p.1 - x = 1 := by omega
      have hd2 : p.2 - y = -1 ∨ p.2 - y = 0 ∨ p.2 - y = 1 := by omega
      rcases hd1 with h | h | h <;> rcases hd2 with h' | h' | h' <;> (rw [h, h']; decide)
    · dsimp only
      rw [if_pos (by omega)]
      have : (x + (p.1 - x), y + (p.2 - y)) = p := by
        rw [show x + (p.1 - x) = p.1 by omega, show y + (p.2 - y) = p.2 by omega]
      rw [this]

theorem around_nodup (x y : Int) : (around cx cy x y).Nodup := by
  unfold around List.Nodup
  refine List.Pairwise.filterMap (R := fun a b => a ≠ b) _ ?_ (by decide : ((0, 0) :: directions).Pairwise (fun a b => a ≠ b))
  intro a b hab p hp q hq e
  subst e
  apply hab
  by_cases ha : x + a.1 ≥ 0 ∧ x + a.1 < cx ∧ y + a.2 ≥ 0 ∧ y + a.2 < cy
  · by_cases hb : x + b.1 ≥ 0 ∧ x + b.1 < cx ∧ y + b.2 ≥ 0 ∧ y + b.2 < cy
    · rw [if_pos ha] at hp
      rw [if_pos hb] at hq
      injection hp with hp
      injection hq with hq
      have e := hp.trans hq.symm
      have e1 := congrArg Prod.fst e
      have e2 := congrArg Prod.snd e
      dsimp only at e1 e2
      exact Prod.ext (by omega) (by omega)
    · rw [if_neg hb] at hq; cases hq
  · rw [if_neg ha] at hp; cases hp

theorem surround_eq {x y : Int} (hx : 0 ≤ x ∧ x < cx) (hy : 0 ≤ y ∧ y < cy) :
    surround (newMgr minX maxX cx minY maxY cy) (y * cx + x) =
      (around cx cy x y).map fun p => some (cell minX maxX cx minY maxY cy p.1 p.2) := by
  have hr := id_range hx hy
  unfold surround
  rw [grids_cell hx hy]
  dsimp only
  have e1 : (y * cx + x).tmod (newMgr minX maxX cx minY maxY cy).cntsX = x := by
    show (y * cx + x).tmod cx = x
    rw [Int.tmod_eq_emod_of_nonneg hr.1, (col_row hx).1]
  have e2 : (y * cx + x).tdiv (newMgr minX maxX cx minY maxY cy).cntsX = y := by
    show (y * cx + x).tdiv cx = y
    rw [Int.tdiv_eq_ediv_of_nonneg hr.1, (col_row hx).2]
  rw [e1, e2]
  unfold around
  rw [List.filterMap_cons_some (b := (x, y)) (by dsimp only; rw [if_pos (by omega)]; simp), List.map_cons, List.map_filterMap, List.map_filterMap]
  congr 1
  congr 1
  funext d
  obtain ⟨dx, dy⟩ := d
  dsimp only
  show Option.map _ (if x + dx ≥ 0 ∧ x + dx < cx ∧ y + dy ≥ 0 ∧ y + dy < cy then some ((y + dy) * cx + (x + dx)) else none) = _
  by_cases hc : x + dx ≥ 0 ∧ x + dx < cx ∧ y + dy ≥ 0 ∧ y + dy < cy
  · rw [if_pos hc, if_pos hc]
    show some _ = some _
    rw [grids_cell (by omega) (by omega)]
  · rw [if_neg hc, if_neg hc]; rfl

end

end Zinx.Aoi
