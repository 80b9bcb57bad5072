import Verif.Props.Aoi

namespace Zinx.Props
open Zinx Zinx.Aoi

/-! ## C64, exactly -/

/-- Rounding towards zero does not take `q` over the border of a grid: borders are at `lo`, `lo + w`, `lo + 2 * w`, … -/
def KeepsCell (lo w : Int) (q : Rat) : Prop := 0 ≤ q ∨ (q.floor : Rat) = q ∨ ¬ w ∣ q.floor + 1 - lo

/-- `q` is in the part of the axis that is cut into `cnt` pieces of size `w`. -/
def Covered (lo w cnt : Int) (q : Rat) : Prop := (lo : Rat) ≤ q ∧ q < ((lo + cnt * w : Int) : Rat)

theorem covered_floor {lo w cnt : Int} {q : Rat} : Covered lo w cnt q ↔ lo ≤ q.floor ∧ q.floor < lo + cnt * w := by
  unfold Covered
  rw [Rat.le_floor_iff, Rat.floor_lt_iff]

theorem toInt_cases (q : Rat) : toInt q = q.floor ∧ (0 ≤ q ∨ (q.floor : Rat) = q) ∨ toInt q = q.floor + 1 ∧ ¬ (0 ≤ q) ∧ (q.floor : Rat) ≠ q := by
  unfold toInt
  by_cases h : 0 ≤ q
  · left; rw [if_pos h]; exact ⟨rfl, .inl h⟩
  · rw [if_neg h]
    by_cases e : (q.floor : Rat) = q
    · left
      refine ⟨?_, .inr e⟩
      rw [← e, Rat.ceil_intCast, Rat.floor_intCast]
    · right
      refine ⟨?_, h, e⟩
      have h1 : q.ceil ≤ q.floor + 1 := Rat.ceil_le_iff.2 (Rat.le_of_lt (Rat.lt_floor_add_one q))
      have h2 : q.floor < q.ceil := Rat.lt_ceil_iff.2 (Rat.lt_of_le_of_ne (Rat.floor_le q) e)
      omega

/-- The index the code computes is that of the piece `q` is in, or the next one. -/
theorem index_cases {lo w : Int} {q : Rat} (hw : 0 < w) (h1 : lo ≤ q.floor) :
    (toInt q - lo).tdiv w = (q.floor - lo) / w ∧ KeepsCell lo w q ∨ (toInt q - lo).tdiv w = (q.floor - lo) / w + 1 ∧ ¬ KeepsCell lo w q := by
  rcases toInt_cases q with ⟨e, h⟩ | ⟨e, h, h'⟩
  · left
    refine ⟨?_, ?_⟩
    · rw [e, Int.tdiv_eq_ediv_of_nonneg (by omega)]
    · rcases h with h | h
      · exact .inl h
      · exact .inr (.inl h)
  · rw [e, Int.tdiv_eq_ediv_of_nonneg (by omega)]
    have d1 := Int.ediv_mul_add_emod (q.floor - lo) w
    have d2 := Int.emod_nonneg (q.floor - lo) (b := w) (by omega)
    have d3 := Int.emod_lt_of_pos (q.floor - lo) hw
    have e1 : q.floor + 1 - lo = (q.floor - lo) % w + 1 + (q.floor - lo) / w * w := by omega
    have e2 : (q.floor + 1 - lo) / w = ((q.floor - lo) % w + 1) / w + (q.floor - lo) / w := by
      rw [e1, Int.add_mul_ediv_right _ _ (by omega)]
    have e3 : (q.floor + 1 - lo) % w = ((q.floor - lo) % w + 1) % w := by
      rw [e1, Int.add_mul_emod_self_right]
    by_cases hl : (q.floor - lo) % w + 1 = w
    · right
      refine ⟨by rw [e2, hl, Int.ediv_self (by omega)]; omega, ?_⟩
      rintro (h1 | h1 | h1)
      · exact h h1
      · exact h' h1
      · exact h1 (Int.dvd_of_emod_eq_zero (by rw [e3, hl, Int.emod_self]))
    · left
      refine ⟨by rw [e2, Int.ediv_eq_zero_of_lt (by omega) (by omega)]; omega, .inr (.inr fun hd => ?_)⟩
      have := Int.emod_eq_zero_of_dvd hd
      rw [e3, Int.emod_eq_of_lt (by omega) (by omega)] at this
      omega

/-- The piece with index `i` contains `q`. -/
theorem piece_iff {lo w i : Int} {q : Rat} (hw : 0 < w) : ((lo + i * w : Int) : Rat) ≤ q ∧ q < ((lo + (i + 1) * w : Int) : Rat) ↔ i = (q.floor - lo) / w := by
  rw [← Rat.le_floor_iff, ← Rat.floor_lt_iff, mul_succ']
  constructor
  · rintro ⟨h1, h2⟩
    have e : w * i = i * w := Int.mul_comm _ _
    exact ((Int.ediv_emod_unique (a := q.floor - lo) (b := w) (r := q.floor - lo - i * w) (q := i) hw).2 ⟨by omega, by omega, by omega⟩).1.symm
  · rintro rfl
    have d1 := Int.ediv_mul_add_emod (q.floor - lo) w
    have d2 := Int.emod_nonneg (q.floor - lo) (b := w) (by omega)
    have d3 := Int.emod_lt_of_pos (q.floor - lo) hw
    omega

/-- **C64, exactly.** Grids of positive size; any coordinates. The lookup gives an existing grid that contains the position iff the position is in the part of the world that is cut into grids and rounding towards
zero does not take one of its coordinates over the border of a grid (which it can only do to negative ones that are not whole). -/
theorem C64_exact (minX maxX cx minY maxY cy : Int) (x y : Rat) (hcx : 0 < cx) (hcy : 0 < cy) (hw : cx ≤ maxX - minX) (hl : cy ≤ maxY - minY) :
    (∃ gid g, gidByPos (newMgr minX maxX cx minY maxY cy) x y = some gid ∧ (newMgr minX maxX cx minY maxY cy).grids gid = some g ∧ Contains g x y) ↔
    (Covered minX ((maxX - minX) / cx) cx x ∧ Covered minY ((maxY - minY) / cy) cy y) ∧ KeepsCell minX ((maxX - minX) / cx) x ∧ KeepsCell minY ((maxY - minY) / cy) y := by
  have ew : width minX maxX cx = (maxX - minX) / cx := by unfold width; rw [Int.tdiv_eq_ediv_of_nonneg (by omega)]
  have el : width minY maxY cy = (maxY - minY) / cy := by unfold width; rw [Int.tdiv_eq_ediv_of_nonneg (by omega)]
  have pw : 1 ≤ (maxX - minX) / cx := (Int.le_ediv_iff_mul_le hcx).mpr (by omega)
  have pl : 1 ≤ (maxY - minY) / cy := (Int.le_ediv_iff_mul_le hcy).mpr (by omega)
  have eg : gidByPos (newMgr minX maxX cx minY maxY cy) x y = some ((toInt y - minY).tdiv ((maxY - minY) / cy) * cx + (toInt x - minX).tdiv ((maxX - minX) / cx)) := by
    unfold gidByPos
    show (if cx = 0 ∨ cy = 0 then none else _) = _
    rw [if_neg (by omega)]
    show (if width minX maxX cx = 0 ∨ width minY maxY cy = 0 then none else some ((toInt y - minY).tdiv (width minY maxY cy) * cx +
      (toInt x - minX).tdiv (width minX maxX cx))) = _
    rw [ew, el, if_neg (by omega)]
  have hcon : ∀ i j, Contains (cell minX maxX cx minY maxY cy i j) x y ↔ i = (x.floor - minX) / ((maxX - minX) / cx) ∧ j = (y.floor - minY) / ((maxY - minY) / cy) := by
    intro i j
    rw [← piece_iff (q := x) pw, ← piece_iff (q := y) pl]
    unfold Contains cell
    dsimp only
    rw [ew, el]
    constructor
    · rintro ⟨a, b, c, d⟩; exact ⟨⟨a, b⟩, c, d⟩
    · rintro ⟨⟨a, b⟩, c, d⟩; exact ⟨a, b, c, d⟩
  have range : ∀ {lo w cnt : Int} {q : Rat}, 1 ≤ w → (Covered lo w cnt q ↔ 0 ≤ (q.floor - lo) / w ∧ (q.floor - lo) / w < cnt) := by
    intro lo w cnt q hw
    rw [covered_floor]
    constructor
    · rintro ⟨h1, h2⟩
      exact ⟨Int.ediv_nonneg (by omega) (by omega), Int.ediv_lt_of_lt_mul hw (by omega)⟩
    · rintro ⟨h1, h2⟩
      have d1 := Int.ediv_mul_add_emod (q.floor - lo) w
      have d2 := Int.emod_nonneg (q.floor - lo) (b := w) (by omega)
      have d3 := Int.emod_lt_of_pos (q.floor - lo) (show 0 < w by omega)
      have d4 : 0 ≤ (q.floor - lo) / w * w := Int.mul_nonneg h1 (by omega)
      have d5 : ((q.floor - lo) / w + 1) * w ≤ cnt * w := Int.mul_le_mul_of_nonneg_right (by omega) (by omega)
      rw [mul_succ'] at d5
      omega
  rw [eg]
  constructor
  · rintro ⟨gid, g, e, hg, hc⟩
    cases e
    rw [grids_get (by omega) (by omega)] at hg
    split at hg
    · rename_i hr
      cases hg
      obtain ⟨h1, h2⟩ := (hcon _ _).1 hc
      generalize hG : (toInt y - minY).tdiv ((maxY - minY) / cy) * cx + (toInt x - minX).tdiv ((maxX - minX) / cx) = G at hr h1 h2
      have r1 : 0 ≤ G % cx ∧ G % cx < cx := ⟨Int.emod_nonneg _ (by omega), Int.emod_lt_of_pos _ hcx⟩
      have r2 : 0 ≤ G / cx ∧ G / cx < cy := ⟨Int.ediv_nonneg hr.1 (by omega), Int.ediv_lt_of_lt_mul hcx hr.2⟩
      have d := Int.ediv_mul_add_emod G cx
      rw [h1] at r1 d
      rw [h2] at r2 d
      have c1 := (range pw).2 r1
      have c2 := (range pl).2 r2
      refine ⟨⟨c1, c2⟩, ?_⟩
      rcases index_cases pw (covered_floor.1 c1).1 with ⟨e1, k1⟩ | ⟨e1, k1⟩ <;> rcases index_cases pl (covered_floor.1 c2).1 with ⟨e2, k2⟩ | ⟨e2, k2⟩
      · exact ⟨k1, k2⟩
      all_goals
        rw [e1, e2] at hG
        try rw [mul_succ'] at hG
        omega
    · cases hg
  · rintro ⟨⟨h1, h2⟩, h3, h4⟩
    have r1 := (range pw).1 h1
    have r2 := (range pl).1 h2
    rcases index_cases pw (covered_floor.1 h1).1 with ⟨e1, _⟩ | ⟨_, k⟩
    · rcases index_cases pl (covered_floor.1 h2).1 with ⟨e2, _⟩ | ⟨_, k⟩
      · refine ⟨_, _, rfl, ?_, (hcon _ _).2 ⟨rfl, rfl⟩⟩
        rw [e1, e2]
        exact grids_cell r1 r2
      · exact absurd h4 k
    · exact absurd h3 k

/-- With bounds that are not negative only the margin is looked up wrongly, and always is. -/
theorem C64_margin (minX maxX cx minY maxY cy : Int) (x y : Rat) (hcx : 0 < cx) (hcy : 0 < cy) (hw : cx ≤ maxX - minX) (hl : cy ≤ maxY - minY) (h0x : 0 ≤ minX) (h0y : 0 ≤ minY) :
    (∃ gid g, gidByPos (newMgr minX maxX cx minY maxY cy) x y = some gid ∧ (newMgr minX maxX cx minY maxY cy).grids gid = some g ∧ Contains g x y) ↔
    Covered minX ((maxX - minX) / cx) cx x ∧ Covered minY ((maxY - minY) / cy) cy y := by
  rw [C64_exact minX maxX cx minY maxY cy x y hcx hcy hw hl]
  have pos : ∀ {lo w cnt : Int} {q : Rat}, 0 ≤ lo → Covered lo w cnt q → KeepsCell lo w q := by
    intro lo w cnt q h0 h
    have : ((0 : Int) : Rat) ≤ (lo : Rat) := Rat.intCast_le_intCast.mpr h0
    exact .inl (Rat.le_trans (by simpa using this) h.1)
  exact ⟨fun h => h.1, fun h => ⟨h, pos h0x h.1, pos h0y h.2⟩⟩

/-- Both cases occur: in a world with grids of 5 by 5, -2.5 is rounded to -2, in the same grid as -2.5 if the borders are at -10, -5, 0, …, and in the next one if they are at -7, -2, … -/
example : KeepsCell (-10) 5 (-5 / 2) ∧ ¬ KeepsCell (-7) 5 (-5 / 2) ∧ Covered (-7) 5 2 (-5 / 2) ∧
    gidByPos (newMgr (-7) 3 2 0 5 1) (-5 / 2) 0 = some 1 ∧ (newMgr (-7) 3 2 0 5 1).grids 1 = some ⟨1, -2, 3, 0, 5⟩ := by
  have e : (-5 / 2 : Rat).floor = -3 := by decide +kernel
  refine ⟨.inr (.inr ?_), ?_, ⟨by decide +kernel, by decide +kernel⟩, by decide +kernel, by decide +kernel⟩
  · rw [e]; decide
  · rintro (h | h | h)
    · exact absurd h (by decide +kernel)
    · rw [e] at h; exact absurd h (by decide +kernel)
    · rw [e] at h; exact h (by decide)

end Zinx.Props
