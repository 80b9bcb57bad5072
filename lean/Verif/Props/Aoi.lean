import Verif.Lemmas.Aoi

/-! # C63, C64, C71 and C72: area-of-interest grids -/

namespace Zinx.Props

open Zinx Zinx.Aoi

/-! ## C63 -/

/-- **C63.** In a world of `cx × cy` grids, numbered row by row, the surrounding grids of the grid at column `x`, row `y` are existing grids, each listed
once, and the grid at column `x'`, row `y'` is among them iff `x'` and `y'` differ from `x` and `y` by at most one. -/
theorem C63_exact (minX maxX cx minY maxY cy x y : Int) (hx : 0 ≤ x ∧ x < cx) (hy : 0 ≤ y ∧ y < cy) :
    ∃ gs : List Grid, surround (newMgr minX maxX cx minY maxY cy) (y * cx + x) = gs.map some ∧ (gs.map (·.gid)).Nodup ∧
      (∀ g ∈ gs, (newMgr minX maxX cx minY maxY cy).grids g.gid = some g) ∧
      (∀ g ∈ gs, ∃ x' y', (0 ≤ x' ∧ x' < cx) ∧ (0 ≤ y' ∧ y' < cy) ∧ g.gid = y' * cx + x') ∧
      (∀ x' y', (0 ≤ x' ∧ x' < cx) → (0 ≤ y' ∧ y' < cy) →
        (y' * cx + x' ∈ gs.map (·.gid) ↔ (x' - x ≤ 1 ∧ x - x' ≤ 1) ∧ (y' - y ≤ 1 ∧ y - y' ≤ 1))) := by
  refine ⟨(around cx cy x y).map fun p => cell minX maxX cx minY maxY cy p.1 p.2, ?_, ?_, ?_, ?_, ?_⟩
  · rw [surround_eq hx hy, List.map_map]; rfl
  · rw [List.map_map, List.Nodup, List.pairwise_map]
    refine List.Pairwise.imp_of_mem ?_ (around_nodup (cx := cx) (cy := cy) x y)
    intro a b ha hb hab e
    rw [mem_around] at ha hb
    have e1 : a.2 * cx + a.1 = b.2 * cx + b.1 := e
    have ec := (col_row (y := a.2) ha.1).1
    have er := (col_row (y := a.2) ha.1).2
    rw [e1] at ec er
    rw [(col_row hb.1).1] at ec
    rw [(col_row hb.1).2] at er
    exact hab (Prod.ext ec.symm er.symm)
  · intro g hg
    rw [List.mem_map] at hg
    obtain ⟨p, hp, rfl⟩ := hg
    rw [mem_around] at hp
    exact grids_cell hp.1 hp.2.1
  · intro g hg
    rw [List.mem_map] at hg
    obtain ⟨p, hp, rfl⟩ := hg
    rw [mem_around] at hp
    exact ⟨p.1, p.2, hp.1, hp.2.1, rfl⟩
  · intro x' y' hx' hy'
    rw [List.map_map, List.mem_map]
    constructor
    · rintro ⟨p, hp, e⟩
      rw [mem_around] at hp
      have e1 : p.2 * cx + p.1 = y' * cx + x' := e
      have ec := (col_row (y := p.2) hp.1).1
      have er := (col_row (y := p.2) hp.1).2
      rw [e1] at ec er
      rw [(col_row hx').1] at ec
      rw [(col_row hx').2] at er
      rw [ec, er]
      exact hp.2.2
    · intro h
      exact ⟨(x', y'), by rw [mem_around]; exact ⟨hx', hy', h⟩, rfl⟩

/-- IDs in the neighbourhood of a grid. -/
def nearby (m : Mgr) (g : Int) : List Int := ((surround m g).filterMap id).map (·.gid)

theorem mem_nearby (minX maxX cx minY maxY cy g h : Int) (hcx : 0 < cx) (hcy : 0 < cy) : h ∈ nearby (newMgr minX maxX cx minY maxY cy) g ↔
    (0 ≤ g ∧ g < cy * cx) ∧ (0 ≤ h ∧ h < cy * cx) ∧ (h % cx - g % cx ≤ 1 ∧ g % cx - h % cx ≤ 1) ∧ (h / cx - g / cx ≤ 1 ∧ g / cx - h / cx ≤ 1) := by
  have split : ∀ j : Int, 0 ≤ j ∧ j < cy * cx → (0 ≤ j % cx ∧ j % cx < cx) ∧ (0 ≤ j / cx ∧ j / cx < cy) ∧ (j / cx) * cx + j % cx = j := by
    intro j hj
    refine ⟨⟨Int.emod_nonneg _ (by omega), Int.emod_lt_of_pos _ hcx⟩, ⟨Int.ediv_nonneg hj.1 (by omega), ?_⟩, ?_⟩
    · exact Int.ediv_lt_of_lt_mul hcx hj.2
    · exact Int.ediv_mul_add_emod j cx
  by_cases hg : 0 ≤ g ∧ g < cy * cx
  · obtain ⟨gx, gy, ge⟩ := split g hg
    obtain ⟨gs, e, _, _, hform, hmem⟩ := C63_exact minX maxX cx minY maxY cy (g % cx) (g / cx) gx gy
    rw [ge] at e
    have en : nearby (newMgr minX maxX cx minY maxY cy) g = gs.map (·.gid) := by
      unfold nearby
      rw [e, List.filterMap_map]
      simp
    rw [en]
    constructor
    · intro hm
      rw [List.mem_map] at hm
      obtain ⟨c, hc, rfl⟩ := hm
      obtain ⟨x', y', hx', hy', ec⟩ := hform c hc
      have hh := (hmem x' y' hx' hy').1 (by rw [← ec]; exact List.mem_map_of_mem hc)
      rw [ec, (col_row hx').1, (col_row hx').2]
      exact ⟨hg, id_range hx' hy', hh⟩
    · rintro ⟨_, hh, hd⟩
      obtain ⟨hx', hy', he⟩ := split h hh
      have := (hmem _ _ hx' hy').2 hd
      rw [he] at this
      exact this
  · constructor
    · intro hm
      unfold nearby surround at hm
      rw [grids_get (by omega) (by omega), if_neg hg] at hm
      simp at hm
    · intro h; exact absurd h.1 hg

/-- **C63 (symmetry).** -/
theorem C63_symmetric (minX maxX cx minY maxY cy g h : Int) (hcx : 0 < cx) (hcy : 0 < cy) :
    h ∈ nearby (newMgr minX maxX cx minY maxY cy) g ↔ g ∈ nearby (newMgr minX maxX cx minY maxY cy) h := by
  rw [mem_nearby _ _ _ _ _ _ _ _ hcx hcy, mem_nearby _ _ _ _ _ _ _ _ hcx hcy]
  constructor
  · rintro ⟨a, b, c, d⟩; exact ⟨b, a, ⟨c.2, c.1⟩, ⟨d.2, d.1⟩⟩
  · rintro ⟨a, b, c, d⟩; exact ⟨b, a, ⟨c.2, c.1⟩, ⟨d.2, d.1⟩⟩

/-- An inner grid, a corner and an ID outside. -/
example : nearby (newMgr 0 25 5 0 20 4) 6 = [6, 0, 5, 10, 1, 11, 2, 7, 12] ∧ nearby (newMgr 0 25 5 0 20 4) 19 = [19, 13, 18, 14] ∧
    nearby (newMgr 0 25 5 0 20 4) 20 = [] := by decide +kernel

/-! ## C64 -/

/-- The rectangle of a grid contains a position. -/
def Contains (g : Grid) (x y : Rat) : Prop := (g.minX : Rat) ≤ x ∧ x < (g.maxX : Rat) ∧ (g.minY : Rat) ≤ y ∧ y < (g.maxY : Rat)

theorem axis {lo w cnt : Int} {q : Rat} (h0 : 0 ≤ lo) (hw : 0 < w) (h1 : (lo : Rat) ≤ q) (h2 : q < ((lo + cnt * w : Int) : Rat)) :
    (0 ≤ (toInt q - lo).tdiv w ∧ (toInt q - lo).tdiv w < cnt) ∧
    ((lo + (toInt q - lo).tdiv w * w : Int) : Rat) ≤ q ∧ q < ((lo + ((toInt q - lo).tdiv w + 1) * w : Int) : Rat) := by
  have hq : 0 ≤ q := by
    have : ((0 : Int) : Rat) ≤ (lo : Rat) := Rat.intCast_le_intCast.mpr h0
    exact Rat.le_trans (by simpa using this) h1
  have e : toInt q = q.floor := by unfold toInt; rw [if_pos hq]
  have f1 : lo ≤ q.floor := Rat.le_floor_iff.mpr h1
  have f2 : q.floor < lo + cnt * w := Rat.floor_lt_iff.mpr h2
  rw [e, Int.tdiv_eq_ediv_of_nonneg (by omega)]
  have d1 := Int.ediv_mul_add_emod (q.floor - lo) w
  have d2 := Int.emod_nonneg (q.floor - lo) (b := w) (by omega)
  have d3 := Int.emod_lt_of_pos (q.floor - lo) hw
  have d4 : 0 ≤ (q.floor - lo) / w := Int.ediv_nonneg (by omega) (by omega)
  refine ⟨⟨d4, Int.ediv_lt_of_lt_mul hw (by omega)⟩, ?_, ?_⟩
  · rw [← Rat.le_floor_iff]; omega
  · rw [← Rat.floor_lt_iff, mul_succ']; omega

/-- **C64 (inside the cut-up part, non-negative coordinates).** If the lower bounds are not negative, the grids have positive size, and the position lies in
the part of the world covered by grids, the lookup gives an existing grid whose rectangle contains it. Missing: the margin left over when the extent is not
a multiple of the number of grids, and negative coordinates; the lookup is wrong there (`C64_refuted`). -/
theorem C64_partial (minX maxX cx minY maxY cy : Int) (x y : Rat) (hcx : 0 < cx) (hcy : 0 < cy) (h0x : 0 ≤ minX) (h0y : 0 ≤ minY)
    (hw : cx ≤ maxX - minX) (hl : cy ≤ maxY - minY) (hx1 : (minX : Rat) ≤ x) (hx2 : x < ((minX + cx * ((maxX - minX) / cx) : Int) : Rat))
    (hy1 : (minY : Rat) ≤ y) (hy2 : y < ((minY + cy * ((maxY - minY) / cy) : Int) : Rat)) :
    ∃ gid g, gidByPos (newMgr minX maxX cx minY maxY cy) x y = some gid ∧ (newMgr minX maxX cx minY maxY cy).grids gid = some g ∧ Contains g x y := by
  have ew : width minX maxX cx = (maxX - minX) / cx := by unfold width; rw [Int.tdiv_eq_ediv_of_nonneg (by omega)]
  have el : width minY maxY cy = (maxY - minY) / cy := by unfold width; rw [Int.tdiv_eq_ediv_of_nonneg (by omega)]
  have pw : 1 ≤ (maxX - minX) / cx := (Int.le_ediv_iff_mul_le hcx).mpr (by omega)
  have pl : 1 ≤ (maxY - minY) / cy := (Int.le_ediv_iff_mul_le hcy).mpr (by omega)
  obtain ⟨a1, a2, a3⟩ := axis h0x pw hx1 hx2
  obtain ⟨b1, b2, b3⟩ := axis h0y pl hy1 hy2
  refine ⟨_, _, ?_, grids_cell a1 b1, ?_⟩
  · unfold gidByPos
    show (if cx = 0 ∨ cy = 0 then none else _) = _
    rw [if_neg (by omega)]
    show (if width minX maxX cx = 0 ∨ width minY maxY cy = 0 then none else some ((toInt y - minY).tdiv (width minY maxY cy) * cx +
      (toInt x - minX).tdiv (width minX maxX cx))) = _
    rw [ew, el, if_neg (by omega)]
  · unfold Contains cell
    dsimp only
    rw [ew, el]
    exact ⟨a2, a3, b2, b3⟩

/-- **C64 refuted.** In the demo world (85..410 by 75..400, 10 by 20 grids) position (407, 80) is within the bounds but is looked up as grid 10, whose rectangle
is at the other side; (90, 398) is looked up as a grid that does not exist; and in a world with negative coordinates a position is looked up in the wrong
grid. -/
theorem C64_refuted :
    ((85 : Rat) ≤ 407 ∧ (407 : Rat) ≤ 410 ∧ (75 : Rat) ≤ 80 ∧ (80 : Rat) ≤ 400 ∧ gidByPos demo 407 80 = some 10 ∧
      demo.grids 10 = some ⟨10, 85, 117, 91, 107⟩) ∧
    ((85 : Rat) ≤ 90 ∧ (90 : Rat) ≤ 410 ∧ (75 : Rat) ≤ 398 ∧ (398 : Rat) ≤ 400 ∧ ∃ g, gidByPos demo 90 398 = some g ∧ demo.grids g = none) ∧
    (gidByPos (newMgr (-3) 2 5 0 1 1) (-5 / 2) 0 = some 1 ∧ (newMgr (-3) 2 5 0 1 1).grids 1 = some ⟨1, -2, -1, 0, 1⟩) := by
  refine ⟨by decide +kernel, ⟨by decide +kernel, by decide +kernel, by decide +kernel, by decide +kernel, 200, by decide +kernel, by decide +kernel⟩,
    by decide +kernel⟩

/-- The starting area of the demo. -/
example : gidByPos demo (1601 / 10) 150 = some 42 ∧ demo.grids 42 = some ⟨42, 149, 181, 139, 155⟩ := by decide +kernel

/-! ## C71 and C72 -/

/-- The position has a grid. -/
def Lands (m : Mgr) (p : Rat × Rat) : Prop := ∃ g c, gidByPos m p.1 p.2 = some g ∧ m.grids g = some c

/-- The positions given in an operation have grids. -/
def OpLands (m : Mgr) : Op → Prop
  | .add _ p => Lands m p
  | .move _ p => Lands m p
  | .lost _ => True

/-- The world after some operations. -/
def runWorld (m : Mgr) (w : World) (ops : List Op) : World := ops.foldl (fun w o => (w.op m o).world) w

/-- Grid of an online player, by position. -/
def gridOf (m : Mgr) (w : World) (pid : Int) : Option Int := (w.pos pid).bind fun p => gidByPos m p.1 p.2

/-- Every player is listed exactly in the grid of its position, once; every online player's position has a grid. -/
structure Tidy (m : Mgr) (w : World) : Prop where
  listed : ∀ pid g, pid ∈ w.members g ↔ gridOf m w pid = some g
  once : ∀ g, (w.members g).Nodup
  lands : ∀ pid p, w.pos pid = some p → Lands m p

theorem tidy_empty (m : Mgr) : Tidy m World.empty :=
  ⟨fun pid g => by unfold gridOf World.empty; simp, fun _ => List.nodup_nil, nofun⟩

theorem gridOf_setPos (m : Mgr) (w : World) (pid q : Int) (p : Option (Rat × Rat)) :
    gridOf m (w.setPos pid p) q = if q = pid then p.bind fun p => gidByPos m p.1 p.2 else gridOf m w q := by
  unfold gridOf World.setPos
  dsimp only
  by_cases h : q = pid
  · rw [if_pos h, if_pos h]
  · rw [if_neg h, if_neg h]

theorem mem_addTo (w : World) (pid g q h : Int) : q ∈ (w.addTo pid g).members h ↔ q ∈ w.members h ∨ (q = pid ∧ h = g) := by
  unfold World.addTo
  dsimp only
  by_cases e : h = g
  · rw [if_pos e]
    by_cases e2 : pid ∈ w.members h
    · rw [if_pos e2]
      constructor
      · exact .inl
      · rintro (h1 | ⟨rfl, _⟩)
        · exact h1
        · exact e2
    · rw [if_neg e2, List.mem_append, List.mem_singleton]
      constructor
      · rintro (h1 | h1)
        · exact .inl h1
        · exact .inr ⟨h1, e⟩
      · rintro (h1 | h1)
        · exact .inl h1
        · exact .inr h1.1
  · rw [if_neg e]
    constructor
    · exact .inl
    · rintro (h1 | h1)
      · exact h1
      · exact absurd h1.2 e

theorem mem_removeFrom (w : World) (pid g q h : Int) : q ∈ (w.removeFrom pid g).members h ↔ q ∈ w.members h ∧ ¬ (q = pid ∧ h = g) := by
  unfold World.removeFrom
  dsimp only
  by_cases e : h = g
  · rw [if_pos e, List.mem_filter]
    constructor
    · rintro ⟨a, b⟩
      exact ⟨a, fun x => (of_decide_eq_true b) x.1⟩
    · rintro ⟨a, b⟩
      exact ⟨a, decide_eq_true fun x => b ⟨x, e⟩⟩
  · rw [if_neg e]
    exact ⟨fun a => ⟨a, fun x => e x.2⟩, fun a => a.1⟩

theorem nodup_addTo {w : World} (h : ∀ g, (w.members g).Nodup) (pid g : Int) (j : Int) : ((w.addTo pid g).members j).Nodup := by
  unfold World.addTo
  dsimp only
  by_cases e : j = g
  · rw [if_pos e]
    by_cases e2 : pid ∈ w.members j
    · rw [if_pos e2]; exact h j
    · rw [if_neg e2, List.nodup_append]
      refine ⟨h j, by simp, ?_⟩
      intro a ha b hb
      rw [List.mem_singleton] at hb
      subst hb
      intro e3
      exact e2 (e3 ▸ ha)
  · rw [if_neg e]; exact h j

theorem nodup_removeFrom {w : World} (h : ∀ g, (w.members g).Nodup) (pid g : Int) (j : Int) : ((w.removeFrom pid g).members j).Nodup := by
  unfold World.removeFrom
  dsimp only
  by_cases e : j = g
  · rw [if_pos e]; exact (h j).filter _
  · rw [if_neg e]; exact h j

theorem pos_setPos (w : World) (pid q : Int) (p : Option (Rat × Rat)) : (w.setPos pid p).pos q = if q = pid then p else w.pos q := rfl

theorem tidy_op {m : Mgr} {w : World} (hw : Tidy m w) (o : Op) (ho : OpLands m o) : Tidy m (w.op m o).world ∧ (w.op m o).panicked = false := by
  cases o with
  | add pid p =>
    cases hp : w.pos pid with
    | some _ =>
      have eo : w.op m (.add pid p) = ⟨w, [], false⟩ := by unfold World.op; dsimp only; rw [hp]
      rw [eo]; exact ⟨hw, rfl⟩
    | none =>
      have eo : w.op m (.add pid p) = Aoi.add m w pid p := by unfold World.op; dsimp only; rw [hp]
      rw [eo]
      obtain ⟨g, c, hg, hc⟩ := ho
      unfold Aoi.add
      rw [hg]
      dsimp only
      rw [if_neg (by rw [hc]; nofun)]
      refine ⟨⟨?_, ?_, ?_⟩, rfl⟩
      · intro q h
        dsimp only
        rw [mem_addTo]
        show q ∈ w.members h ∨ _ ↔ gridOf m (w.setPos pid (some p)) q = some h
        rw [gridOf_setPos, hw.listed q h]
        by_cases e : q = pid
        · rw [if_pos e]
          subst e
          have e0 : gridOf m w q = none := by unfold gridOf; rw [hp]; rfl
          rw [e0]
          show _ ↔ gidByPos m p.1 p.2 = some h
          rw [hg]
          constructor
          · rintro (h1 | h1)
            · cases h1
            · rw [h1.2]
          · intro h1
            injection h1 with h1
            exact .inr ⟨rfl, h1.symm⟩
        · rw [if_neg e]
          constructor
          · rintro (h1 | h1)
            · exact h1
            · exact absurd h1.1 e
          · exact .inl
      · exact nodup_addTo (w := w.setPos pid (some p)) hw.once pid g
      · intro q p' hq
        have hq' : (if q = pid then some p else w.pos q) = some p' := hq
        by_cases e : q = pid
        · rw [if_pos e] at hq'
          injection hq' with hq'
          rw [← hq']
          exact ⟨g, c, hg, hc⟩
        · rw [if_neg e] at hq'
          exact hw.lands q p' hq'
  | move pid p =>
    cases hp : w.pos pid with
    | none =>
      have eo : w.op m (.move pid p) = ⟨w, [], false⟩ := by unfold World.op; dsimp only; rw [hp]
      rw [eo]; exact ⟨hw, rfl⟩
    | some p0 =>
      have eo : w.op m (.move pid p) = Aoi.move m w pid p0 p := by unfold World.op; dsimp only; rw [hp]
      rw [eo]
      obtain ⟨new, cn, hn, hcn⟩ := ho
      obtain ⟨old, co, hold, hco⟩ := hw.lands pid p0 hp
      have g0 : gridOf m w pid = some old := by unfold gridOf; rw [hp]; exact hold
      have lands : ∀ q p', (if q = pid then some p else w.pos q) = some p' → Lands m p' := by
        intro q p' hq
        by_cases e : q = pid
        · rw [if_pos e] at hq
          injection hq with hq
          rw [← hq]
          exact ⟨new, cn, hn, hcn⟩
        · rw [if_neg e] at hq
          exact hw.lands q p' hq
      unfold Aoi.move
      rw [hn, hold]
      dsimp only
      by_cases e : old = new
      · rw [if_pos e]
        refine ⟨⟨?_, hw.once, lands⟩, rfl⟩
        intro q h
        show q ∈ w.members h ↔ gridOf m (w.setPos pid (some p)) q = some h
        rw [gridOf_setPos, hw.listed q h]
        by_cases e2 : q = pid
        · rw [if_pos e2, e2, g0, e]
          show _ ↔ gidByPos m p.1 p.2 = some h
          rw [hn]
        · rw [if_neg e2]
      · rw [if_neg e, if_neg (by rw [hco]; nofun), if_neg (by rw [hcn]; nofun)]
        refine ⟨⟨?_, ?_, lands⟩, rfl⟩
        · intro q h
          dsimp only
          rw [mem_addTo, mem_removeFrom]
          show (q ∈ w.members h ∧ _) ∨ _ ↔ gridOf m (w.setPos pid (some p)) q = some h
          rw [gridOf_setPos, hw.listed q h]
          by_cases e2 : q = pid
          · rw [if_pos e2, e2, g0]
            show _ ↔ gidByPos m p.1 p.2 = some h
            rw [hn]
            constructor
            · rintro (⟨h1, h2⟩ | ⟨_, h2⟩)
              · injection h1 with h1
                exact absurd ⟨rfl, h1.symm⟩ h2
              · rw [h2]
            · intro h1
              injection h1 with h1
              exact .inr ⟨rfl, h1.symm⟩
          · rw [if_neg e2]
            constructor
            · rintro (⟨h1, _⟩ | ⟨h1, _⟩)
              · exact h1
              · exact absurd h1 e2
            · intro h1
              exact .inl ⟨h1, fun x => e2 x.1⟩
        · exact nodup_addTo (nodup_removeFrom (w := w.setPos pid (some p)) hw.once pid old) pid new
  | lost pid =>
    cases hp : w.pos pid with
    | none =>
      have eo : w.op m (.lost pid) = ⟨w, [], false⟩ := by unfold World.op; dsimp only; rw [hp]
      rw [eo]; exact ⟨hw, rfl⟩
    | some p0 =>
      have eo : w.op m (.lost pid) = Aoi.lost m w pid p0 := by unfold World.op; dsimp only; rw [hp]
      rw [eo]
      obtain ⟨old, co, hold, hco⟩ := hw.lands pid p0 hp
      have g0 : gridOf m w pid = some old := by unfold gridOf; rw [hp]; exact hold
      unfold Aoi.lost
      rw [hold]
      dsimp only
      rw [if_neg (by rw [hco]; nofun)]
      refine ⟨⟨?_, nodup_removeFrom hw.once pid old, ?_⟩, rfl⟩
      · intro q h
        rw [gridOf_setPos]
        show q ∈ (w.removeFrom pid old).members h ↔ _
        rw [mem_removeFrom, hw.listed q h]
        by_cases e2 : q = pid
        · rw [if_pos e2, e2, g0]
          constructor
          · rintro ⟨h1, h2⟩
            injection h1 with h1
            exact absurd ⟨rfl, h1.symm⟩ h2
          · intro h1; cases h1
        · rw [if_neg e2]
          exact ⟨fun x => x.1, fun x => ⟨x, fun y => e2 y.1⟩⟩
      · intro q p' hq
        have hq' : (if q = pid then none else w.pos q) = some p' := hq
        by_cases e : q = pid
        · rw [if_pos e] at hq'; cases hq'
        · rw [if_neg e] at hq'
          exact hw.lands q p' hq'

theorem tidy_run {m : Mgr} (ops : List Op) : ∀ {w : World}, Tidy m w → (∀ o ∈ ops, OpLands m o) → Tidy m (runWorld m w ops) := by
  induction ops with
  | nil => intro w h _; exact h
  | cons o ops ih =>
    intro w h hl
    exact ih (tidy_op h o (hl o List.mem_cons_self)).1 (fun o' ho => hl o' (List.mem_cons_of_mem _ ho))

/-- **C71.** As long as every position given has a grid, after any history of arrivals, moves and departures every online player is listed once in
the grid of its position and in no other, and players that are not online are listed nowhere; the next such operation does not panic. -/
theorem C71_listed (m : Mgr) (ops : List Op) (hl : ∀ o ∈ ops, OpLands m o) (o : Op) (ho : OpLands m o) :
    (∀ pid p, (runWorld m .empty ops).pos pid = some p → ∃ g, gidByPos m p.1 p.2 = some g ∧
      (∀ h, pid ∈ (runWorld m .empty ops).members h ↔ h = g) ∧ ((runWorld m .empty ops).members g).Nodup) ∧
    (∀ pid, (runWorld m .empty ops).pos pid = none → ∀ h, pid ∉ (runWorld m .empty ops).members h) ∧
    ((runWorld m .empty ops).op m o).panicked = false := by
  have ht := tidy_run ops (tidy_empty m) hl
  refine ⟨?_, ?_, (tidy_op ht o ho).2⟩
  · intro pid p hp
    obtain ⟨g, c, hg, hc⟩ := ht.lands pid p hp
    have e : gridOf m (runWorld m .empty ops) pid = some g := by unfold gridOf; rw [hp]; exact hg
    refine ⟨g, hg, ?_, ht.once g⟩
    intro h
    rw [ht.listed, e]
    exact ⟨fun x => (Option.some.inj x).symm, fun x => by rw [x]⟩
  · intro pid hp h hm
    rw [ht.listed] at hm
    unfold gridOf at hm
    rw [hp] at hm
    cases hm

/-- Two players, one moving to another grid, the other leaving. -/
example : (∀ o ∈ [Op.add 1 (160, 134), Op.add 2 (170, 150), Op.move 1 (200, 134), Op.lost 2], OpLands demo o) ∧
    (runWorld demo .empty [Op.add 1 (160, 134), Op.add 2 (170, 150), Op.move 1 (200, 134), Op.lost 2]).members 33 = [1] ∧
    (runWorld demo .empty [Op.add 1 (160, 134), Op.add 2 (170, 150), Op.move 1 (200, 134), Op.lost 2]).members 42 = [] := by
  refine ⟨?_, by decide +kernel, by decide +kernel⟩
  intro o ho
  simp only [List.mem_cons, List.not_mem_nil, or_false] at ho
  rcases ho with rfl | rfl | rfl | rfl
  · exact ⟨32, ⟨32, 149, 181, 123, 139⟩, by decide +kernel, by decide +kernel⟩
  · exact ⟨42, ⟨42, 149, 181, 139, 155⟩, by decide +kernel, by decide +kernel⟩
  · exact ⟨33, ⟨33, 181, 213, 123, 139⟩, by decide +kernel, by decide +kernel⟩
  · trivial

/-- A client may send any position. One without a grid makes the handler panic and leaves its player, still online, listed in no grid. -/
theorem C71_outside (m : Mgr) (ops : List Op) (hl : ∀ o ∈ ops, OpLands m o) (pid : Int) (p0 p : Rat × Rat)
    (hon : (runWorld m .empty ops).pos pid = some p0) (new : Int) (hn : gidByPos m p.1 p.2 = some new) (hno : m.grids new = none) :
    ((runWorld m .empty ops).op m (.move pid p)).panicked = true ∧ (runWorld m .empty (ops ++ [.move pid p])).pos pid = some p ∧
    ∀ g, pid ∉ (runWorld m .empty (ops ++ [.move pid p])).members g := by
  have ht := tidy_run ops (tidy_empty m) hl
  have ew : runWorld m .empty (ops ++ [.move pid p]) = ((runWorld m .empty ops).op m (.move pid p)).world := by
    unfold runWorld; rw [List.foldl_append]; rfl
  rw [ew]
  generalize runWorld m .empty ops = w at *
  obtain ⟨old, co, hold, hco⟩ := ht.lands pid p0 hon
  have g0 : gridOf m w pid = some old := by unfold gridOf; rw [hon]; exact hold
  have er : w.op m (.move pid p) = ⟨(w.setPos pid (some p)).removeFrom pid old, [], true⟩ := by
    have eo : w.op m (.move pid p) = Aoi.move m w pid p0 p := by unfold World.op; dsimp only; rw [hon]
    rw [eo]
    unfold Aoi.move
    rw [hold, hn]
    dsimp only
    rw [if_neg (fun e => by rw [e, hno] at hco; cases hco), if_neg (by rw [hco]; nofun), if_pos hno]
  rw [er]
  refine ⟨rfl, ?_, ?_⟩
  · show (if pid = pid then some p else w.pos pid) = some p
    rw [if_pos rfl]
  · intro g hm
    dsimp only at hm
    rw [mem_removeFrom] at hm
    have h3 := (ht.listed pid g).1 hm.1
    rw [g0] at h3
    injection h3 with h3
    exact hm.2 ⟨rfl, h3.symm⟩

example : gidByPos demo 160 1000 = some 572 ∧ demo.grids 572 = none := by decide +kernel

/-- Player `q` sees the grid of player `p`. -/
def Sees (m : Mgr) (w : World) (p q : Int) : Prop := ∃ g h, gridOf m w p = some g ∧ gridOf m w q = some h ∧ h ∈ nearby m g

theorem mem_tell (w : World) (pid : Int) (s : Sight) (gs : List Grid) (q : Int) (hq : q ≠ pid) (t : Sight) :
    (⟨q, t, pid⟩ ∈ tell w pid s gs ↔ t = s ∧ ∃ g ∈ gs, q ∈ w.members g.gid) ∧
    (⟨pid, t, q⟩ ∈ tell w pid s gs ↔ t = s ∧ ∃ g ∈ gs, q ∈ w.members g.gid) := by
  unfold tell
  constructor
  · simp only [List.mem_flatMap, List.mem_cons, List.not_mem_nil, or_false, Msg.mk.injEq]
    constructor
    · rintro ⟨g, hg, r, hr, h1 | h1⟩
      · obtain ⟨rfl, rfl⟩ : q = r ∧ t = s := by simpa using h1
        exact ⟨rfl, g, hg, hr⟩
      · exact absurd h1.1 hq
    · rintro ⟨rfl, g, hg, hr⟩
      exact ⟨g, hg, q, hr, .inl (by simp)⟩
  · simp only [List.mem_flatMap, List.mem_cons, List.not_mem_nil, or_false, Msg.mk.injEq]
    constructor
    · rintro ⟨g, hg, r, hr, ⟨_, _, rfl⟩ | ⟨_, rfl, rfl⟩⟩
      · exact absurd rfl hq
      · exact ⟨rfl, g, hg, hr⟩
    · rintro ⟨rfl, g, hg, hr⟩
      exact ⟨g, hg, q, hr, .inr (by simp)⟩

/-- **C72.** When a player moves, another player is told of the mover's appearance, and the mover of the other's, iff the other's grid is in the mover's
neighbourhood after the move and was not before; and of the disappearance iff it was before and is not any more. -/
theorem C72_sight (m : Mgr) (ops : List Op) (hl : ∀ o ∈ ops, OpLands m o) (pid : Int) (p : Rat × Rat) (hp : Lands m p) (q : Int) (hq : q ≠ pid)
    (hon : ∃ p0, (runWorld m .empty ops).pos pid = some p0) :
    let w := runWorld m .empty ops
    let r := w.op m (.move pid p)
    (⟨q, .appears, pid⟩ ∈ r.msgs ↔ Sees m r.world pid q ∧ ¬ Sees m w pid q) ∧
    (⟨pid, .appears, q⟩ ∈ r.msgs ↔ Sees m r.world pid q ∧ ¬ Sees m w pid q) ∧
    (⟨q, .disappears, pid⟩ ∈ r.msgs ↔ Sees m w pid q ∧ ¬ Sees m r.world pid q) ∧
    (⟨pid, .disappears, q⟩ ∈ r.msgs ↔ Sees m w pid q ∧ ¬ Sees m r.world pid q) := by
  intro w r
  have ht : Tidy m w := tidy_run ops (tidy_empty m) hl
  have ht' : Tidy m r.world := (tidy_op ht (.move pid p) hp).1
  obtain ⟨p0, hp0⟩ := hon
  obtain ⟨new, cn, hn, hcn⟩ := hp
  obtain ⟨old, co, hold, hco⟩ := ht.lands pid p0 hp0
  have er : r = Aoi.move m w pid p0 p := by
    show (match w.pos pid with | none => ⟨w, [], false⟩ | some p0 => Aoi.move m w pid p0 p : Result) = _
    have : w.pos pid = some p0 := hp0
    rw [this]
  have gw : gridOf m w pid = some old := by unfold gridOf; rw [show w.pos pid = some p0 from hp0]; exact hold
  have ew : ∀ j, (r.world.pos j) = if j = pid then some p else w.pos j := by
    intro j
    rw [er]
    unfold Aoi.move
    rw [hn, hold]
    dsimp only
    by_cases e : old = new
    · rw [if_pos e]; rfl
    · rw [if_neg e, if_neg (by rw [hco]; nofun), if_neg (by rw [hcn]; nofun)]; rfl
  have gr : gridOf m r.world pid = some new := by unfold gridOf; rw [ew, if_pos rfl]; exact hn
  have gq : gridOf m r.world q = gridOf m w q := by unfold gridOf; rw [ew, if_neg hq]
  have sw : Sees m w pid q ↔ ∃ h, gridOf m w q = some h ∧ h ∈ nearby m old := by
    constructor
    · rintro ⟨g, h, h1, h2, h3⟩
      rw [gw] at h1
      injection h1 with h1
      subst h1
      exact ⟨h, h2, h3⟩
    · rintro ⟨h, h2, h3⟩; exact ⟨old, h, gw, h2, h3⟩
  have sr : Sees m r.world pid q ↔ ∃ h, gridOf m w q = some h ∧ h ∈ nearby m new := by
    constructor
    · rintro ⟨g, h, h1, h2, h3⟩
      rw [gr] at h1
      injection h1 with h1
      subst h1
      exact ⟨h, by rw [← gq]; exact h2, h3⟩
    · rintro ⟨h, h2, h3⟩; exact ⟨new, h, gr, by rw [gq]; exact h2, h3⟩
  have diff : ∀ a b : Int, (∃ g ∈ ((surround m a).filterMap id).filter (fun g => g.gid ∉ ((surround m b).filterMap id).map (·.gid)),
      q ∈ r.world.members g.gid) ↔ (∃ h, gridOf m w q = some h ∧ h ∈ nearby m a) ∧ ¬ ∃ h, gridOf m w q = some h ∧ h ∈ nearby m b := by
    intro a b
    constructor
    · rintro ⟨g, hg, hm⟩
      rw [List.mem_filter] at hg
      rw [ht'.listed, gq] at hm
      refine ⟨⟨g.gid, hm, List.mem_map_of_mem hg.1⟩, ?_⟩
      rintro ⟨h, h1, h2⟩
      rw [hm] at h1
      injection h1 with h1
      rw [← h1] at h2
      exact (of_decide_eq_true hg.2) h2
    · rintro ⟨⟨h, h1, h2⟩, h3⟩
      unfold nearby at h2
      rw [List.mem_map] at h2
      obtain ⟨g, hg, rfl⟩ := h2
      refine ⟨g, ?_, by rw [ht'.listed, gq]; exact h1⟩
      rw [List.mem_filter]
      exact ⟨hg, decide_eq_true fun hb => h3 ⟨g.gid, h1, hb⟩⟩
  rw [sw, sr]
  by_cases e : old = new
  · have em : r.msgs = [] := by
      rw [er]
      unfold Aoi.move
      rw [hn, hold]
      dsimp only
      rw [if_pos e]
    rw [em, e]
    simp
  · have em : r.msgs = exchange m r.world pid old new := by
      rw [er]
      unfold Aoi.move
      rw [hn, hold]
      dsimp only
      rw [if_neg e, if_neg (by rw [hco]; nofun), if_neg (by rw [hcn]; nofun)]
    rw [em]
    unfold exchange
    dsimp only
    simp only [List.mem_append, mem_tell _ _ _ _ _ hq, diff]
    simp

/-- A player walks out of sight of another and into that of a third. -/
example : ((runWorld demo .empty [Op.add 1 (160, 134), Op.add 2 (120, 134), Op.add 3 (220, 134)]).op demo (Op.move 1 (190, 134))).msgs =
    [⟨2, .disappears, 1⟩, ⟨1, .disappears, 2⟩, ⟨3, .appears, 1⟩, ⟨1, .appears, 3⟩] := by decide +kernel

end Zinx.Props
