import Verif.Model.Screen
import Verif.Props.Aoi

/-!
# C140: what the clients of the multiplayer demo show
-/

namespace Zinx.Props

open Zinx.Aoi
open Zinx.Screen (Place Scene Sent Note)

/-- What a client does with a message: 1 begins with an empty screen, 200 and 202 put players where they are said to be, 201 removes a player. The screen
is a map from players to places; `scr r` is that of the client of player `r`. -/
def showing (scr : Int → Int → Option Place) (s : Sent) : Int → Int → Option Place := fun r q =>
  if r = s.to then
    match s.note with
    | .you _ => none
    | .here pid p => if q = pid then some p else scr r q
    | .gone pid => if q = pid then none else scr r q
    | .all ps => ps.foldl (fun (f : Int → Option Place) e => fun x => if x = e.1 then some e.2 else f x) (scr r) q
  else scr r q

/-- The scene and all screens after some operations. -/
def runScene (m : Mgr) (ops : List Screen.Op) : Scene × (Int → Int → Option Place) :=
  ops.foldl (fun st o => ((st.1.op m o).scene, (st.1.op m o).sent.foldl showing st.2)) (Scene.empty, fun _ _ => none)

/-- Where the players are: the place last given by the player or at its arrival. -/
def whereabouts (ops : List Screen.Op) : Int → Option Place :=
  ops.foldl (fun wh o => match o with
    | .arrive pid p => fun q => if q = pid ∧ wh q = none then some p else wh q
    | .move pid p => fun q => if q = pid ∧ wh q ≠ none then some p else wh q
    | .lost pid => fun q => if q = pid then none else wh q) (fun _ => none)

/-- Two places lie in the same grid or in adjacent ones (also diagonally). -/
def Close (m : Mgr) (a b : Place) : Prop :=
  ∃ g h, gidByPos m a.x a.z = some g ∧ gidByPos m b.x b.z = some h ∧
    (h % m.cntsX - g % m.cntsX ≤ 1 ∧ g % m.cntsX - h % m.cntsX ≤ 1) ∧ (h / m.cntsX - g / m.cntsX ≤ 1 ∧ g / m.cntsX - h / m.cntsX ≤ 1)

/-- The places given in an operation have grids. -/
def PlaceLands (m : Mgr) : Screen.Op → Prop
  | .arrive _ p => Lands m p.flat
  | .move _ p => Lands m p.flat
  | .lost _ => True

/-- `Close` by the neighbourhoods of the code. -/
def Near (m : Mgr) (a b : Place) : Prop := ∃ g h, gidByPos m a.x a.z = some g ∧ gidByPos m b.x b.z = some h ∧ h ∈ nearby m g

theorem near_close {minX maxX cx minY maxY cy : Int} (hcx : 0 < cx) (hcy : 0 < cy) {a b : Place}
    (ha : Lands (newMgr minX maxX cx minY maxY cy) a.flat) (hb : Lands (newMgr minX maxX cx minY maxY cy) b.flat) :
    Near (newMgr minX maxX cx minY maxY cy) a b ↔ Close (newMgr minX maxX cx minY maxY cy) a b := by
  have rng : ∀ j c, (newMgr minX maxX cx minY maxY cy).grids j = some c → 0 ≤ j ∧ j < cy * cx := by
    intro j c hj
    rw [grids_get (by omega) (by omega)] at hj
    by_cases h : 0 ≤ j ∧ j < cy * cx
    · exact h
    · rw [if_neg h] at hj; cases hj
  obtain ⟨ga, ca, ha1, ha2⟩ := ha
  obtain ⟨gb, cb, hb1, hb2⟩ := hb
  have ha1' : gidByPos (newMgr minX maxX cx minY maxY cy) a.x a.z = some ga := ha1
  have hb1' : gidByPos (newMgr minX maxX cx minY maxY cy) b.x b.z = some gb := hb1
  unfold Near Close
  constructor
  · rintro ⟨g, h, h1, h2, h3⟩
    rw [mem_nearby _ _ _ _ _ _ _ _ hcx hcy] at h3
    exact ⟨g, h, h1, h2, h3.2.2⟩
  · rintro ⟨g, h, h1, h2, h3⟩
    refine ⟨g, h, h1, h2, ?_⟩
    rw [mem_nearby _ _ _ _ _ _ _ _ hcx hcy]
    rw [ha1'] at h1; rw [hb1'] at h2
    injection h1 with h1; injection h2 with h2
    subst h1; subst h2
    exact ⟨rng _ _ ha2, rng _ _ hb2, h3⟩

theorem near_symm {minX maxX cx minY maxY cy : Int} (hcx : 0 < cx) (hcy : 0 < cy) {a b : Place}
    (h : Near (newMgr minX maxX cx minY maxY cy) a b) : Near (newMgr minX maxX cx minY maxY cy) b a := by
  obtain ⟨g, h, h1, h2, h3⟩ := h
  exact ⟨h, g, h2, h1, (C63_symmetric _ _ _ _ _ _ _ _ hcx hcy).1 h3⟩

theorem near_refl {minX maxX cx minY maxY cy : Int} (hcx : 0 < cx) (hcy : 0 < cy) {a : Place}
    (h : Lands (newMgr minX maxX cx minY maxY cy) a.flat) : Near (newMgr minX maxX cx minY maxY cy) a a := by
  rw [near_close hcx hcy h h]
  obtain ⟨g, _, h1, _⟩ := h
  exact ⟨g, g, h1, h1, by omega, by omega⟩

/-! ### Effects of messages on screens -/

theorem shows_heres (place : Int → Place) : ∀ (l : List Sent) (scr : Int → Int → Option Place),
    (∀ e ∈ l, ∃ r x, e = ⟨r, .here x (place x)⟩) → ∀ r x,
    l.foldl showing scr r x = if (⟨r, .here x (place x)⟩ : Sent) ∈ l then some (place x) else scr r x := by
  intro l
  induction l with
  | nil => intro scr _ r x; simp
  | cons e l ih =>
    intro scr hl r x
    rw [List.foldl_cons, ih _ (fun e' he => hl e' (List.mem_cons_of_mem _ he))]
    obtain ⟨r', x', rfl⟩ := hl e List.mem_cons_self
    by_cases h : (⟨r, .here x (place x)⟩ : Sent) ∈ l
    · rw [if_pos h, if_pos (List.mem_cons_of_mem _ h)]
    · rw [if_neg h]
      unfold showing
      dsimp only
      by_cases h1 : r = r'
      · subst h1
        rw [if_pos rfl]
        by_cases h2 : x = x'
        · subst h2
          rw [if_pos rfl, if_pos List.mem_cons_self]
        · rw [if_neg h2, if_neg]
          rw [List.mem_cons]
          rintro (h3 | h3)
          · injection h3 with _ h3
            injection h3 with h3
            exact h2 h3
          · exact h h3
      · rw [if_neg h1, if_neg]
        rw [List.mem_cons]
        rintro (h3 | h3)
        · injection h3 with h3
          exact h1 h3
        · exact h h3

theorem shows_gones : ∀ (l : List Sent) (scr : Int → Int → Option Place),
    (∀ e ∈ l, ∃ r x, e = ⟨r, .gone x⟩) → ∀ r x,
    l.foldl showing scr r x = if (⟨r, .gone x⟩ : Sent) ∈ l then none else scr r x := by
  intro l
  induction l with
  | nil => intro scr _ r x; simp
  | cons e l ih =>
    intro scr hl r x
    rw [List.foldl_cons, ih _ (fun e' he => hl e' (List.mem_cons_of_mem _ he))]
    obtain ⟨r', x', rfl⟩ := hl e List.mem_cons_self
    by_cases h : (⟨r, .gone x⟩ : Sent) ∈ l
    · rw [if_pos h, if_pos (List.mem_cons_of_mem _ h)]
    · rw [if_neg h]
      unfold showing
      dsimp only
      by_cases h1 : r = r'
      · subst h1
        rw [if_pos rfl]
        by_cases h2 : x = x'
        · subst h2
          rw [if_pos rfl, if_pos List.mem_cons_self]
        · rw [if_neg h2, if_neg]
          rw [List.mem_cons]
          rintro (h3 | h3)
          · injection h3 with _ h3
            injection h3 with h3
            exact h2 h3
          · exact h h3
      · rw [if_neg h1, if_neg]
        rw [List.mem_cons]
        rintro (h3 | h3)
        · injection h3 with h3
          exact h1 h3
        · exact h h3

theorem fold_all (place : Int → Place) (l : List Int) : ∀ (f : Int → Option Place) (x : Int),
    (l.map fun q => (q, place q)).foldl (fun (f : Int → Option Place) e => fun x => if x = e.1 then some e.2 else f x) f x =
      if x ∈ l then some (place x) else f x := by
  induction l with
  | nil => intro f x; simp
  | cons q l ih =>
    intro f x
    rw [List.map_cons, List.foldl_cons, ih]
    dsimp only
    by_cases h : x ∈ l
    · rw [if_pos h, if_pos (List.mem_cons_of_mem _ h)]
    · rw [if_neg h]
      by_cases h2 : x = q
      · subst h2; rw [if_pos rfl, if_pos List.mem_cons_self]
      · rw [if_neg h2, if_neg]
        rw [List.mem_cons]
        rintro (h3 | h3)
        · exact h2 h3
        · exact h h3

/-! ### The invariant -/

/-- Scene, screens and whereabouts fit together. -/
structure SceneFits (m : Mgr) (s : Scene) (scr : Int → Int → Option Place) (wh : Int → Option Place) : Prop where
  tidy : Tidy m s.world
  pos : ∀ pid, s.world.pos pid = (wh pid).map Place.flat
  place : ∀ pid p, wh pid = some p → s.place pid = p
  screen : ∀ r a, wh r = some a → ∀ q b, scr r q = some b ↔ wh q = some b ∧ Near m a b

/-- Players of a grid. -/
theorem mem_grid {m : Mgr} {w : World} {wh : Int → Option Place} (ht : Tidy m w) (hp : ∀ pid, w.pos pid = (wh pid).map Place.flat) (q h : Int) :
    q ∈ w.members h ↔ ∃ b, wh q = some b ∧ gidByPos m b.x b.z = some h := by
  rw [ht.listed]
  unfold gridOf
  rw [hp q]
  cases wh q with
  | none => simp
  | some b => simp [Place.flat]

theorem mem_scene_around {m : Mgr} {w : World} {wh : Int → Option Place} (ht : Tidy m w) (hp : ∀ pid, w.pos pid = (wh pid).map Place.flat)
    (a : Place) (q : Int) : q ∈ Screen.around m w a ↔ ∃ b, wh q = some b ∧ Near m a b := by
  unfold Screen.around
  cases hg : gidByPos m a.x a.z with
  | none =>
    dsimp only
    constructor
    · intro h; cases h
    · rintro ⟨b, _, g, h, h1, _⟩
      rw [hg] at h1; cases h1
  | some g =>
    dsimp only
    rw [List.mem_flatMap]
    constructor
    · rintro ⟨c, hc, hq⟩
      obtain ⟨b, hb, hb2⟩ := (mem_grid ht hp q c.gid).1 hq
      exact ⟨b, hb, g, c.gid, hg, hb2, List.mem_map_of_mem hc⟩
    · rintro ⟨b, hb, g', h, h1, h2, h3⟩
      rw [hg] at h1
      injection h1 with h1
      subst h1
      unfold nearby at h3
      rw [List.mem_map] at h3
      obtain ⟨c, hc, rfl⟩ := h3
      exact ⟨c, hc, (mem_grid ht hp q c.gid).2 ⟨b, hb, h2⟩⟩

/-- Players of the grids around one place but not around another. -/
theorem mem_differ {m : Mgr} {w : World} {wh : Int → Option Place} (ht : Tidy m w) (hp : ∀ pid, w.pos pid = (wh pid).map Place.flat)
    (a c : Place) (g k : Int) (hg : gidByPos m a.x a.z = some g) (hk : gidByPos m c.x c.z = some k) (q : Int) :
    q ∈ (((surround m g).filterMap id).filter (fun e => e.gid ∉ ((surround m k).filterMap id).map (·.gid))).flatMap (fun e => w.members e.gid) ↔
      ∃ b, wh q = some b ∧ Near m a b ∧ ¬ Near m c b := by
  rw [List.mem_flatMap]
  constructor
  · rintro ⟨e, he, hq⟩
    rw [List.mem_filter] at he
    obtain ⟨b, hb, hb2⟩ := (mem_grid ht hp q e.gid).1 hq
    refine ⟨b, hb, ⟨g, e.gid, hg, hb2, List.mem_map_of_mem he.1⟩, ?_⟩
    rintro ⟨g', h, h1, h2, h3⟩
    rw [hk] at h1; rw [hb2] at h2
    injection h1 with h1; injection h2 with h2
    subst h1; subst h2
    exact (of_decide_eq_true he.2) h3
  · rintro ⟨b, hb, ⟨g', h, h1, h2, h3⟩, h4⟩
    rw [hg] at h1
    injection h1 with h1
    subst h1
    unfold nearby at h3
    rw [List.mem_map] at h3
    obtain ⟨e, he, rfl⟩ := h3
    refine ⟨e, ?_, (mem_grid ht hp q e.gid).2 ⟨b, hb, h2⟩⟩
    rw [List.mem_filter]
    exact ⟨he, decide_eq_true fun hn => h4 ⟨k, e.gid, hk, h2, hn⟩⟩

/-- The operation as seen by `Model/Aoi`. -/
def flatOp : Screen.Op → Aoi.Op
  | .arrive pid p => .add pid p.flat
  | .move pid p => .move pid p.flat
  | .lost pid => .lost pid

/-- Worlds and panics are those of `Model/Aoi`. -/
theorem scene_op (m : Mgr) (s : Scene) (o : Screen.Op) :
    (s.op m o).scene.world = (s.world.op m (flatOp o)).world ∧ (s.op m o).panicked = (s.world.op m (flatOp o)).panicked := by
  cases o with
  | arrive pid p =>
    unfold Scene.op World.op flatOp
    dsimp only
    cases s.world.pos pid with
    | some _ => exact ⟨rfl, rfl⟩
    | none =>
      dsimp only
      unfold Screen.arrive
      dsimp only
      by_cases h : (Aoi.add m s.world pid p.flat).panicked = true
      · rw [if_pos h, h]; exact ⟨rfl, rfl⟩
      · rw [if_neg h]; exact ⟨rfl, (Bool.not_eq_true _ ▸ h : (Aoi.add m s.world pid p.flat).panicked = false).symm⟩
  | move pid p =>
    unfold Scene.op World.op flatOp
    dsimp only
    cases s.world.pos pid with
    | none => exact ⟨rfl, rfl⟩
    | some p0 =>
      dsimp only
      unfold Screen.move
      cases h0 : gidByPos m p0.1 p0.2 with
      | none => unfold Aoi.move; rw [h0]; exact ⟨rfl, rfl⟩
      | some old =>
        cases h1 : gidByPos m p.x p.z with
        | none =>
          have h1' : gidByPos m p.flat.1 p.flat.2 = none := h1
          unfold Aoi.move; rw [h0, h1']; exact ⟨rfl, rfl⟩
        | some new =>
          dsimp only
          by_cases h : (Aoi.move m s.world pid p0 p.flat).panicked = true
          · rw [if_pos h, h]; exact ⟨rfl, rfl⟩
          · rw [if_neg h]; exact ⟨rfl, (Bool.not_eq_true _ ▸ h : (Aoi.move m s.world pid p0 p.flat).panicked = false).symm⟩
  | lost pid =>
    unfold Scene.op World.op flatOp
    dsimp only
    cases s.world.pos pid with
    | none => exact ⟨rfl, rfl⟩
    | some p0 => exact ⟨rfl, rfl⟩

/-- One step of `whereabouts`. -/
def nextWhere (wh : Int → Option Place) : Screen.Op → Int → Option Place
  | .arrive pid p => fun q => if q = pid ∧ wh q = none then some p else wh q
  | .move pid p => fun q => if q = pid ∧ wh q ≠ none then some p else wh q
  | .lost pid => fun q => if q = pid then none else wh q

theorem fits_arrive {minX maxX cx minY maxY cy : Int} (hcx : 0 < cx) (hcy : 0 < cy) {s : Scene} {scr : Int → Int → Option Place}
    {wh : Int → Option Place} (hf : SceneFits (newMgr minX maxX cx minY maxY cy) s scr wh) (pid : Int) (p : Place)
    (hl : Lands (newMgr minX maxX cx minY maxY cy) p.flat) :
    SceneFits (newMgr minX maxX cx minY maxY cy) (s.op (newMgr minX maxX cx minY maxY cy) (.arrive pid p)).scene
      ((s.op (newMgr minX maxX cx minY maxY cy) (.arrive pid p)).sent.foldl showing scr) (nextWhere wh (.arrive pid p)) := by
  have hs := scene_op (newMgr minX maxX cx minY maxY cy) s (.arrive pid p)
  have ht := tidy_op hf.tidy (.add pid p.flat) hl
  rw [show flatOp (.arrive pid p) = .add pid p.flat from rfl] at hs
  have symm := @near_symm minX maxX cx minY maxY cy hcx hcy
  have refl := @near_refl minX maxX cx minY maxY cy hcx hcy p hl
  generalize newMgr minX maxX cx minY maxY cy = m at *
  cases hw : wh pid with
  | some a =>
    have hp : s.world.pos pid = some a.flat := by rw [hf.pos, hw]; rfl
    have e : s.op m (.arrive pid p) = ⟨s, [], false⟩ := by unfold Scene.op; dsimp only; rw [hp]
    have e2 : nextWhere wh (.arrive pid p) = wh := by
      funext q
      unfold nextWhere
      by_cases h : q = pid ∧ wh q = none
      · rw [h.1, hw] at h; cases h.2
      · exact if_neg h
    rw [e, e2]; exact hf
  | none =>
    have hp : s.world.pos pid = none := by rw [hf.pos, hw]; rfl
    have hpos : ∀ q, (s.world.op m (.add pid p.flat)).world.pos q = (nextWhere wh (.arrive pid p) q).map Place.flat := by
      intro q
      have e1 : (s.world.op m (.add pid p.flat)).world.pos q = if q = pid then some p.flat else s.world.pos q := by
        unfold World.op
        dsimp only
        rw [hp]
        dsimp only
        unfold Aoi.add
        dsimp only
        cases gidByPos m p.flat.1 p.flat.2 with
        | none => rfl
        | some g =>
          dsimp only
          by_cases hg : m.grids g = none
          · rw [if_pos hg]; rfl
          · rw [if_neg hg]; rfl
      rw [e1]
      unfold nextWhere
      dsimp only
      by_cases h : q = pid
      · subst h
        rw [if_pos rfl, if_pos ⟨rfl, hw⟩]; rfl
      · rw [if_neg h, if_neg (fun x => h x.1)]; exact hf.pos q
    have e : s.op m (.arrive pid p) = Screen.arrive m s pid p := by unfold Scene.op; dsimp only; rw [hp]
    have hnp : (Aoi.add m s.world pid p.flat).panicked = false := by
      have := ht.2
      unfold World.op at this
      dsimp only at this
      rw [hp] at this
      exact this
    have hscene : (s.op m (.arrive pid p)).scene.place = s.put pid p := by
      rw [e]; unfold Screen.arrive; dsimp only; rw [hnp]; rfl
    rw [← hs.1] at ht hpos
    have hsent : (s.op m (.arrive pid p)).sent = [⟨pid, .you pid⟩, ⟨pid, .here pid p⟩] ++
        ((Screen.around m (s.op m (.arrive pid p)).scene.world p).map (⟨·, .here pid p⟩)) ++
        [⟨pid, .all ((Screen.around m (s.op m (.arrive pid p)).scene.world p).map fun q => (q, s.put pid p q))⟩] := by
      rw [e]; unfold Screen.arrive; dsimp only; rw [hnp]; rfl
    have hmem := mem_scene_around ht.1 hpos p
    generalize hL : Screen.around m (s.op m (.arrive pid p)).scene.world p = L at *
    have hplace : ∀ q b, nextWhere wh (.arrive pid p) q = some b → s.put pid p q = b := by
      intro q b hb
      unfold nextWhere at hb
      dsimp only at hb
      unfold Scene.put
      by_cases h : q = pid
      · subst h
        rw [if_pos ⟨rfl, hw⟩] at hb
        rw [if_pos rfl]; exact Option.some.inj hb
      · rw [if_neg (fun x => h x.1)] at hb
        rw [if_neg h]; exact hf.place q b hb
    have hput : s.put pid p pid = p := if_pos rfl
    have hL0 : pid ∈ L := (hmem pid).2 ⟨p, if_pos ⟨rfl, hw⟩, refl⟩
    have hscr : ∀ r x, (s.op m (.arrive pid p)).sent.foldl showing scr r x =
        if r = pid then (if x ∈ L then some (s.put pid p x) else none) else if r ∈ L ∧ x = pid then some p else scr r x := by
      intro r x
      rw [hsent, List.foldl_append, List.foldl_append, List.foldl_cons, List.foldl_nil]
      show (if r = pid then _ else _) = _
      have hh : ∀ scr' : Int → Int → Option Place, (L.map fun q => (⟨q, .here pid p⟩ : Sent)).foldl showing scr' r x =
          if r ∈ L ∧ x = pid then some p else scr' r x := by
        intro scr'
        rw [shows_heres (s.put pid p) _ scr' (by
          intro e he
          rw [List.mem_map] at he
          obtain ⟨q, _, rfl⟩ := he
          exact ⟨q, pid, by rw [hput]⟩)]
        by_cases h : r ∈ L ∧ x = pid
        · obtain ⟨h1, rfl⟩ := h
          rw [if_pos (by rw [List.mem_map]; exact ⟨r, h1, by rw [hput]⟩), if_pos ⟨h1, rfl⟩, hput]
        · rw [if_neg h, if_neg]
          rw [List.mem_map]
          rintro ⟨q, hq, he⟩
          injection he with h1 h2
          injection h2 with h2
          exact h ⟨h1 ▸ hq, h2.symm⟩
      by_cases hr : r = pid
      · subst hr
        rw [if_pos rfl, if_pos rfl]
        dsimp only
        rw [fold_all]
        by_cases hx : x ∈ L
        · rw [if_pos hx, if_pos hx]
        · rw [if_neg hx, if_neg hx, hh, if_neg]
          · rw [List.foldl_cons, List.foldl_cons, List.foldl_nil]
            have hxr : x ≠ r := fun h => hx (h ▸ hL0)
            simp [showing, hxr]
          · rintro ⟨_, h2⟩
            exact hx (h2 ▸ hL0)
      · rw [if_neg hr, if_neg hr, hh]
        simp [showing, hr]
    refine ⟨ht.1, hpos, ?_, ?_⟩
    · intro q b hb; rw [hscene]; exact hplace q b hb
    · intro r a hr q b
      rw [hscr]
      by_cases h : r = pid
      · subst h
        have ha : a = p := by
          have := hplace r a hr
          rw [hput] at this; exact this.symm
        subst ha
        rw [if_pos rfl]
        by_cases hq : q ∈ L
        · rw [if_pos hq]
          obtain ⟨b', h1, h2⟩ := (hmem q).1 hq
          rw [hplace q b' h1]
          constructor
          · intro h; injection h with h; subst h; exact ⟨h1, h2⟩
          · rintro ⟨h3, _⟩; rw [h1] at h3; exact h3
        · rw [if_neg hq]
          constructor
          · intro h; cases h
          · rintro ⟨h1, h2⟩; exact absurd ((hmem q).2 ⟨b, h1, h2⟩) hq
      · rw [if_neg h]
        have hr' : wh r = some a := by
          have : nextWhere wh (.arrive pid p) r = wh r := if_neg (fun x => h x.1)
          rw [← this]; exact hr
        by_cases hq : q = pid
        · subst hq
          have hwq : nextWhere wh (.arrive q p) q = some p := if_pos ⟨rfl, hw⟩
          rw [hwq]
          by_cases hrl : r ∈ L
          · rw [if_pos ⟨hrl, rfl⟩]
            obtain ⟨b', h1, h2⟩ := (hmem r).1 hrl
            rw [hr] at h1
            injection h1 with h1
            subst h1
            constructor
            · intro h; exact ⟨h, by injection h with h; subst h; exact symm h2⟩
            · exact fun h => h.1
          · rw [if_neg (fun x => hrl x.1), hf.screen r a hr']
            constructor
            · rintro ⟨h1, _⟩; rw [hw] at h1; cases h1
            · rintro ⟨h1, h2⟩
              injection h1 with h1
              subst h1
              exact absurd ((hmem r).2 ⟨a, hr, symm h2⟩) hrl
        · rw [if_neg (fun x => hq x.2), hf.screen r a hr']
          have : nextWhere wh (.arrive pid p) q = wh q := if_neg (fun x => hq x.1)
          rw [this]

theorem fits_lost {minX maxX cx minY maxY cy : Int} (hcx : 0 < cx) (hcy : 0 < cy) {s : Scene} {scr : Int → Int → Option Place}
    {wh : Int → Option Place} (hf : SceneFits (newMgr minX maxX cx minY maxY cy) s scr wh) (pid : Int) :
    SceneFits (newMgr minX maxX cx minY maxY cy) (s.op (newMgr minX maxX cx minY maxY cy) (.lost pid)).scene
      ((s.op (newMgr minX maxX cx minY maxY cy) (.lost pid)).sent.foldl showing scr) (nextWhere wh (.lost pid)) := by
  have hs := scene_op (newMgr minX maxX cx minY maxY cy) s (.lost pid)
  have ht := tidy_op hf.tidy (.lost pid) trivial
  rw [show flatOp (.lost pid) = .lost pid from rfl] at hs
  have symm := @near_symm minX maxX cx minY maxY cy hcx hcy
  generalize newMgr minX maxX cx minY maxY cy = m at *
  cases hw : wh pid with
  | none =>
    have hp : s.world.pos pid = none := by rw [hf.pos, hw]; rfl
    have e : s.op m (.lost pid) = ⟨s, [], false⟩ := by unfold Scene.op; dsimp only; rw [hp]
    have e2 : nextWhere wh (.lost pid) = wh := by
      funext q
      unfold nextWhere
      dsimp only
      by_cases h : q = pid
      · rw [if_pos h, h, hw]
      · exact if_neg h
    rw [e, e2]; exact hf
  | some a0 =>
    have hp : s.world.pos pid = some a0.flat := by rw [hf.pos, hw]; rfl
    have e : s.op m (.lost pid) = Screen.lost m s pid a0.flat := by unfold Scene.op; dsimp only; rw [hp]
    obtain ⟨g, c, hg, hc⟩ := hf.tidy.lands pid _ hp
    have hpos : ∀ q, (s.world.op m (.lost pid)).world.pos q = (nextWhere wh (.lost pid) q).map Place.flat := by
      intro q
      have e1 : (s.world.op m (.lost pid)).world.pos q = if q = pid then none else s.world.pos q := by
        unfold World.op
        dsimp only
        rw [hp]
        dsimp only
        unfold Aoi.lost
        rw [hg]
        dsimp only
        rw [if_neg (by rw [hc]; nofun)]; rfl
      rw [e1]
      unfold nextWhere
      dsimp only
      by_cases h : q = pid
      · rw [if_pos h, if_pos h]; rfl
      · rw [if_neg h, if_neg h]; exact hf.pos q
    rw [← hs.1] at ht hpos
    have hmem := mem_scene_around hf.tidy hf.pos a0
    have hsent : (s.op m (.lost pid)).sent = (Screen.around m s.world a0).map (⟨·, .gone pid⟩) := by
      rw [e]; unfold Screen.lost; dsimp only; rw [hf.place pid a0 hw]
    have hscene : (s.op m (.lost pid)).scene.place = s.place := by rw [e]; rfl
    generalize Screen.around m s.world a0 = L at *
    have hscr : ∀ r x, (s.op m (.lost pid)).sent.foldl showing scr r x = if r ∈ L ∧ x = pid then none else scr r x := by
      intro r x
      rw [hsent, shows_gones _ scr (by
          intro e he
          rw [List.mem_map] at he
          obtain ⟨q, _, rfl⟩ := he
          exact ⟨q, pid, rfl⟩)]
      by_cases h : r ∈ L ∧ x = pid
      · obtain ⟨h1, rfl⟩ := h
        rw [if_pos (by rw [List.mem_map]; exact ⟨r, h1, rfl⟩), if_pos ⟨h1, rfl⟩]
      · rw [if_neg h, if_neg]
        rw [List.mem_map]
        rintro ⟨q, hq, he⟩
        injection he with h1 h2
        injection h2 with h2
        exact h ⟨h1 ▸ hq, h2.symm⟩
    refine ⟨ht.1, hpos, ?_, ?_⟩
    · intro q b hb
      rw [hscene]
      unfold nextWhere at hb
      dsimp only at hb
      by_cases h : q = pid
      · rw [if_pos h] at hb; cases hb
      · rw [if_neg h] at hb; exact hf.place q b hb
    · intro r a hr q b
      rw [hscr]
      have hrp : r ≠ pid := by
        intro h
        rw [show nextWhere wh (.lost pid) r = none from if_pos h] at hr
        cases hr
      rw [show nextWhere wh (.lost pid) r = wh r from if_neg hrp] at hr
      by_cases hq : q = pid
      · subst hq
        rw [show nextWhere wh (.lost q) q = none from if_pos rfl]
        by_cases hrl : r ∈ L
        · rw [if_pos ⟨hrl, rfl⟩]
          constructor
          · intro h; cases h
          · rintro ⟨h, _⟩; cases h
        · rw [if_neg (fun x => hrl x.1), hf.screen r a hr]
          constructor
          · rintro ⟨h1, h2⟩
            rw [hw] at h1
            injection h1 with h1
            subst h1
            exact absurd ((hmem r).2 ⟨a, hr, symm h2⟩) hrl
          · rintro ⟨h, _⟩; cases h
      · rw [if_neg (fun x => hq x.2), hf.screen r a hr, show nextWhere wh (.lost pid) q = wh q from if_neg hq]

theorem mem_part (w : World) (pid : Int) (gs : List Grid) (r x : Int) :
    (⟨r, .gone x⟩ : Sent) ∈ Screen.part w pid gs ↔
      (x = pid ∧ r ∈ gs.flatMap fun g => w.members g.gid) ∨ (r = pid ∧ x ∈ gs.flatMap fun g => w.members g.gid) := by
  unfold Screen.part
  simp only [List.mem_flatMap, List.mem_cons, List.not_mem_nil, or_false, Sent.mk.injEq, Note.gone.injEq]
  constructor
  · rintro ⟨g, hg, q, hq, ⟨h1, h2⟩ | ⟨h1, h2⟩⟩
    · subst h1; exact .inl ⟨h2, g, hg, hq⟩
    · subst h2; exact .inr ⟨h1, g, hg, hq⟩
  · rintro (⟨h1, g, hg, hq⟩ | ⟨h1, g, hg, hq⟩)
    · exact ⟨g, hg, r, hq, .inl ⟨rfl, h1⟩⟩
    · exact ⟨g, hg, x, hq, .inr ⟨h1, rfl⟩⟩

theorem mem_meet (s : Scene) (pid : Int) (gs : List Grid) (r x : Int) :
    (⟨r, .here x (s.place x)⟩ : Sent) ∈ Screen.meet s pid gs ↔
      (x = pid ∧ r ∈ gs.flatMap fun g => s.world.members g.gid) ∨ (r = pid ∧ x ∈ gs.flatMap fun g => s.world.members g.gid) := by
  unfold Screen.meet
  simp only [List.mem_flatMap, List.mem_cons, List.not_mem_nil, or_false, Sent.mk.injEq, Note.here.injEq]
  constructor
  · rintro ⟨g, hg, q, hq, ⟨h1, h2, _⟩ | ⟨h1, h2, _⟩⟩
    · subst h1; exact .inl ⟨h2, g, hg, hq⟩
    · subst h2; exact .inr ⟨h1, g, hg, hq⟩
  · rintro (⟨h1, g, hg, hq⟩ | ⟨h1, g, hg, hq⟩)
    · subst h1; exact ⟨g, hg, r, hq, .inl ⟨rfl, rfl, rfl⟩⟩
    · exact ⟨g, hg, x, hq, .inr ⟨h1, rfl, rfl⟩⟩

theorem fits_move {minX maxX cx minY maxY cy : Int} (hcx : 0 < cx) (hcy : 0 < cy) {s : Scene} {scr : Int → Int → Option Place}
    {wh : Int → Option Place} (hf : SceneFits (newMgr minX maxX cx minY maxY cy) s scr wh) (pid : Int) (p : Place)
    (hl : Lands (newMgr minX maxX cx minY maxY cy) p.flat) :
    SceneFits (newMgr minX maxX cx minY maxY cy) (s.op (newMgr minX maxX cx minY maxY cy) (.move pid p)).scene
      ((s.op (newMgr minX maxX cx minY maxY cy) (.move pid p)).sent.foldl showing scr) (nextWhere wh (.move pid p)) := by
  have hs := scene_op (newMgr minX maxX cx minY maxY cy) s (.move pid p)
  have ht := tidy_op hf.tidy (.move pid p.flat) hl
  rw [show flatOp (.move pid p) = .move pid p.flat from rfl] at hs
  have symm := @near_symm minX maxX cx minY maxY cy hcx hcy
  have refl := @near_refl minX maxX cx minY maxY cy hcx hcy p hl
  generalize newMgr minX maxX cx minY maxY cy = m at *
  cases hw : wh pid with
  | none =>
    have hp : s.world.pos pid = none := by rw [hf.pos, hw]; rfl
    have e : s.op m (.move pid p) = ⟨s, [], false⟩ := by unfold Scene.op; dsimp only; rw [hp]
    have e2 : nextWhere wh (.move pid p) = wh := by
      funext q
      unfold nextWhere
      by_cases h : q = pid ∧ wh q ≠ none
      · rw [h.1] at h; exact absurd hw h.2
      · exact if_neg h
    rw [e, e2]; exact hf
  | some a0 =>
    have hp : s.world.pos pid = some a0.flat := by rw [hf.pos, hw]; rfl
    obtain ⟨old, co, hold, hco⟩ := hf.tidy.lands pid _ hp
    obtain ⟨new, cn, hnew, hcn⟩ := hl
    have hold' : gidByPos m a0.x a0.z = some old := hold
    have hnew' : gidByPos m p.x p.z = some new := hnew
    have hpos : ∀ q, (s.world.op m (.move pid p.flat)).world.pos q = (nextWhere wh (.move pid p) q).map Place.flat := by
      intro q
      have e1 : (s.world.op m (.move pid p.flat)).world.pos q = if q = pid then some p.flat else s.world.pos q := by
        unfold World.op
        dsimp only
        rw [hp]
        dsimp only
        unfold Aoi.move
        rw [hold, hnew]
        dsimp only
        by_cases h : old = new
        · rw [if_pos h]; rfl
        · rw [if_neg h, if_neg (by rw [hco]; nofun), if_neg (by rw [hcn]; nofun)]; rfl
      rw [e1]
      unfold nextWhere
      dsimp only
      by_cases h : q = pid
      · subst h
        rw [if_pos rfl, if_pos ⟨rfl, by rw [hw]; nofun⟩]; rfl
      · rw [if_neg h, if_neg (fun x => h x.1)]; exact hf.pos q
    have hnp : (Aoi.move m s.world pid a0.flat p.flat).panicked = false := by
      have := ht.2
      unfold World.op at this
      dsimp only at this
      rw [hp] at this
      exact this
    have e : s.op m (.move pid p) = ⟨⟨(Aoi.move m s.world pid a0.flat p.flat).world, s.put pid p⟩,
        (if old = new then [] else Screen.exchange m ⟨(Aoi.move m s.world pid a0.flat p.flat).world, s.put pid p⟩ pid old new) ++
          (Screen.around m (Aoi.move m s.world pid a0.flat p.flat).world p).map (⟨·, .here pid p⟩), false⟩ := by
      unfold Scene.op
      dsimp only
      rw [hp]
      dsimp only
      unfold Screen.move
      rw [hold, hnew']
      dsimp only
      rw [hnp]; rfl
    rw [← hs.1] at ht hpos
    rw [e] at ht hpos ⊢
    dsimp only at ht hpos ⊢
    generalize (Aoi.move m s.world pid a0.flat p.flat).world = w' at *
    have hwp : nextWhere wh (.move pid p) pid = some p := if_pos ⟨rfl, by rw [hw]; nofun⟩
    have hwq : ∀ q, q ≠ pid → nextWhere wh (.move pid p) q = wh q := fun q h => if_neg (fun x => h x.1)
    generalize hwh' : nextWhere wh (.move pid p) = wh' at *
    have hput : s.put pid p pid = p := if_pos rfl
    have hplace : ∀ q b, wh' q = some b → s.put pid p q = b := by
      intro q b hb
      by_cases h : q = pid
      · subst h
        rw [hwp] at hb
        rw [hput]; exact Option.some.inj hb
      · rw [hwq q h] at hb
        unfold Scene.put
        rw [if_neg h]; exact hf.place q b hb
    have hmem := mem_scene_around ht.1 hpos p
    -- who hears of the disappearance, and of the appearance
    have key : ∃ G E : List Sent, (if old = new then [] else Screen.exchange m ⟨w', s.put pid p⟩ pid old new) = G ++ E ∧
        (∀ e ∈ G, ∃ r x, e = ⟨r, .gone x⟩) ∧ (∀ e ∈ E, ∃ r x, e = ⟨r, .here x (s.put pid p x)⟩) ∧
        (∀ r x, (⟨r, .gone x⟩ : Sent) ∈ G ↔ (x = pid ∧ ∃ b, wh' r = some b ∧ Near m a0 b ∧ ¬ Near m p b) ∨
          (r = pid ∧ ∃ b, wh' x = some b ∧ Near m a0 b ∧ ¬ Near m p b)) ∧
        (∀ r x, (⟨r, .here x (s.put pid p x)⟩ : Sent) ∈ E ↔ (x = pid ∧ ∃ b, wh' r = some b ∧ Near m p b ∧ ¬ Near m a0 b) ∨
          (r = pid ∧ ∃ b, wh' x = some b ∧ Near m p b ∧ ¬ Near m a0 b)) := by
      by_cases h : old = new
      · subst h
        have same : ∀ b, Near m a0 b ↔ Near m p b := by
          intro b; unfold Near; rw [hold', hnew']
        refine ⟨[], [], by rw [if_pos rfl]; rfl, nofun, nofun, ?_, ?_⟩
        · intro r x
          constructor
          · intro h; cases h
          · rintro (⟨_, b, _, h1, h2⟩ | ⟨_, b, _, h1, h2⟩)
            · exact absurd ((same b).1 h1) h2
            · exact absurd ((same b).1 h1) h2
        · intro r x
          constructor
          · intro h; cases h
          · rintro (⟨_, b, _, h1, h2⟩ | ⟨_, b, _, h1, h2⟩)
            · exact absurd ((same b).2 h1) h2
            · exact absurd ((same b).2 h1) h2
      · rw [if_neg h]
        refine ⟨Screen.part w' pid (((surround m old).filterMap id).filter fun g => g.gid ∉ ((surround m new).filterMap id).map (·.gid)),
          Screen.meet ⟨w', s.put pid p⟩ pid (((surround m new).filterMap id).filter fun g => g.gid ∉ ((surround m old).filterMap id).map (·.gid)),
          rfl, ?_, ?_, ?_, ?_⟩
        · intro e he
          unfold Screen.part at he
          simp only [List.mem_flatMap, List.mem_cons, List.not_mem_nil, or_false] at he
          obtain ⟨g, _, q, _, rfl | rfl⟩ := he
          · exact ⟨q, pid, rfl⟩
          · exact ⟨pid, q, rfl⟩
        · intro e he
          unfold Screen.meet at he
          simp only [List.mem_flatMap, List.mem_cons, List.not_mem_nil, or_false] at he
          obtain ⟨g, _, q, _, rfl | rfl⟩ := he
          · exact ⟨q, pid, rfl⟩
          · exact ⟨pid, q, rfl⟩
        · intro r x
          rw [mem_part, mem_differ ht.1 hpos a0 p old new hold' hnew', mem_differ ht.1 hpos a0 p old new hold' hnew']
        · intro r x
          have := mem_meet ⟨w', s.put pid p⟩ pid (((surround m new).filterMap id).filter fun g => g.gid ∉ ((surround m old).filterMap id).map (·.gid)) r x
          dsimp only at this
          rw [this, mem_differ ht.1 hpos p a0 new old hnew' hold', mem_differ ht.1 hpos p a0 new old hnew' hold']
    obtain ⟨G, E, hGE, hG, hE, hGm, hEm⟩ := key
    rw [hGE]
    have hL : ∀ e ∈ E ++ (Screen.around m w' p).map (⟨·, .here pid p⟩), ∃ r x, e = ⟨r, .here x (s.put pid p x)⟩ := by
      intro e he
      rw [List.mem_append, List.mem_map] at he
      rcases he with he | ⟨q, _, rfl⟩
      · exact hE e he
      · exact ⟨q, pid, by rw [hput]⟩
    have hLm : ∀ r x, (⟨r, .here x (s.put pid p x)⟩ : Sent) ∈ E ++ (Screen.around m w' p).map (⟨·, .here pid p⟩) ↔
        (x = pid ∧ ∃ b, wh' r = some b ∧ Near m p b) ∨ (r = pid ∧ ∃ b, wh' x = some b ∧ Near m p b ∧ ¬ Near m a0 b) := by
      intro r x
      rw [List.mem_append, hEm, List.mem_map]
      constructor
      · rintro ((⟨h1, b, h2, h3, _⟩ | h1) | ⟨q, hq, h1⟩)
        · exact .inl ⟨h1, b, h2, h3⟩
        · exact .inr h1
        · injection h1 with h1 h2
          injection h2 with h2
          subst h1
          exact .inl ⟨h2.symm, (hmem q).1 hq⟩
      · rintro (⟨h1, h2⟩ | h1)
        · subst h1
          exact .inr ⟨r, (hmem r).2 h2, by rw [hput]⟩
        · exact .inl (.inr h1)
    refine ⟨ht.1, hpos, hplace, ?_⟩
    intro r a hr q b
    rw [List.append_assoc, List.foldl_append, shows_heres (s.put pid p) _ _ hL, shows_gones _ _ hG]
    by_cases h1 : (⟨r, .here q (s.put pid p q)⟩ : Sent) ∈ E ++ (Screen.around m w' p).map (⟨·, .here pid p⟩)
    · rw [if_pos h1]
      rw [hLm] at h1
      rcases h1 with ⟨rfl, c, hc, hn⟩ | ⟨rfl, c, hc, hn, _⟩
      · rw [hr] at hc
        injection hc with hc
        subst hc
        rw [hput, hwp]
        constructor
        · intro h; exact ⟨h, by injection h with h; subst h; exact symm hn⟩
        · exact fun h => h.1
      · rw [hwp] at hr
        injection hr with hr
        subst hr
        rw [hplace q c hc, hc]
        constructor
        · intro h; exact ⟨h, by injection h with h; subst h; exact hn⟩
        · exact fun h => h.1
    · rw [if_neg h1]
      rw [hLm] at h1
      by_cases h2 : (⟨r, .gone q⟩ : Sent) ∈ G
      · rw [if_pos h2]
        rw [hGm] at h2
        constructor
        · intro h; cases h
        · rintro ⟨h3, h4⟩
          exfalso
          rcases h2 with ⟨rfl, c, hc, _, hn⟩ | ⟨rfl, c, hc, _, hn⟩
          · rw [hr] at hc
            injection hc with hc
            subst hc
            rw [hwp] at h3
            injection h3 with h3
            subst h3
            exact hn (symm h4)
          · rw [hwp] at hr
            injection hr with hr
            subst hr
            rw [h3] at hc
            injection hc with hc
            subst hc
            exact hn h4
      · rw [if_neg h2]
        rw [hGm] at h2
        by_cases hrp : r = pid
        · subst hrp
          rw [hwp] at hr
          injection hr with hr
          subst hr
          by_cases hq : q = r
          · subst hq
            exact absurd (.inl ⟨rfl, p, hwp, refl⟩) h1
          · rw [hf.screen r a0 hw, hwq q hq]
            have n1 : ∀ c, wh q = some c → (Near m a0 c ↔ Near m p c) := by
              intro c hc
              have hc' : wh' q = some c := by rw [hwq q hq]; exact hc
              constructor
              · intro h3
                exact Classical.byContradiction fun h4 => h2 (.inr ⟨rfl, c, hc', h3, h4⟩)
              · intro h3
                exact Classical.byContradiction fun h4 => h1 (.inr ⟨rfl, c, hc', h3, h4⟩)
            constructor
            · rintro ⟨h3, h4⟩; exact ⟨h3, (n1 b h3).1 h4⟩
            · rintro ⟨h3, h4⟩; exact ⟨h3, (n1 b h3).2 h4⟩
        · have hr' : wh r = some a := by rw [← hwq r hrp]; exact hr
          rw [hf.screen r a hr']
          by_cases hq : q = pid
          · subst hq
            rw [hw, hwp]
            have n1 : ¬ Near m p a := fun h => h1 (.inl ⟨rfl, a, hr, h⟩)
            have n2 : ¬ Near m a0 a := fun h => h2 (.inl ⟨rfl, a, hr, h, n1⟩)
            constructor
            · rintro ⟨h3, h4⟩
              injection h3 with h3
              subst h3
              exact absurd (symm h4) n2
            · rintro ⟨h3, h4⟩
              injection h3 with h3
              subst h3
              exact absurd (symm h4) n1
          · rw [hwq q hq]

theorem fits_run {minX maxX cx minY maxY cy : Int} (hcx : 0 < cx) (hcy : 0 < cy) (ops : List Screen.Op)
    (hl : ∀ o ∈ ops, PlaceLands (newMgr minX maxX cx minY maxY cy) o) :
    SceneFits (newMgr minX maxX cx minY maxY cy) (runScene (newMgr minX maxX cx minY maxY cy) ops).1
      (runScene (newMgr minX maxX cx minY maxY cy) ops).2 (whereabouts ops) := by
  have go : ∀ (ops : List Screen.Op) (st : Scene × (Int → Int → Option Place)) (wh : Int → Option Place),
      (∀ o ∈ ops, PlaceLands (newMgr minX maxX cx minY maxY cy) o) → SceneFits (newMgr minX maxX cx minY maxY cy) st.1 st.2 wh →
      SceneFits (newMgr minX maxX cx minY maxY cy)
        (ops.foldl (fun st o => ((st.1.op (newMgr minX maxX cx minY maxY cy) o).scene,
          (st.1.op (newMgr minX maxX cx minY maxY cy) o).sent.foldl showing st.2)) st).1
        (ops.foldl (fun st o => ((st.1.op (newMgr minX maxX cx minY maxY cy) o).scene,
          (st.1.op (newMgr minX maxX cx minY maxY cy) o).sent.foldl showing st.2)) st).2
        (ops.foldl nextWhere wh) := by
    intro ops
    induction ops with
    | nil => intro st wh _ h; exact h
    | cons o ops ih =>
      intro st wh hl h
      rw [List.foldl_cons, List.foldl_cons]
      refine ih _ _ (fun o' ho => hl o' (List.mem_cons_of_mem _ ho)) ?_
      have ho := hl o List.mem_cons_self
      cases o with
      | arrive pid p => exact fits_arrive hcx hcy h pid p ho
      | move pid p => exact fits_move hcx hcy h pid p ho
      | lost pid => exact fits_lost hcx hcy h pid
  have e : whereabouts ops = ops.foldl nextWhere (fun _ => none) := by
    unfold whereabouts
    congr 1
  rw [e]
  exact go ops _ _ hl ⟨tidy_empty _, fun _ => rfl, nofun, nofun⟩

/-- **C140.** Clients that put, move and remove players as the messages say show, after any history of arrivals, moves and departures handled one at a
time and with every place in some grid, exactly the players of their own and the adjacent grids, themselves included, each at the place last given. What is
missing: places without a grid (`C140_refuted`), and operations that overlap. -/
theorem C140_partial (minX maxX cx minY maxY cy : Int) (hcx : 0 < cx) (hcy : 0 < cy) (ops : List Screen.Op)
    (hl : ∀ o ∈ ops, PlaceLands (newMgr minX maxX cx minY maxY cy) o) (r : Int) (a : Place) (hr : whereabouts ops r = some a) (q : Int) (b : Place) :
    (runScene (newMgr minX maxX cx minY maxY cy) ops).2 r q = some b ↔
      whereabouts ops q = some b ∧ Close (newMgr minX maxX cx minY maxY cy) a b := by
  have hf := fits_run hcx hcy ops hl
  have la : ∀ x c, whereabouts ops x = some c → Lands (newMgr minX maxX cx minY maxY cy) c.flat := by
    intro x c hc
    exact hf.tidy.lands x _ (by rw [hf.pos, hc]; rfl)
  rw [hf.screen r a hr]
  constructor
  · rintro ⟨h1, h2⟩; exact ⟨h1, (near_close hcx hcy (la r a hr) (la q b h1)).1 h2⟩
  · rintro ⟨h1, h2⟩; exact ⟨h1, (near_close hcx hcy (la r a hr) (la q b h1)).2 h2⟩

/-- Three players; the first walks out of sight of the second and into that of the third, which leaves later. -/
def threePlayers : List Screen.Op :=
  [.arrive 1 ⟨160, 0, 134, 0⟩, .arrive 2 ⟨120, 0, 134, 0⟩, .arrive 3 ⟨220, 0, 134, 0⟩, .move 1 ⟨190, 7, 134, 90⟩]

example : (∀ o ∈ threePlayers, PlaceLands demo o) ∧ whereabouts threePlayers 1 = some ⟨190, 7, 134, 90⟩ ∧
    (runScene demo threePlayers).2 3 1 = some ⟨190, 7, 134, 90⟩ ∧ (runScene demo threePlayers).2 1 3 = some ⟨220, 0, 134, 0⟩ ∧
    (runScene demo threePlayers).2 2 1 = none ∧ (runScene demo threePlayers).2 1 2 = none ∧
    (runScene demo (threePlayers ++ [.lost 3])).2 1 3 = none := by
  refine ⟨?_, by decide +kernel, by decide +kernel, by decide +kernel, by decide +kernel, by decide +kernel, by decide +kernel⟩
  intro o ho
  unfold threePlayers at ho
  simp only [List.mem_cons, List.not_mem_nil, or_false] at ho
  rcases ho with rfl | rfl | rfl | rfl
  · exact ⟨32, ⟨32, 149, 181, 123, 139⟩, by decide +kernel, by decide +kernel⟩
  · exact ⟨31, ⟨31, 117, 149, 123, 139⟩, by decide +kernel, by decide +kernel⟩
  · exact ⟨34, ⟨34, 213, 245, 123, 139⟩, by decide +kernel, by decide +kernel⟩
  · exact ⟨33, ⟨33, 181, 213, 123, 139⟩, by decide +kernel, by decide +kernel⟩

/-- A client may give any place. If it gives one without a grid and then disconnects, both handlers panic, nobody is told anything, and the player stays
in the world: every other screen goes on showing it where it was. -/
theorem C140_ghost (minX maxX cx minY maxY cy : Int) (hcx : 0 < cx) (hcy : 0 < cy) (ops : List Screen.Op)
    (hl : ∀ o ∈ ops, PlaceLands (newMgr minX maxX cx minY maxY cy) o) (pid : Int) (a p : Place) (hon : whereabouts ops pid = some a)
    (new : Int) (hn : gidByPos (newMgr minX maxX cx minY maxY cy) p.x p.z = some new) (hno : (newMgr minX maxX cx minY maxY cy).grids new = none) :
    (runScene (newMgr minX maxX cx minY maxY cy) (ops ++ [.move pid p, .lost pid])).2 = (runScene (newMgr minX maxX cx minY maxY cy) ops).2 ∧
    (runScene (newMgr minX maxX cx minY maxY cy) (ops ++ [.move pid p, .lost pid])).1.world.pos pid = some p.flat ∧
    ∀ r c, whereabouts ops r = some c → Close (newMgr minX maxX cx minY maxY cy) c a →
      (runScene (newMgr minX maxX cx minY maxY cy) (ops ++ [.move pid p, .lost pid])).2 r pid = some a := by
  have hf := fits_run hcx hcy ops hl
  have hsee := fun r c hr => (C140_partial minX maxX cx minY maxY cy hcx hcy ops hl r c hr pid a).2
  generalize newMgr minX maxX cx minY maxY cy = m at *
  have run2 : runScene m (ops ++ [.move pid p, .lost pid]) =
      (let st := runScene m ops
       let st1 := ((st.1.op m (.move pid p)).scene, (st.1.op m (.move pid p)).sent.foldl showing st.2)
       ((st1.1.op m (.lost pid)).scene, (st1.1.op m (.lost pid)).sent.foldl showing st1.2)) := by
    unfold runScene
    rw [List.foldl_append]; rfl
  rw [run2]
  generalize runScene m ops = st at *
  have hp : st.1.world.pos pid = some a.flat := by rw [hf.pos, hon]; rfl
  obtain ⟨old, co, hold, hco⟩ := hf.tidy.lands pid _ hp
  have hn' : gidByPos m p.flat.1 p.flat.2 = some new := hn
  have e1 : st.1.op m (.move pid p) = ⟨⟨(st.1.world.setPos pid (some p.flat)).removeFrom pid old, st.1.put pid p⟩, [], true⟩ := by
    unfold Scene.op
    dsimp only
    rw [hp]
    dsimp only
    unfold Screen.move
    rw [hold, hn]
    dsimp only
    have e0 : Aoi.move m st.1.world pid a.flat p.flat = ⟨(st.1.world.setPos pid (some p.flat)).removeFrom pid old, [], true⟩ := by
      unfold Aoi.move
      rw [hold, hn']
      dsimp only
      rw [if_neg (fun e => by rw [e, hno] at hco; cases hco), if_neg (by rw [hco]; nofun), if_pos hno]
    rw [e0]; rfl
  have hp2 : ((st.1.world.setPos pid (some p.flat)).removeFrom pid old).pos pid = some p.flat := if_pos rfl
  have e2 : (st.1.op m (.move pid p)).scene.op m (.lost pid) = ⟨(st.1.op m (.move pid p)).scene, [], true⟩ := by
    rw [e1]
    dsimp only
    unfold Scene.op
    dsimp only
    rw [hp2]
    dsimp only
    unfold Screen.lost
    have hpl : st.1.put pid p pid = p := if_pos rfl
    have ea : ∀ w, Screen.around m w p = [] := by
      intro w
      unfold Screen.around
      rw [hn]
      dsimp only
      unfold surround
      rw [hno]; rfl
    dsimp only
    rw [hpl, ea]
    unfold Aoi.lost
    rw [hn']
    dsimp only
    rw [if_pos hno]; rfl
  dsimp only
  rw [e2, e1]
  refine ⟨rfl, hp2, ?_⟩
  intro r c hr hc
  exact hsee r c hr ⟨hon, hc⟩

/-- **C140 fails** as stated, for places without a grid: the second player's client shows the first one after it has gone. -/
theorem C140_refuted : ¬ ∀ (ops : List Screen.Op) (r : Int) (a : Place), whereabouts ops r = some a → ∀ (q : Int) (b : Place),
    (runScene demo ops).2 r q = some b ↔ whereabouts ops q = some b ∧ Close demo a b := by
  intro h
  have := (h [.arrive 1 ⟨160, 0, 134, 0⟩, .arrive 2 ⟨170, 0, 134, 0⟩, .move 1 ⟨160, 0, 1000, 0⟩, .lost 1] 2 ⟨170, 0, 134, 0⟩ (by decide +kernel)
    1 ⟨160, 0, 134, 0⟩).1 (by decide +kernel)
  exact absurd this.1 (by decide +kernel)

end Zinx.Props
