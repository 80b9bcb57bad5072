import Verif.Model.ScreenConc
import Verif.Props.Screen

/-!
# C140: moves handled at the same time
-/

namespace Zinx.Props

open Zinx.Aoi
open Zinx.Screen (Place Scene Sent Note Multi Turn Instr moveCode)

/-- The state and everything sent after some turns. -/
def runTurns (m : Mgr) (s : Multi) (ts : List Turn) : Multi × List Sent :=
  ts.foldl (fun st t => ((st.1.turn m t).1, st.2 ++ (st.1.turn m t).2)) (s, [])

theorem runTurns_acc (m : Mgr) (ts : List Turn) : ∀ (s : Multi) (o : List Sent),
    ts.foldl (fun st t => ((st.1.turn m t).1, st.2 ++ (st.1.turn m t).2)) (s, o) = ((runTurns m s ts).1, o ++ (runTurns m s ts).2) := by
  induction ts with
  | nil => intro s o; unfold runTurns; simp
  | cons t ts ih =>
    intro s o
    have e : runTurns m s (t :: ts) = ts.foldl (fun st t => ((st.1.turn m t).1, st.2 ++ (st.1.turn m t).2)) ((s.turn m t).1, [] ++ (s.turn m t).2) := rfl
    rw [e, List.foldl_cons, ih, ih]
    simp

theorem runTurns_append (m : Mgr) (s : Multi) (ts us : List Turn) :
    runTurns m s (ts ++ us) = ((runTurns m (runTurns m s ts).1 us).1, (runTurns m s ts).2 ++ (runTurns m (runTurns m s ts).1 us).2) := by
  have e : runTurns m s (ts ++ us) = us.foldl (fun st t => ((st.1.turn m t).1, st.2 ++ (st.1.turn m t).2)) (runTurns m s ts) := by
    unfold runTurns; rw [List.foldl_append]
  rw [e]
  exact runTurns_acc m us _ _

/-! ### A move that is not interrupted -/

/-- By turns of one player alone, one state leads to another, and `o` is sent. -/
def ByItself (m : Mgr) (pid : Int) (s : Multi) (o : List Sent) (t : Multi) : Prop := ∃ n, runTurns m s (List.replicate n (.next pid)) = (t, o)

theorem ByItself.refl (m : Mgr) (pid : Int) (s : Multi) : ByItself m pid s [] s := ⟨0, rfl⟩

theorem ByItself.one {m : Mgr} {pid : Int} {s t : Multi} {o : List Sent} (h : s.exec m pid = (t, o)) : ByItself m pid s o t := by
  refine ⟨1, ?_⟩
  show ((s.exec m pid).1, [] ++ (s.exec m pid).2) = (t, o)
  rw [h]; simp

theorem ByItself.trans {m : Mgr} {pid : Int} {s t u : Multi} {o o' : List Sent} (h : ByItself m pid s o t) (h' : ByItself m pid t o' u) :
    ByItself m pid s (o ++ o') u := by
  obtain ⟨n, hn⟩ := h
  obtain ⟨k, hk⟩ := h'
  refine ⟨n + k, ?_⟩
  rw [← List.replicate_append_replicate, runTurns_append, hn]
  dsimp only
  rw [hk]

/-- The state in which `pid` has `c` to do. -/
def busy (sc : Scene) (f : Int → List Instr) (pid : Int) (c : List Instr) : Multi := ⟨sc, fun q => if q = pid then c else f q⟩

theorem busy_goOn (sc : Scene) (f : Int → List Instr) (pid : Int) (c c' : List Instr) : (busy sc f pid c).goOn pid c' = busy sc f pid c' := by
  unfold busy Multi.goOn
  congr 1
  funext q
  by_cases h : q = pid
  · rw [if_pos h, if_pos h]
  · dsimp only; rw [if_neg h, if_neg h, if_neg h]

theorem busy_code (sc : Scene) (f : Int → List Instr) (pid : Int) (c : List Instr) : (busy sc f pid c).code pid = c := if_pos rfl

theorem alone_says (m : Mgr) (sc : Scene) (f : Int → List Instr) (pid : Int) (c : List Instr) : ∀ l : List Sent,
    ByItself m pid (busy sc f pid (l.map (fun e => .say e.to e.note) ++ c)) l (busy sc f pid c) := by
  intro l
  induction l with
  | nil => exact ByItself.refl ..
  | cons e l ih =>
    refine ByItself.trans (o := [e]) (ByItself.one (t := busy sc f pid (l.map (fun e => .say e.to e.note) ++ c)) ?_) ih
    unfold Multi.exec
    rw [busy_code, List.map_cons, List.cons_append]
    dsimp only
    rw [busy_goOn]

theorem alone_parts (m : Mgr) (sc : Scene) (f : Int → List Instr) (pid : Int) (c : List Instr) : ∀ gs : List Grid,
    ByItself m pid (busy sc f pid ((gs.map fun g => .part g.gid) ++ c)) (Screen.part sc.world pid gs) (busy sc f pid c) := by
  intro gs
  induction gs with
  | nil => exact ByItself.refl ..
  | cons g gs ih =>
    have e : Screen.part sc.world pid (g :: gs) = [] ++ (((sc.world.members g.gid).flatMap fun q => [⟨q, .gone pid⟩, ⟨pid, .gone q⟩]) ++
        Screen.part sc.world pid gs) := by
      unfold Screen.part; rw [List.flatMap_cons, List.nil_append]
    rw [e]
    refine ByItself.trans (ByItself.one (t := busy sc f pid ((((sc.world.members g.gid).flatMap fun q => [(⟨q, .gone pid⟩ : Sent), ⟨pid, .gone q⟩]).map
      (fun e => .say e.to e.note)) ++ ((gs.map fun g => .part g.gid) ++ c))) ?_) (ByItself.trans (alone_says ..) ih)
    unfold Multi.exec
    rw [busy_code, List.map_cons, List.cons_append]
    dsimp only
    rw [busy_goOn, List.map_flatMap]
    rfl

theorem alone_meet (m : Mgr) (sc : Scene) (f : Int → List Instr) (pid : Int) (c : List Instr) : ∀ qs : List Int,
    ByItself m pid (busy sc f pid (qs.flatMap (fun q => [.say q (.here pid (sc.place pid)), .ask q]) ++ c))
      (qs.flatMap fun q => [⟨q, .here pid (sc.place pid)⟩, ⟨pid, .here q (sc.place q)⟩]) (busy sc f pid c) := by
  intro qs
  induction qs with
  | nil => exact ByItself.refl ..
  | cons q qs ih =>
    rw [List.flatMap_cons, List.flatMap_cons]
    refine ByItself.trans (t := busy sc f pid (qs.flatMap (fun q => [.say q (.here pid (sc.place pid)), .ask q]) ++ c)) ?_ ih
    refine ByItself.trans (o := [⟨q, .here pid (sc.place pid)⟩]) (o' := [] ++ [⟨pid, .here q (sc.place q)⟩])
      (t := busy sc f pid (.ask q :: (qs.flatMap (fun q => [.say q (.here pid (sc.place pid)), .ask q]) ++ c))) (ByItself.one ?_)
      (ByItself.trans (t := busy sc f pid (.say pid (.here q (sc.place q)) :: (qs.flatMap (fun q => [.say q (.here pid (sc.place pid)), .ask q]) ++ c)))
        (ByItself.one ?_) (ByItself.one ?_))
    · unfold Multi.exec
      rw [busy_code]
      dsimp only [List.cons_append, List.nil_append]
      rw [busy_goOn]
    · unfold Multi.exec
      rw [busy_code]
      dsimp only
      rw [busy_goOn]
      rfl
    · unfold Multi.exec
      rw [busy_code]
      dsimp only
      rw [busy_goOn]

theorem alone_meets (m : Mgr) (sc : Scene) (f : Int → List Instr) (pid : Int) (c : List Instr) : ∀ gs : List Grid,
    ByItself m pid (busy sc f pid ((gs.map fun g => .meet g.gid (sc.place pid)) ++ c)) (Screen.meet sc pid gs) (busy sc f pid c) := by
  intro gs
  induction gs with
  | nil => exact ByItself.refl ..
  | cons g gs ih =>
    have e : Screen.meet sc pid (g :: gs) = [] ++ (((sc.world.members g.gid).flatMap fun q =>
        [⟨q, .here pid (sc.place pid)⟩, ⟨pid, .here q (sc.place q)⟩]) ++ Screen.meet sc pid gs) := by
      unfold Screen.meet; rw [List.flatMap_cons, List.nil_append]
    rw [e]
    refine ByItself.trans (ByItself.one (t := busy sc f pid (((sc.world.members g.gid).flatMap fun q => [.say q (.here pid (sc.place pid)), .ask q]) ++
      ((gs.map fun g => .meet g.gid (sc.place pid)) ++ c))) ?_) (ByItself.trans (alone_meet ..) ih)
    unfold Multi.exec
    rw [busy_code, List.map_cons, List.cons_append]
    dsimp only
    rw [busy_goOn]
    rfl

theorem alone_scan (m : Mgr) (sc : Scene) (f : Int → List Instr) (pid : Int) (c : List Instr) (p : Place) : ∀ (gs got : List Int),
    ByItself m pid (busy sc f pid (.scan gs got p :: c)) ((got ++ gs.flatMap sc.world.members).map (⟨·, .here pid p⟩)) (busy sc f pid c) := by
  intro gs
  induction gs with
  | nil =>
    intro got
    have e : ((got ++ ([] : List Int).flatMap sc.world.members).map fun q => (⟨q, .here pid p⟩ : Sent)) = [] ++ got.map (⟨·, .here pid p⟩) := by simp
    rw [e]
    refine ByItself.trans (ByItself.one (t := busy sc f pid (((got.map fun q => (⟨q, .here pid p⟩ : Sent)).map (fun e => .say e.to e.note)) ++ c)) ?_) (alone_says ..)
    unfold Multi.exec
    rw [busy_code]
    dsimp only
    rw [busy_goOn, List.map_map]
    rfl
  | cons g gs ih =>
    intro got
    have e : ((got ++ (g :: gs).flatMap sc.world.members).map fun q => (⟨q, .here pid p⟩ : Sent)) =
        [] ++ ((got ++ sc.world.members g) ++ gs.flatMap sc.world.members).map (⟨·, .here pid p⟩) := by
      rw [List.flatMap_cons, List.append_assoc, List.nil_append]
    rw [e]
    refine ByItself.trans (ByItself.one (t := busy sc f pid (.scan gs (got ++ sc.world.members g) p :: c)) ?_) (ih _)
    unfold Multi.exec
    rw [busy_code]
    dsimp only
    rw [busy_goOn]
    rfl

/-- The instructions are those of `Model/Screen`: a move whose turns are not interrupted by others' ends in the same scene and sends the same. -/
theorem C140_alone (m : Mgr) (s : Multi) (pid : Int) (p0 : Rat × Rat) (p : Place) (hc : s.code pid = []) (hp : s.scene.world.pos pid = some p0) :
    ∃ n, (runTurns m s (.take pid p :: List.replicate n (.next pid))) = (⟨(Screen.move m s.scene pid p0 p).scene, s.code⟩, (Screen.move m s.scene pid p0 p).sent) := by
  have idle : ∀ sc, busy sc s.code pid [] = ⟨sc, s.code⟩ := by
    intro sc
    unfold busy
    congr 1
    funext q
    by_cases h : q = pid
    · rw [if_pos h, h, hc]
    · rw [if_neg h]
  have first : ∀ n, runTurns m s (.take pid p :: List.replicate n (.next pid)) =
      ((runTurns m (s.turn m (.take pid p)).1 (List.replicate n (.next pid))).1,
        (s.turn m (.take pid p)).2 ++ (runTurns m (s.turn m (.take pid p)).1 (List.replicate n (.next pid))).2) := by
    intro n
    have := runTurns_append m s [.take pid p] (List.replicate n (.next pid))
    have e : runTurns m s [.take pid p] = ((s.turn m (.take pid p)).1, [] ++ (s.turn m (.take pid p)).2) := rfl
    rw [e] at this
    dsimp only [List.nil_append] at this
    exact this
  cases hold : gidByPos m p0.1 p0.2 with
  | none =>
    refine ⟨0, ?_⟩
    rw [first]
    have e : s.turn m (.take pid p) = (s, []) := by unfold Multi.turn; dsimp only; rw [hc, hp]; dsimp only; rw [hold]
    rw [e]
    unfold Screen.move
    rw [hold]
    rfl
  | some old =>
    cases hnew : gidByPos m p.x p.z with
    | none =>
      refine ⟨0, ?_⟩
      rw [first]
      have e : s.turn m (.take pid p) = (s, []) := by unfold Multi.turn; dsimp only; rw [hc, hp]; dsimp only; rw [hold, hnew]
      rw [e]
      unfold Screen.move
      rw [hold, hnew]
      rfl
    | some new =>
      have e : s.turn m (.take pid p) = (busy s.scene s.code pid (moveCode m old new p), []) := by
        unfold Multi.turn; dsimp only; rw [hc, hp]; dsimp only; rw [hold, hnew]; rfl
      suffices h : ByItself m pid (busy s.scene s.code pid (moveCode m old new p)) (Screen.move m s.scene pid p0 p).sent
          (busy (Screen.move m s.scene pid p0 p).scene s.code pid []) by
        obtain ⟨n, hn⟩ := h
        refine ⟨n, ?_⟩
        rw [first, e]
        dsimp only
        rw [hn, idle]
        rfl
      have hnew' : gidByPos m p.flat.1 p.flat.2 = some new := hnew
      have hput : s.scene.put pid p pid = p := if_pos rfl
      -- the first instruction
      have place : ∀ c, ByItself m pid (busy s.scene s.code pid (.place p :: c)) []
          (busy ⟨s.scene.world.setPos pid (some p.flat), s.scene.put pid p⟩ s.code pid c) := by
        intro c
        refine ByItself.one ?_
        unfold Multi.exec
        rw [busy_code]
        dsimp only
        exact congrArg (·, []) (busy_goOn ⟨s.scene.world.setPos pid (some p.flat), s.scene.put pid p⟩ s.code pid (.place p :: c) c)
      -- the last one
      have scan : ∀ w, ByItself m pid (busy ⟨w, s.scene.put pid p⟩ s.code pid [.scan (((surround m new).filterMap id).map (·.gid)) [] p])
          ((Screen.around m w p).map (⟨·, .here pid p⟩)) (busy ⟨w, s.scene.put pid p⟩ s.code pid []) := by
        intro w
        have := alone_scan m ⟨w, s.scene.put pid p⟩ s.code pid [] p (((surround m new).filterMap id).map (·.gid)) []
        have ea : Screen.around m w p = [] ++ (((surround m new).filterMap id).map (·.gid)).flatMap w.members := by
          unfold Screen.around
          rw [hnew]
          dsimp only
          rw [List.flatMap_map, List.nil_append]
        rw [ea]
        exact this
      unfold Screen.move
      rw [hold, hnew]
      dsimp only
      by_cases he : old = new
      · have em : Aoi.move m s.scene.world pid p0 p.flat = ⟨s.scene.world.setPos pid (some p.flat), [], false⟩ := by
          unfold Aoi.move
          rw [hold, hnew']
          dsimp only
          rw [if_pos he]
        rw [em]
        dsimp only
        rw [if_neg (by simp), if_pos he]
        dsimp only
        unfold moveCode
        dsimp only
        rw [if_pos he, List.nil_append]
        exact ByItself.trans (place _) (scan _)
      · have ec : moveCode m old new p = .place p :: .exit old :: .enter new ::
            (((((surround m old).filterMap id).filter fun g => g.gid ∉ ((surround m new).filterMap id).map (·.gid)).map fun g => .part g.gid) ++
            (((((surround m new).filterMap id).filter fun g => g.gid ∉ ((surround m old).filterMap id).map (·.gid)).map fun g => .meet g.gid p) ++
              [.scan (((surround m new).filterMap id).map (·.gid)) [] p])) := by
          unfold moveCode
          dsimp only
          rw [if_neg he]
          simp only [List.cons_append, List.append_assoc]
        rw [ec]
        by_cases ho : m.grids old = none
        · have em : Aoi.move m s.scene.world pid p0 p.flat = ⟨s.scene.world.setPos pid (some p.flat), [], true⟩ := by
            unfold Aoi.move
            rw [hold, hnew']
            dsimp only
            rw [if_neg he, if_pos ho]
          rw [em]
          dsimp only
          rw [if_pos rfl]
          refine ByItself.trans (o' := []) (place _) (ByItself.one ?_)
          unfold Multi.exec
          rw [busy_code]
          dsimp only
          rw [if_pos ho, busy_goOn]
        · have exit : ∀ c, ByItself m pid (busy ⟨s.scene.world.setPos pid (some p.flat), s.scene.put pid p⟩ s.code pid (.exit old :: c)) []
              (busy ⟨(s.scene.world.setPos pid (some p.flat)).removeFrom pid old, s.scene.put pid p⟩ s.code pid c) := by
            intro c
            refine ByItself.one ?_
            unfold Multi.exec
            rw [busy_code]
            dsimp only
            rw [if_neg ho]
            exact congrArg (·, []) (busy_goOn ⟨(s.scene.world.setPos pid (some p.flat)).removeFrom pid old, s.scene.put pid p⟩ s.code pid (.exit old :: c) c)
          by_cases hn : m.grids new = none
          · have em : Aoi.move m s.scene.world pid p0 p.flat = ⟨(s.scene.world.setPos pid (some p.flat)).removeFrom pid old, [], true⟩ := by
              unfold Aoi.move
              rw [hold, hnew']
              dsimp only
              rw [if_neg he, if_neg ho, if_pos hn]
            rw [em]
            dsimp only
            rw [if_pos rfl]
            refine ByItself.trans (o' := []) (place _) (ByItself.trans (o' := []) (exit _) (ByItself.one ?_))
            unfold Multi.exec
            rw [busy_code]
            dsimp only
            rw [if_pos hn, busy_goOn]
          · have em : Aoi.move m s.scene.world pid p0 p.flat = ⟨((s.scene.world.setPos pid (some p.flat)).removeFrom pid old).addTo pid new,
                Aoi.exchange m (((s.scene.world.setPos pid (some p.flat)).removeFrom pid old).addTo pid new) pid old new, false⟩ := by
              unfold Aoi.move
              rw [hold, hnew']
              dsimp only
              rw [if_neg he, if_neg ho, if_neg hn]
            rw [em]
            dsimp only
            rw [if_neg (by simp), if_neg he]
            dsimp only
            unfold Screen.exchange
            dsimp only
            rw [List.append_assoc]
            have enter : ∀ c, ByItself m pid (busy ⟨(s.scene.world.setPos pid (some p.flat)).removeFrom pid old, s.scene.put pid p⟩ s.code pid (.enter new :: c)) []
                (busy ⟨((s.scene.world.setPos pid (some p.flat)).removeFrom pid old).addTo pid new, s.scene.put pid p⟩ s.code pid c) := by
              intro c
              refine ByItself.one ?_
              unfold Multi.exec
              rw [busy_code]
              dsimp only
              rw [if_neg hn]
              exact congrArg (·, []) (busy_goOn ⟨((s.scene.world.setPos pid (some p.flat)).removeFrom pid old).addTo pid new, s.scene.put pid p⟩ s.code pid
                (.enter new :: c) c)
            have meets := alone_meets m ⟨((s.scene.world.setPos pid (some p.flat)).removeFrom pid old).addTo pid new, s.scene.put pid p⟩ s.code pid
                [.scan (((surround m new).filterMap id).map (·.gid)) [] p]
                (((surround m new).filterMap id).filter fun g => g.gid ∉ ((surround m old).filterMap id).map (·.gid))
            dsimp only at meets
            rw [hput] at meets
            have parts := alone_parts m ⟨((s.scene.world.setPos pid (some p.flat)).removeFrom pid old).addTo pid new, s.scene.put pid p⟩ s.code pid
                ((((surround m new).filterMap id).filter fun g => g.gid ∉ ((surround m old).filterMap id).map (·.gid)).map (fun g => .meet g.gid p) ++
                [.scan (((surround m new).filterMap id).map (·.gid)) [] p])
                (((surround m old).filterMap id).filter fun g => g.gid ∉ ((surround m new).filterMap id).map (·.gid))
            exact ByItself.trans (o := []) (place _) (ByItself.trans (o := []) (exit _) (ByItself.trans (o := []) (enter _)
              (ByItself.trans parts (ByItself.trans meets (scan _)))))

/-- Player 1 comes near player 2 and has just collected the players of the grid of player 2 when that one walks away, all in one go; then it goes on. -/
def crossing : List Turn :=
  [.take 1 ⟨190, 0, 134, 0⟩] ++ List.replicate 20 (.next 1) ++ [.take 2 ⟨400, 0, 134, 0⟩] ++ List.replicate 60 (.next 2) ++ List.replicate 60 (.next 1)

/-- Two players at a distance. -/
def apart : Scene × (Int → Int → Option Place) := runScene demo [.arrive 1 ⟨100, 0, 134, 0⟩, .arrive 2 ⟨220, 0, 134, 0⟩]

theorem code_other (m : Mgr) (s : Multi) (t : Turn) (q : Int) (h : ∀ p, t ≠ .take q p) (h' : t ≠ .next q) : (s.turn m t).1.code q = s.code q := by
  have go : ∀ (s : Multi) (pid : Int) (c : List Instr), pid ≠ q → (s.goOn pid c).code q = s.code q := fun s pid c hn => if_neg (Ne.symm hn)
  cases t with
  | take pid p =>
    have hn : pid ≠ q := fun e => h p (by rw [e])
    unfold Multi.turn
    dsimp only
    repeat' split
    all_goals first | rfl | exact go _ _ _ hn
  | next pid =>
    have hn : pid ≠ q := fun e => h' (by rw [e])
    unfold Multi.turn Multi.exec
    dsimp only
    repeat' split
    all_goals first | rfl | exact go _ _ _ hn

theorem code_others (m : Mgr) (q : Int) (ts : List Turn) (h : ∀ t ∈ ts, (∀ p, t ≠ .take q p) ∧ t ≠ .next q) : ∀ s, (runTurns m s ts).1.code q = s.code q := by
  induction ts with
  | nil => intro s; rfl
  | cons t ts ih =>
    intro s
    have e := runTurns_append m s [t] ts
    rw [List.singleton_append] at e
    rw [e]
    dsimp only
    rw [ih (fun t' ht => h t' (List.mem_cons_of_mem _ ht))]
    exact code_other m s t q (h t List.mem_cons_self).1 (h t List.mem_cons_self).2

/-- **C140 fails** for moves that are handled at the same time: after `crossing`, when nobody is moving any more and all places have grids, each of the two
players shows the other, although they are far from each other. -/
theorem C140_overlap_refuted :
    let r := runTurns demo ⟨apart.1, fun _ => []⟩ crossing
    (∀ q, r.1.code q = []) ∧ r.1.scene.place 1 = ⟨190, 0, 134, 0⟩ ∧ r.1.scene.place 2 = ⟨400, 0, 134, 0⟩ ∧
    r.1.scene.world.members 33 = [1] ∧ r.1.scene.world.members 39 = [2] ∧
    ¬ Close demo ⟨190, 0, 134, 0⟩ ⟨400, 0, 134, 0⟩ ∧
    r.2.foldl showing apart.2 2 1 = some ⟨190, 0, 134, 0⟩ ∧ r.2.foldl showing apart.2 1 2 = some ⟨400, 0, 134, 0⟩ := by
  refine ⟨?_, by decide +kernel, by decide +kernel, by decide +kernel, by decide +kernel, ?_, by decide +kernel, by decide +kernel⟩
  · intro q
    by_cases h1 : q = 1
    · subst h1; decide +kernel
    · by_cases h2 : q = 2
      · subst h2; decide +kernel
      · refine code_others demo q crossing ?_ _
        unfold crossing
        simp only [List.mem_append, List.mem_singleton, List.mem_replicate]
        rintro t ((((rfl | ⟨_, rfl⟩) | rfl) | ⟨_, rfl⟩) | ⟨_, rfl⟩)
        all_goals
          constructor
          · intro p h
            simp only [Turn.take.injEq, reduceCtorEq] at h
            try omega
          · intro h
            simp only [Turn.next.injEq, reduceCtorEq] at h
            try omega
  · rintro ⟨g, h, h1, h2, h3, _⟩
    rw [show gidByPos demo 190 134 = some 33 by decide +kernel] at h1
    rw [show gidByPos demo 400 134 = some 39 by decide +kernel] at h2
    injection h1 with h1
    injection h2 with h2
    subst h1
    subst h2
    have e : demo.cntsX = 10 := rfl
    rw [e] at h3
    omega

/-- If the second player waits until the first is through, each shows nothing of the other. -/
example :
    let r := runTurns demo ⟨apart.1, fun _ => []⟩ ([.take 1 ⟨190, 0, 134, 0⟩] ++ List.replicate 60 (.next 1) ++ [.take 2 ⟨400, 0, 134, 0⟩] ++ List.replicate 60 (.next 2))
    r.1.scene.place 2 = ⟨400, 0, 134, 0⟩ ∧ r.2.foldl showing apart.2 2 1 = none ∧ r.2.foldl showing apart.2 1 2 = none := by
  refine ⟨by decide +kernel, by decide +kernel, by decide +kernel⟩

end Zinx.Props
