import Verif.Lemmas.WorldConc
import Verif.Lemmas.WorldRun

/-!
# C95: players who arrive, move and leave at the same time
-/

namespace Zinx.Props

open Zinx.WorldConc

/-- **C95**, partial, in every execution: a goroutine panics about player `q` only after the connection of `q` has ended and `q` has been taken out of the
table of online players. -/
theorem C95_cause_partial (near : Int → List Int) (l1 l2 : List Act) (x : Gor) (q : Nat) (s : WorldConc.St)
    (h : Steps (WorldConc.Step near) {} (l1 ++ .panic x q :: l2) s) : .leave q ∈ l1 ∧ .does (.hooks q) .offline ∈ l1 := by
  obtain ⟨t, ht, hr⟩ := h.split
  have hi := causeInv ht
  have : .does (.hooks q) .offline ∈ l1 := by
    cases hr with
    | cons hs _ =>
      cases hs with
      | selfNil _ c hc ho =>
        refine hi.gone _ ho ?_
        cases x with
        | hooks p =>
          have := hi.hooks p
          simp only [arriving] at this
          grind [Gor.owner]
        | mover p => exact hi.mover p (by rw [hc]; simp)
      | findNil _ _ b c hc hf ho => exact hi.gone _ ho (hi.found x q (by rw [hf]; simp))
  exact ⟨hi.left q this, this⟩

theorem orderly_fits {near : Int → List Int} {ls : List Act} {s : WorldConc.St} (h : Steps (OrderlyStep near) {} ls s) (p : Nat) : Fits s p :=
  h.invariant (P := fun s => ∀ p, Fits s p) (fun _ _ _ h hs => fits_step hs h) (fun _ => .away rfl rfl rfl rfl (fun _ => rfl)) p

/-- **C95**, partial: if no move of a player overlaps its departure, then whoever is listed in a grid is online, nobody is listed in two grids, and a player
of whom no hook or handler is running is listed in the grid of its position if it is online, and nowhere if it is not. A player being served is online,
and one whose departure went through is not. -/
theorem C95_listed_partial (near : Int → List Int) (ls : List Act) (s : WorldConc.St) (h : Steps (OrderlyStep near) {} ls s) (p : Nat) :
    (∀ g, s.listed g p = true → s.online p = true) ∧ (∀ g g', s.listed g p = true → s.listed g' p = true → g = g') ∧
    (s.code (.hooks p) = [] → s.code (.mover p) = [] → ∀ g, s.listed g p = true ↔ s.online p = true ∧ g = s.pos p) ∧
    (s.stage p = .here → s.online p = true) ∧ (s.stage p = .left → s.code (.hooks p) = [] → s.online p = false) := by
  have hf := orderly_fits h p
  refine ⟨?_, ?_, ?_, ?_, ?_⟩ <;> cases hf <;> first | (simp_all [ListedAt, Unlisted, arriving]; done) | grind [ListedAt, Unlisted, arriving]

/-- Executions in which, besides, nobody is taken out of the table of online players while another goroutine has collected its number and not yet looked it
up. -/
def CalmWorldStep (near : Int → List Int) (s : WorldConc.St) (l : Act) (t : WorldConc.St) : Prop :=
  OrderlyStep near s l t ∧ ∀ q, l = .does (.hooks q) .offline → ∀ x, q ∉ s.found x

theorem calm_orderly {near : Int → List Int} {s t : WorldConc.St} {ls : List Act} (h : Steps (CalmWorldStep near) s ls t) : Steps (OrderlyStep near) s ls t := by
  induction h with
  | nil => exact .nil _
  | cons h _ ih => exact .cons h.1 ih

set_option linter.unusedSimpArgs false in
theorem calm_found {near : Int → List Int} {s t : WorldConc.St} {l : Act} (hs : CalmWorldStep near s l t) (hf : ∀ p, Fits s p)
    (h : ∀ x q, q ∈ s.found x → s.online q = true) : ∀ x q, q ∈ t.found x → t.online q = true := by
  obtain ⟨⟨hs, -⟩, hc⟩ := hs
  have hl : ∀ g q, s.listed g q = true → s.online q = true := by
    intro g q hg
    cases hf q <;> grind [ListedAt, Unlisted]
  have ho : ∀ x c, s.code x = .offline :: c → x = .hooks x.owner := by
    intro x c hx
    cases x with
    | hooks p => rfl
    | mover p => have hL := @Looks.head; cases hf p <;> grind
  cases hs <;> simp only [St.goOn, St.keep, St.setStage, St.setOnline, St.setPos, St.setListed, crash_found, crash_online] <;> grind

/-- **C95**, partial: in such executions no hook and no handler panics. -/
theorem C95_calm_partial (near : Int → List Int) (ls : List Act) (s : WorldConc.St) (h : Steps (CalmWorldStep near) {} ls s) (x : Gor) (q : Nat) :
    .panic x q ∉ ls := by
  have h2 : (∀ p, Fits s p) ∧ (∀ x q, q ∈ s.found x → s.online q = true) ∧ ∀ x q, .panic x q ∉ ls := by
    refine h.invariant_trace (P := fun ls s => (∀ p, Fits s p) ∧ (∀ x q, q ∈ s.found x → s.online q = true) ∧ ∀ x q, .panic x q ∉ ls) ?_
      ⟨fun _ => .away rfl rfl rfl rfl (fun _ => rfl), by simp, by simp⟩
    intro ls s l t ⟨hf, ho, hp⟩ hs
    refine ⟨fits_step hs.1 hf, calm_found hs hf ho, ?_⟩
    intro x q hx
    rcases List.mem_append.1 hx with hx | hx
    · exact hp x q hx
    · simp only [List.mem_singleton] at hx
      subst hx
      obtain ⟨⟨hs, -⟩, -⟩ := hs
      cases hs with
      | selfNil _ c hc hn =>
        cases x with
        | hooks p =>
          have hL := @Looks.head
          have hK : ∀ c', s.code (.hooks p) = c' ++ [.exitHere, .offline] → Looks c' → False := by
            intro c' h1 h2
            have := leaving_next h2 (hc.symm.trans h1)
            grind
          cases hf p <;> grind [arriving]
        | mover p => have hL := @Looks.head; cases hf p <;> grind [Gor.owner]
      | findNil _ _ b c hc hb hn =>
        have := ho x q (by rw [hb]; simp)
        simp [this] at hn
  exact h2.2.2 x q

/-- A world of two grids. -/
def twoGrids : Aoi.Mgr := Aoi.newMgr 0 2 2 0 1 1

example : around twoGrids 0 = [0, 1] ∧ around twoGrids 1 = [1, 0] := by decide

/-- Player 1 moves to the other grid while player 2 arrives; then player 2 leaves. -/
def calmVisit : List Act := [
    .arrive 1 0, .does (.hooks 1) .online, .does (.hooks 1) (.enter 0), .does (.hooks 1) .look, .does (.hooks 1) (.scan 0),
    .does (.hooks 1) (.scan 1), .does (.hooks 1) .find, .does (.hooks 1) .find, .served 1, .arrive 2 0, .does (.hooks 2) .online,
    .does (.hooks 2) (.enter 0), .move 1 1, .does (.mover 1) .self, .does (.mover 1) (.go 1), .does (.mover 1) (.setPos 1),
    .does (.mover 1) (.exit 0), .does (.hooks 2) .look, .does (.hooks 2) (.scan 0), .does (.mover 1) (.enter 1), .does (.mover 1) .look,
    .does (.mover 1) (.scan 1), .does (.hooks 2) (.scan 1), .does (.hooks 2) .find, .does (.hooks 2) .find, .does (.hooks 2) .find, .served 2,
    .does (.mover 1) (.scan 0), .does (.mover 1) .find, .does (.mover 1) .find, .does (.mover 1) .find, .leave 2, .does (.hooks 2) .look,
    .does (.hooks 2) (.scan 0), .does (.hooks 2) (.scan 1), .does (.hooks 2) .find, .does (.hooks 2) .find, .does (.hooks 2) .find,
    .does (.hooks 2) .exitHere, .does (.hooks 2) (.exit 0), .does (.hooks 2) .offline]

def calmOk (z : Snap) (l : Act) : Bool :=
  match l with
  | .leave p => decide (get [] (.mover p) z.code = [])
  | .move p _ => decide (get .away p z.stage = .here)
  | .does (.hooks q) .offline => z.found.all fun e => q ∉ get [] e.1 z.found
  | _ => true

theorem calmOk_sound {near : Int → List Int} (z : Snap) (l : Act) (z' : Snap) (h : calmOk z l = true) (hs : WorldConc.Step near z.st l z'.st) :
    CalmWorldStep near z.st l z'.st := by
  refine ⟨⟨hs, ?_, ?_⟩, ?_⟩
  · rintro p rfl
    exact of_decide_eq_true h
  · rintro p g rfl
    exact of_decide_eq_true h
  · rintro q rfl x hq
    simp only [calmOk, List.all_eq_true, decide_eq_true_eq] at h
    obtain ⟨e, he, rfl⟩ := get_mem [] x z.found (by intro hc; simp [Snap.st, hc] at hq)
    exact h e he hq

example : ∃ s, Steps (CalmWorldStep (around twoGrids)) {} calmVisit s ∧ Steps (OrderlyStep (around twoGrids)) {} calmVisit s ∧
    s.quiet ∧ s.online 1 = true ∧ s.listed 1 1 = true ∧ s.stage 2 = .left ∧ s.online 2 = false := by
  obtain ⟨z, hz, hc⟩ := Snap.runIf_any (near := around twoGrids) (ok := calmOk) calmOk_sound (ls := calmVisit)
    (bs := [[], [], [], [], [1], [], [], [], [], [], [], [], [], [], [], [], [], [], [2], [], [], [1], [1], [], [], [], [], [2], [], [], [], [], [], [2], [1], [], [], [], [], [], []])
    (check := fun z => z.quiet && get false 1 z.online && get false (1, 1) z.listed && decide (get .away 2 z.stage = .left) && !get false 2 z.online)
    (by decide +kernel) (by decide +kernel)
  simp only [Bool.and_eq_true, decide_eq_true_eq, Bool.not_eq_true'] at hc
  obtain ⟨⟨⟨⟨h1, h2⟩, h3⟩, h4⟩, h5⟩ := hc
  exact ⟨z.st, hz, calm_orderly hz, Snap.quiet_st h1, h2, h3, h4, h5⟩

/-- Player 1 moves within its grid; between its collecting the players around and looking them up, player 2 leaves. -/
def lookRace : List Act := [
    .arrive 1 0, .does (.hooks 1) .online, .does (.hooks 1) (.enter 0), .does (.hooks 1) .look, .does (.hooks 1) (.scan 0),
    .does (.hooks 1) (.scan 1), .does (.hooks 1) .find, .does (.hooks 1) .find, .served 1, .arrive 2 0, .does (.hooks 2) .online,
    .does (.hooks 2) (.enter 0), .does (.hooks 2) .look, .does (.hooks 2) (.scan 0), .does (.hooks 2) (.scan 1), .does (.hooks 2) .find,
    .does (.hooks 2) .find, .does (.hooks 2) .find, .served 2, .move 1 0, .does (.mover 1) .self, .does (.mover 1) (.go 0),
    .does (.mover 1) (.setPos 0), .does (.mover 1) .look, .does (.mover 1) (.scan 0), .does (.mover 1) (.scan 1), .leave 2, .does (.hooks 2) .look,
    .does (.hooks 2) (.scan 0), .does (.hooks 2) (.scan 1), .does (.hooks 2) .find, .does (.hooks 2) .find, .does (.hooks 2) .find,
    .does (.hooks 2) .exitHere, .does (.hooks 2) (.exit 0), .does (.hooks 2) .offline, .does (.mover 1) .find, .panic (.mover 1) 2]

/-- **C95** is false: the handler of player 1, who stays, panics. -/
theorem C95_look_refuted : (∃ s, Steps (WorldConc.Step (around twoGrids)) {} lookRace s) ∧ .panic (.mover 1) 2 ∈ lookRace ∧ .leave 1 ∉ lookRace := by
  obtain ⟨z, hz, -⟩ := Snap.run_any (near := around twoGrids) (ls := lookRace)
    (bs := [[], [], [], [], [1], [], [], [], [], [], [], [], [], [1, 2], [], [], [], [], [], [], [], [], [], [], [1, 2], [], [], [], [1, 2], [], [], [], [], [], [], [], [], []])
    (check := fun z => true) (by decide +kernel) (by decide +kernel)
  exact ⟨⟨_, hz⟩, by decide, by decide⟩

/-- A player whose `OnConnectionLost` panicked. -/
structure StaysOn (s : WorldConc.St) (p : Nat) : Prop where
  stage : s.stage p = .lostStop
  hooks : s.code (.hooks p) = []
  mover : .offline ∉ s.code (.mover p)
  online : s.online p = true

set_option linter.unusedSimpArgs false in
theorem staysOn_step {near : Int → List Int} {s t : WorldConc.St} {l : Act} {p : Nat} (hs : WorldConc.Step near s l t) (h : StaysOn s p) : StaysOn t p := by
  obtain ⟨h1, h2, h3, h4⟩ := h
  have hp := updatePos_plain near
  have hq := scans_plain
  have ho : ∀ x i c, s.code x = i :: c → x.owner = p → x = .mover p := by
    intro x i c hc hx
    cases x with
    | hooks q => simp only [Gor.owner] at hx; subst hx; simp [h2] at hc
    | mover q => simp only [Gor.owner] at hx; rw [hx]
  constructor <;> cases hs <;> simp only [St.goOn, St.keep, St.setStage, St.setOnline, St.setPos, St.setListed, crash_code, crash_online, crash_stage] <;> grind

/-- Players 1 and 2 leave at the same time. -/
def leaveRace : List Act := [
    .arrive 1 0, .does (.hooks 1) .online, .does (.hooks 1) (.enter 0), .does (.hooks 1) .look, .does (.hooks 1) (.scan 0),
    .does (.hooks 1) (.scan 1), .does (.hooks 1) .find, .does (.hooks 1) .find, .served 1, .arrive 2 0, .does (.hooks 2) .online,
    .does (.hooks 2) (.enter 0), .does (.hooks 2) .look, .does (.hooks 2) (.scan 0), .does (.hooks 2) (.scan 1), .does (.hooks 2) .find,
    .does (.hooks 2) .find, .does (.hooks 2) .find, .served 2, .leave 1, .does (.hooks 1) .look, .does (.hooks 1) (.scan 0),
    .does (.hooks 1) (.scan 1), .leave 2, .does (.hooks 2) .look, .does (.hooks 2) (.scan 0), .does (.hooks 2) (.scan 1), .does (.hooks 2) .find,
    .does (.hooks 2) .find, .does (.hooks 2) .find, .does (.hooks 2) .exitHere, .does (.hooks 2) (.exit 0), .does (.hooks 2) .offline,
    .does (.hooks 1) .find, .panic (.hooks 1) 2]

/-- **C95** is false: the hook of player 1 panics, and although its connection is lost, player 1 is online for ever. -/
theorem C95_stays_refuted : ∃ s, Steps (WorldConc.Step (around twoGrids)) {} leaveRace s ∧ .leave 1 ∈ leaveRace ∧ .panic (.hooks 1) 2 ∈ leaveRace ∧
    s.quiet ∧ ∀ ls t, Steps (WorldConc.Step (around twoGrids)) s ls t → t.online 1 = true := by
  obtain ⟨z, hz, hc⟩ := Snap.run_any (near := around twoGrids) (ls := leaveRace)
    (bs := [[], [], [], [], [1], [], [], [], [], [], [], [], [], [1, 2], [], [], [], [], [], [], [], [1, 2], [], [], [], [1, 2], [], [], [], [], [], [], [], [], []])
    (check := fun z => z.quiet && decide (get .away 1 z.stage = .lostStop) && get false 1 z.online) (by decide +kernel) (by decide +kernel)
  simp only [Bool.and_eq_true, decide_eq_true_eq] at hc
  obtain ⟨⟨h1, h2⟩, h3⟩ := hc
  have hq := Snap.quiet_st h1
  exact ⟨z.st, hz, by decide, by decide, hq, fun ls t ht =>
    (ht.invariant (P := fun s => StaysOn s 1) (fun _ _ _ h hs => staysOn_step hs h) ⟨h2, hq _, by rw [hq]; simp, h3⟩).online⟩

/-- Player 1 leaves after it has changed its position in `UpdatePos` and before the grids are changed. -/
def moveRace : List Act := [
    .arrive 1 0, .does (.hooks 1) .online, .does (.hooks 1) (.enter 0), .does (.hooks 1) .look, .does (.hooks 1) (.scan 0),
    .does (.hooks 1) (.scan 1), .does (.hooks 1) .find, .does (.hooks 1) .find, .served 1, .move 1 1, .does (.mover 1) .self,
    .does (.mover 1) (.go 1), .does (.mover 1) (.setPos 1), .leave 1, .does (.hooks 1) .look, .does (.hooks 1) (.scan 1), .does (.hooks 1) (.scan 0),
    .does (.hooks 1) .find, .does (.hooks 1) .find, .does (.hooks 1) .exitHere, .does (.hooks 1) (.exit 1), .does (.hooks 1) .offline,
    .does (.mover 1) (.exit 0), .does (.mover 1) (.enter 1), .does (.mover 1) .look, .does (.mover 1) (.scan 1), .does (.mover 1) (.scan 0),
    .panic (.mover 1) 1]

/-- How far `OnConnectionAdd` has come at `pos`, with the players `found` collected; number 1 is collected sooner or later. -/
inductive Newcomer (pos : Int) (found : List Nat) : List Instr → Prop where
  | start : Newcomer pos found (arriving pos)
  | entering : Newcomer pos found [.enter pos, .look]
  | looking : Newcomer pos found [.look]
  | scanning (l : List Int) : 1 ∈ l ∨ 1 ∈ found → Newcomer pos found (l.map .scan ++ [.find])

/-- The number of player 1, who is gone, is listed in grid 1; and nobody else has got through `OnConnectionAdd` since. -/
structure Ghost (s : WorldConc.St) : Prop where
  stage : s.stage 1 = .left
  hooks : s.code (.hooks 1) = []
  mover : s.code (.mover 1) = [] ∨ ∃ g, s.code (.mover 1) = [.self, .go g]
  online : s.online 1 = false
  listed : s.listed 1 1 = true
  movers : ∀ q, q ≠ 1 → s.code (.mover q) = []
  others : ∀ q, q ≠ 1 → (s.code (.hooks q) = [] ∧ (s.stage q = .away ∨ s.stage q = .lostStart)) ∨
    (s.stage q = .coming ∧ (s.pos q = 0 ∨ s.pos q = 1) ∧ Newcomer (s.pos q) (s.found (.hooks q)) (s.code (.hooks q)))

theorem newcomer_cons {pos : Int} {found : List Nat} {i : Instr} {c : List Instr} (h : Newcomer pos found (i :: c)) :
    (i = .online ∧ c = [.enter pos, .look]) ∨ (i = .enter pos ∧ c = [.look]) ∨ (i = .look ∧ c = []) ∨ (i = .find ∧ c = [] ∧ 1 ∈ found) ∨
      ∃ g, ∃ l : List Int, i = .scan g ∧ c = l.map .scan ++ [.find] ∧ (1 = g ∨ 1 ∈ l ∨ 1 ∈ found) := by
  generalize hd : i :: c = d at h
  cases h with
  | start => simp only [arriving, List.cons.injEq] at hd; exact .inl hd
  | entering => simp only [List.cons.injEq] at hd; exact .inr (.inl hd)
  | looking => simp only [List.cons.injEq] at hd; exact .inr (.inr (.inl hd))
  | scanning l hl =>
    cases l with
    | nil => simp at hd hl; exact .inr (.inr (.inr (.inl ⟨hd.1, hd.2, hl⟩)))
    | cons g l =>
      simp only [List.map_cons, List.cons_append, List.cons.injEq] at hd
      refine .inr (.inr (.inr (.inr ⟨g, l, hd.1, hd.2, ?_⟩)))
      simpa [or_assoc] using hl

theorem newcomer_ne {pos : Int} {found : List Nat} {c : List Instr} (h : Newcomer pos found c) : c ≠ [] := by
  cases h <;> simp [arriving]

set_option linter.unusedSimpArgs false in
theorem other_found {near : Int → List Int} {s t : WorldConc.St} {l : Act} (hs : WorldConc.Step near s l t) (x : Gor) (hp : x.owner ≠ subject l) :
    t.found x = s.found x := by
  have ho : ∀ y : Gor, x.owner ≠ y.owner → x ≠ y := by
    intro y hy hc; subst hc; exact hy rfl
  cases hs <;> simp only [St.goOn, St.keep, St.setStage, St.setOnline, St.setPos, St.setListed, crash_code, crash_found, crash_online, crash_listed, crash_stage, crash_pos] <;> (try simp only [subject] at hp) <;> grind

set_option linter.unusedSimpArgs false in
theorem ghost_step {s t : WorldConc.St} {l : Act} (hs : WorldConc.Step (around twoGrids) s l t) (hl : ∀ p g, l = .arrive p g → g = 0 ∨ g = 1)
    (h : Ghost s) : Ghost t ∧ ∀ q, l ≠ .served q := by
  obtain ⟨h1, h2, h3, h4, h5, h6, h7⟩ := h
  have h0 : ∀ g, g = 0 ∨ g = 1 → 1 ∈ around twoGrids g := by rintro g (rfl | rfl) <;> decide
  have hx : ∀ x i c, s.code x = i :: c → (x = .mover 1 ∧ i = .self) ∨ ∃ q, q ≠ 1 ∧ x = .hooks q := by
    intro x i c hc
    cases x with
    | hooks p => by_cases hp : p = 1 <;> grind
    | mover p => by_cases hp : p = 1 <;> grind
  have hn := @newcomer_ne
  have hs1 : ∀ q, l ≠ .served q := by
    intro q hq
    subst hq
    cases hs with
    | served _ hst hco => by_cases hq : q = 1 <;> grind
  refine ⟨⟨?_, ?_, ?_, ?_, ?_, ?_, ?_⟩, hs1⟩
  · cases hs <;> simp only [St.goOn, St.keep, St.setStage, St.setOnline, St.setPos, St.setListed, crash_code, crash_found, crash_online, crash_listed, crash_stage, crash_pos] <;> grind [Gor.owner]
  · cases hs <;> simp only [St.goOn, St.keep, St.setStage, St.setOnline, St.setPos, St.setListed, crash_code, crash_found, crash_online, crash_listed, crash_stage, crash_pos] <;> grind [Gor.owner]
  · cases hs <;> simp only [St.goOn, St.keep, St.setStage, St.setOnline, St.setPos, St.setListed, crash_code, crash_found, crash_online, crash_listed, crash_stage, crash_pos] <;> grind [Gor.owner]
  · cases hs <;> simp only [St.goOn, St.keep, St.setStage, St.setOnline, St.setPos, St.setListed, crash_code, crash_found, crash_online, crash_listed, crash_stage, crash_pos] <;> grind [Gor.owner]
  · cases hs <;> simp only [St.goOn, St.keep, St.setStage, St.setOnline, St.setPos, St.setListed, crash_code, crash_found, crash_online, crash_listed, crash_stage, crash_pos] <;> grind [Gor.owner]
  · intro q hq; cases hs <;> simp only [St.goOn, St.keep, St.setStage, St.setOnline, St.setPos, St.setListed, crash_code, crash_found, crash_online, crash_listed, crash_stage, crash_pos] <;> grind [Gor.owner]
  · intro q hq
    have h7 := h7 q hq
    have h6 := h6 q hq
    by_cases hp : q = subject l
    case neg =>
      have e := other_same hs q hp
      rw [e.hooks, e.stage, e.pos, other_found hs (.hooks q) hp]
      exact h7
    have hxq : ∀ x i c, s.code x = i :: c → x.owner = q → x = .hooks q := by
      intro x i c hc ho
      cases x with
      | hooks p => exact congrArg _ ho
      | mover p => simp only [Gor.owner] at ho; subst ho; simp [h6] at hc
    have hn' : ∀ i c, s.code (.hooks q) = i :: c → s.stage q = .coming ∧ (s.pos q = 0 ∨ s.pos q = 1) ∧
        ((i = .online ∧ c = [.enter (s.pos q), .look]) ∨ (i = .enter (s.pos q) ∧ c = [.look]) ∨ (i = .look ∧ c = []) ∨
          (i = .find ∧ c = [] ∧ 1 ∈ s.found (.hooks q)) ∨
          ∃ g, ∃ l : List Int, i = .scan g ∧ c = l.map .scan ++ [.find] ∧ (1 = g ∨ 1 ∈ l ∨ 1 ∈ s.found (.hooks q))) := by
      intro i c hc
      rw [hc] at h7
      rcases h7 with ⟨h, -⟩ | ⟨h, h', h''⟩
      · cases h
      · exact ⟨h, h', newcomer_cons h''⟩
    cases hs with
    | arrive p g h =>
      simp only [subject] at hp; subst hp
      refine .inr ⟨by simp [St.goOn, St.setStage, St.setPos], by simpa [St.goOn, St.setStage, St.setPos] using hl _ _ rfl, ?_⟩
      simpa [St.goOn, St.setStage, St.setPos] using Newcomer.start
    | served p => exact absurd rfl (hs1 p)
    | move p g h => simp only [subject] at hp; subst hp; grind
    | leave p h => simp only [subject] at hp; subst hp; grind
    | online x c hc =>
      simp only [subject] at hp
      obtain rfl := hxq x _ _ hc hp.symm
      have hi := hn' _ _ hc
      refine .inr ⟨hi.1, hi.2.1, ?_⟩
      have hc2 : c = [.enter (s.pos q), .look] := by grind
      subst hc2
      simp only [St.goOn, St.keep, St.setStage, St.setOnline, St.setPos, St.setListed, if_true]
      exact .entering
    | offline x c hc =>
      simp only [subject] at hp
      obtain rfl := hxq x _ _ hc hp.symm
      have hi := hn' _ _ hc
      exfalso; grind
    | enter x g c hc =>
      simp only [subject] at hp
      obtain rfl := hxq x _ _ hc hp.symm
      have hi := hn' _ _ hc
      refine .inr ⟨hi.1, hi.2.1, ?_⟩
      have hc2 : c = [.look] := by grind
      subst hc2
      simp only [St.goOn, St.keep, St.setStage, St.setOnline, St.setPos, St.setListed, if_true]
      exact .looking
    | exit x g c hc =>
      simp only [subject] at hp
      obtain rfl := hxq x _ _ hc hp.symm
      have hi := hn' _ _ hc
      exfalso; grind
    | exitHere x c hc =>
      simp only [subject] at hp
      obtain rfl := hxq x _ _ hc hp.symm
      have hi := hn' _ _ hc
      exfalso; grind
    | self x c hc =>
      simp only [subject] at hp
      obtain rfl := hxq x _ _ hc hp.symm
      have hi := hn' _ _ hc
      exfalso; grind
    | selfNil x c hc =>
      simp only [subject] at hp
      obtain rfl := hxq x _ _ hc hp.symm
      have hi := hn' _ _ hc
      exfalso; grind
    | go x g c hc =>
      simp only [subject] at hp
      obtain rfl := hxq x _ _ hc hp.symm
      have hi := hn' _ _ hc
      exfalso; grind
    | setPos x g c hc =>
      simp only [subject] at hp
      obtain rfl := hxq x _ _ hc hp.symm
      have hi := hn' _ _ hc
      exfalso; grind
    | look x c hc =>
      simp only [subject] at hp
      obtain rfl := hxq x _ _ hc hp.symm
      have hi := hn' _ _ hc
      refine .inr ⟨hi.1, hi.2.1, ?_⟩
      have hc2 : c = [] := by grind
      subst hc2
      simp only [St.goOn, St.keep, St.setStage, St.setOnline, St.setPos, St.setListed, if_true]
      exact .scanning _ (.inl (h0 _ hi.2.1))
    | scan x g c b hc hb he =>
      simp only [subject] at hp
      obtain rfl := hxq x _ _ hc hp.symm
      have hi := hn' _ _ hc
      refine .inr ⟨hi.1, hi.2.1, ?_⟩
      obtain ⟨l, hc2, hl2⟩ : ∃ l : List Int, c = l.map .scan ++ [.find] ∧ (1 = g ∨ 1 ∈ l ∨ 1 ∈ s.found (.hooks q)) := by grind
      subst hc2
      simp only [St.goOn, St.keep, if_true]
      refine .scanning l ?_
      rcases hl2 with rfl | hl2 | hl2
      · exact .inr (List.mem_append_right _ ((he 1).2 h5))
      · exact .inl hl2
      · exact .inr (List.mem_append_left _ hl2)
    | find x r b c hc hb ho =>
      simp only [subject] at hp
      obtain rfl := hxq x _ _ hc hp.symm
      have hi := hn' _ _ hc
      refine .inr ⟨hi.1, hi.2.1, ?_⟩
      have hf : c = [] ∧ 1 ∈ s.found (.hooks q) := by grind
      have hr : r ≠ 1 := by rintro rfl; simp [h4] at ho
      simp only [St.keep, if_true, hc, hf.1]
      exact .scanning [] (.inr (by grind))
    | findNil x r b c hc hb ho =>
      simp only [subject] at hp
      obtain rfl := hxq x _ _ hc hp.symm
      have hi := hn' _ _ hc
      refine .inl ?_
      simp only [crash_code, crash_stage, if_true, hi.1, true_and, or_true]
    | found x c hc hb =>
      simp only [subject] at hp
      obtain rfl := hxq x _ _ hc hp.symm
      have hi := hn' _ _ hc
      exfalso; grind

theorem ghost_steps {s t : WorldConc.St} {ls : List Act} (hs : Steps (WorldConc.Step (around twoGrids)) s ls t) :
    (∀ p g, .arrive p g ∈ ls → g = 0 ∨ g = 1) → Ghost s → Ghost t ∧ ∀ q, .served q ∉ ls := by
  induction hs with
  | nil => intro _ h; exact ⟨h, by simp⟩
  | cons h _ ih =>
    intro hl hg
    obtain ⟨h1, h2⟩ := ghost_step h (fun p g he => hl p g (by simp [he])) hg
    obtain ⟨h3, h4⟩ := ih (fun p g he => hl p g (by simp [he])) h1
    refine ⟨h3, fun q hq => ?_⟩
    rcases List.mem_cons.1 hq with hq | hq
    · exact h2 q hq.symm
    · exact h4 q hq

/-- **C95** is false: when all is quiet again, player 1 is listed in grid 1 and is not online. This stays so for ever, and whoever arrives in either grid
after that panics in `OnConnectionAdd`: nobody is ever served again. -/
theorem C95_ghost_refuted : ∃ s, Steps (WorldConc.Step (around twoGrids)) {} moveRace s ∧ s.quiet ∧ s.listed 1 1 = true ∧ s.online 1 = false ∧
    ∀ ls t, Steps (WorldConc.Step (around twoGrids)) s ls t → (∀ p g, .arrive p g ∈ ls → g = 0 ∨ g = 1) →
      t.listed 1 1 = true ∧ t.online 1 = false ∧ ∀ q, .served q ∉ ls := by
  obtain ⟨z, hz, hc⟩ := Snap.run_any (near := around twoGrids) (ls := moveRace)
    (bs := [[], [], [], [], [1], [], [], [], [], [], [], [], [], [], [], [], [1], [], [], [], [], [], [], [], [], [1], [], []])
    (check := fun z => z.quiet && z.only [1] && decide (get .away 1 z.stage = .left) && get false (1, 1) z.listed && !get false 1 z.online) (by decide +kernel) (by decide +kernel)
  simp only [Bool.and_eq_true, decide_eq_true_eq, Bool.not_eq_true'] at hc
  obtain ⟨⟨⟨⟨h1, h2⟩, h3⟩, h4⟩, h5⟩ := hc
  have hq := Snap.quiet_st h1
  refine ⟨z.st, hz, hq, h4, h5, fun ls t ht hl => ?_⟩
  have hg := ghost_steps ht hl ⟨h3, hq _, .inl (hq _), h5, h4, fun q _ => hq _,
    fun q hn => .inl ⟨hq _, .inl (Snap.only_st h2 q (by simpa using hn))⟩⟩
  exact ⟨hg.1.listed, hg.1.online, hg.2⟩

/-- A move of player 1 received before its connection ended, and handled after. -/
def lateMove : List Act := [
    .arrive 1 0, .does (.hooks 1) .online, .does (.hooks 1) (.enter 0), .does (.hooks 1) .look, .does (.hooks 1) (.scan 0),
    .does (.hooks 1) (.scan 1), .does (.hooks 1) .find, .does (.hooks 1) .find, .served 1, .leave 1, .does (.hooks 1) .look,
    .does (.hooks 1) (.scan 0), .does (.hooks 1) (.scan 1), .does (.hooks 1) .find, .does (.hooks 1) .find, .does (.hooks 1) .exitHere,
    .does (.hooks 1) (.exit 0), .does (.hooks 1) .offline, .move 1 0, .panic (.mover 1) 1]

/-- **C95** is false: the handler of a player who has left panics. -/
theorem C95_late_refuted : (∃ s, Steps (WorldConc.Step (around twoGrids)) {} lateMove s) ∧ .panic (.mover 1) 1 ∈ lateMove := by
  obtain ⟨z, hz, -⟩ := Snap.run_any (near := around twoGrids) (ls := lateMove)
    (bs := [[], [], [], [], [1], [], [], [], [], [], [], [1], [], [], [], [], [], [], [], []])
    (check := fun z => true) (by decide +kernel) (by decide +kernel)
  exact ⟨⟨_, hz⟩, by decide⟩

end Zinx.Props
