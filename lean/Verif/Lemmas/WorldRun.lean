import Verif.Model.WorldConc

/-! Running Model/WorldConc.lean on a list of actions, to check executions by computation. -/

namespace Zinx.WorldConc

/-- The value last written for a key. -/
def get {α β : Type} [DecidableEq α] (d : β) (k : α) : List (α × β) → β
  | [] => d
  | (a, v) :: l => if k = a then v else get d k l

/-- A state as lists of writes, latest first. -/
structure Snap where
  online : List (Nat × Bool) := []
  listed : List ((Int × Nat) × Bool) := []
  pos : List (Nat × Int) := []
  stage : List (Nat × Stage) := []
  code : List (Gor × List Instr) := []
  found : List (Gor × List Nat) := []

def Snap.st (z : Snap) : St where
  online := fun q => get false q z.online
  listed := fun g q => get false (g, q) z.listed
  pos := fun q => get 0 q z.pos
  stage := fun q => get .away q z.stage
  code := fun x => get [] x z.code
  found := fun x => get [] x z.found

theorem Snap.st_empty : ({} : Snap).st = {} := rfl

def Snap.goOn (z : Snap) (x : Gor) (c : List Instr) : Snap := { z with code := (x, c) :: z.code }
def Snap.keep (z : Snap) (x : Gor) (b : List Nat) : Snap := { z with found := (x, b) :: z.found }
def Snap.setStage (z : Snap) (p : Nat) (v : Stage) : Snap := { z with stage := (p, v) :: z.stage }
def Snap.setOnline (z : Snap) (p : Nat) (v : Bool) : Snap := { z with online := (p, v) :: z.online }
def Snap.setPos (z : Snap) (p : Nat) (g : Int) : Snap := { z with pos := (p, g) :: z.pos }
def Snap.setListed (z : Snap) (g : Int) (p : Nat) (v : Bool) : Snap := { z with listed := ((g, p), v) :: z.listed }

theorem Snap.st_goOn (z : Snap) (x : Gor) (c : List Instr) : (z.goOn x c).st = z.st.goOn x c := rfl
theorem Snap.st_keep (z : Snap) (x : Gor) (b : List Nat) : (z.keep x b).st = z.st.keep x b := rfl
theorem Snap.st_setStage (z : Snap) (p : Nat) (v : Stage) : (z.setStage p v).st = z.st.setStage p v := rfl
theorem Snap.st_setOnline (z : Snap) (p : Nat) (v : Bool) : (z.setOnline p v).st = z.st.setOnline p v := rfl
theorem Snap.st_setPos (z : Snap) (p : Nat) (g : Int) : (z.setPos p g).st = z.st.setPos p g := rfl
theorem Snap.st_setListed (z : Snap) (g : Int) (p : Nat) (v : Bool) : (z.setListed g p v).st = z.st.setListed g p v := by
  simp only [Snap.st, Snap.setListed, St.setListed, get, Prod.mk.injEq]

def Snap.crash (z : Snap) : Gor → Snap
  | .hooks p => ((z.goOn (.hooks p) []).keep (.hooks p) []).setStage p (if get .away p z.stage = .coming then .lostStart else .lostStop)
  | .mover p => (z.goOn (.mover p) []).keep (.mover p) []

theorem Snap.st_crash (z : Snap) (x : Gor) : (z.crash x).st = z.st.crash x := by cases x <;> rfl

/-- One action; `b` is the order in which the players of a grid are collected. -/
def Snap.next (near : Int → List Int) (z : Snap) (l : Act) (b : List Nat) : Option Snap :=
  match l with
  | .arrive p g => if get .away p z.stage = .away then some (((z.setStage p .coming).setPos p g).goOn (.hooks p) (arriving g)) else none
  | .served p => if get .away p z.stage = .coming ∧ get [] (.hooks p) z.code = [] then some (z.setStage p .here) else none
  | .move p g =>
    if (get .away p z.stage = .here ∨ get .away p z.stage = .left ∨ get .away p z.stage = .lostStop) ∧ get [] (.mover p) z.code = [] then
      some (z.goOn (.mover p) [.self, .go g])
    else none
  | .leave p => if get .away p z.stage = .here then some ((z.setStage p .left).goOn (.hooks p) leaving) else none
  | .panic x q =>
    match get [] x z.code with
    | .self :: _ => if q = x.owner ∧ get false x.owner z.online = false then some (z.crash x) else none
    | .find :: _ =>
      match get [] x z.found with
      | q' :: _ => if q' = q ∧ get false q z.online = false then some (z.crash x) else none
      | [] => none
    | _ => none
  | .does x i =>
    match get [] x z.code with
    | [] => none
    | j :: c =>
      if i ≠ j then none else
      match i with
      | .online => some ((z.setOnline x.owner true).goOn x c)
      | .offline => some ((z.setOnline x.owner false).goOn x c)
      | .enter g => some ((z.setListed g x.owner true).goOn x c)
      | .exit g => some ((z.setListed g x.owner false).goOn x c)
      | .exitHere => some (z.goOn x (.exit (get 0 x.owner z.pos) :: c))
      | .self => if get false x.owner z.online = true then some (z.goOn x c) else none
      | .go g => some (z.goOn x (updatePos near (get 0 x.owner z.pos) g ++ c))
      | .setPos g => some ((z.setPos x.owner g).goOn x c)
      | .look => some (z.goOn x ((near (get 0 x.owner z.pos)).map .scan ++ .find :: c))
      | .scan g =>
        if b.Nodup ∧ (∀ q ∈ b, get false (g, q) z.listed = true) ∧ (∀ e ∈ z.listed, e.1.1 = g → get false e.1 z.listed = true → e.1.2 ∈ b) then
          some ((z.keep x (get [] x z.found ++ b)).goOn x c)
        else none
      | .find =>
        match get [] x z.found with
        | [] => some (z.goOn x c)
        | q :: b => if get false q z.online = true then some (z.keep x b) else none

theorem get_mem {α β : Type} [DecidableEq α] (d : β) (k : α) (l : List (α × β)) (h : get d k l ≠ d) : ∃ e ∈ l, e.1 = k := by
  induction l with
  | nil => exact absurd rfl h
  | cons a l ih =>
    obtain ⟨a, v⟩ := a
    by_cases hk : k = a
    · exact ⟨_, List.mem_cons_self, hk.symm⟩
    · rw [get, if_neg hk] at h
      obtain ⟨e, h1, h2⟩ := ih h
      exact ⟨e, List.mem_cons_of_mem _ h1, h2⟩

theorem Snap.next_sound {near : Int → List Int} {z z' : Snap} {l : Act} {b : List Nat} (h : z.next near l b = some z') : Step near z.st l z'.st := by
  cases l with
  | arrive p g =>
    simp only [Snap.next, Option.ite_none_right_eq_some, Option.some.injEq] at h
    obtain ⟨h1, rfl⟩ := h
    exact .arrive _ p g h1
  | served p =>
    simp only [Snap.next, Option.ite_none_right_eq_some, Option.some.injEq] at h
    obtain ⟨⟨h1, h2⟩, rfl⟩ := h
    exact .served _ p h1 h2
  | move p g =>
    simp only [Snap.next, Option.ite_none_right_eq_some, Option.some.injEq] at h
    obtain ⟨⟨h1, h2⟩, rfl⟩ := h
    exact .move _ p g h1 h2
  | leave p =>
    simp only [Snap.next, Option.ite_none_right_eq_some, Option.some.injEq] at h
    obtain ⟨h1, rfl⟩ := h
    exact .leave _ p h1
  | panic x q =>
    simp only [Snap.next] at h
    split at h
    · rename_i c hc
      simp only [Option.ite_none_right_eq_some, Option.some.injEq] at h
      obtain ⟨⟨rfl, h2⟩, rfl⟩ := h
      rw [Snap.st_crash]
      exact .selfNil _ x c hc h2
    · rename_i c hc
      split at h
      · rename_i q' b' hb
        simp only [Option.ite_none_right_eq_some, Option.some.injEq] at h
        obtain ⟨⟨rfl, h2⟩, rfl⟩ := h
        rw [Snap.st_crash]
        exact .findNil _ x q' b' c hc hb h2
      · cases h
    · cases h
  | does x i =>
    simp only [Snap.next] at h
    split at h
    · cases h
    rename_i j c hc
    by_cases hi : i ≠ j
    · rw [if_pos hi] at h; cases h
    rw [if_neg hi] at h
    simp only [ne_eq, Decidable.not_not] at hi
    subst hi
    cases i with
    | online => simp only [Option.some.injEq] at h; subst h; exact .online _ x c hc
    | offline => simp only [Option.some.injEq] at h; subst h; exact .offline _ x c hc
    | enter g => simp only [Option.some.injEq] at h; subst h; rw [st_goOn, st_setListed]; exact .enter _ x g c hc
    | exit g => simp only [Option.some.injEq] at h; subst h; rw [st_goOn, st_setListed]; exact .exit _ x g c hc
    | exitHere => simp only [Option.some.injEq] at h; subst h; exact .exitHere _ x c hc
    | self =>
      simp only [Option.ite_none_right_eq_some, Option.some.injEq] at h
      obtain ⟨h1, rfl⟩ := h
      exact .self _ x c hc h1
    | go g => simp only [Option.some.injEq] at h; subst h; exact .go _ x g c hc
    | setPos g => simp only [Option.some.injEq] at h; subst h; exact .setPos _ x g c hc
    | look => simp only [Option.some.injEq] at h; subst h; exact .look _ x c hc
    | scan g =>
      simp only [Option.ite_none_right_eq_some, Option.some.injEq] at h
      obtain ⟨⟨h1, h2, h3⟩, rfl⟩ := h
      refine .scan _ x g c b hc h1 (fun q => ⟨h2 q, fun hq => ?_⟩)
      obtain ⟨e, he, heq⟩ := get_mem false (g, q) z.listed (by rw [show get false (g, q) z.listed = true from hq]; simp)
      have := h3 e he (by rw [heq]) (by rw [heq]; exact hq)
      rw [heq] at this
      exact this
    | find =>
      simp only at h
      split at h
      · rename_i hb
        simp only [Option.some.injEq] at h
        subst h
        exact .found _ x c hc hb
      · rename_i q b' hb
        simp only [Option.ite_none_right_eq_some, Option.some.injEq] at h
        obtain ⟨h1, rfl⟩ := h
        exact .find _ x q b' c hc hb h1

def Snap.run (near : Int → List Int) (z : Snap) : List (Act × List Nat) → Option Snap
  | [] => some z
  | (l, b) :: ls => (z.next near l b).bind fun z => z.run near ls

theorem Snap.run_sound {near : Int → List Int} : ∀ {ls : List (Act × List Nat)} {z z' : Snap}, z.run near ls = some z' →
    Steps (Step near) z.st (ls.map (·.1)) z'.st := by
  intro ls
  induction ls with
  | nil => intro z z' h; simp only [Snap.run, Option.some.injEq] at h; subst h; exact .nil _
  | cons a ls ih =>
    intro z z' h
    obtain ⟨l, b⟩ := a
    simp only [Snap.run, Option.bind_eq_some_iff] at h
    obtain ⟨z1, h1, h2⟩ := h
    exact .cons (Snap.next_sound h1) (ih h2)

theorem Snap.run_any {near : Int → List Int} {ls : List Act} {bs : List (List Nat)} {check : Snap → Bool}
    (h : ((({} : Snap).run near (ls.zip bs)).any check) = true) (hl : (ls.zip bs).map (·.1) = ls) :
    ∃ z : Snap, Steps (Step near) {} ls z.st ∧ check z = true := by
  cases hr : ({} : Snap).run near (ls.zip bs) with
  | none => rw [hr] at h; cases h
  | some z =>
    rw [hr] at h
    have := Snap.run_sound hr
    rw [hl] at this
    exact ⟨z, this, h⟩

/-- Running with a check before each action. -/
def Snap.runIf (near : Int → List Int) (ok : Snap → Act → Bool) (z : Snap) : List (Act × List Nat) → Option Snap
  | [] => some z
  | (l, b) :: ls => if ok z l then (z.next near l b).bind fun z => z.runIf near ok ls else none

theorem Snap.runIf_sound {near : Int → List Int} {ok : Snap → Act → Bool} {R : St → Act → St → Prop}
    (hR : ∀ z l z', ok z l = true → Step near z.st l (z' : Snap).st → R z.st l z'.st) :
    ∀ {ls : List (Act × List Nat)} {z z' : Snap}, z.runIf near ok ls = some z' → Steps R z.st (ls.map (·.1)) z'.st := by
  intro ls
  induction ls with
  | nil => intro z z' h; simp only [Snap.runIf, Option.some.injEq] at h; subst h; exact .nil _
  | cons a ls ih =>
    intro z z' h
    obtain ⟨l, b⟩ := a
    simp only [Snap.runIf, Option.ite_none_right_eq_some, Option.bind_eq_some_iff] at h
    obtain ⟨h0, z1, h1, h2⟩ := h
    exact .cons (hR _ _ _ h0 (Snap.next_sound h1)) (ih h2)

theorem Snap.runIf_any {near : Int → List Int} {ok : Snap → Act → Bool} {R : St → Act → St → Prop}
    (hR : ∀ z l z', ok z l = true → Step near z.st l (z' : Snap).st → R z.st l z'.st) {ls : List Act} {bs : List (List Nat)} {check : Snap → Bool}
    (h : ((({} : Snap).runIf near ok (ls.zip bs)).any check) = true) (hl : (ls.zip bs).map (·.1) = ls) :
    ∃ z : Snap, Steps R {} ls z.st ∧ check z = true := by
  cases hr : ({} : Snap).runIf near ok (ls.zip bs) with
  | none => rw [hr] at h; cases h
  | some z =>
    rw [hr] at h
    have := Snap.runIf_sound hR hr
    rw [hl] at this
    exact ⟨z, this, h⟩

/-- Nothing is left to do. -/
def Snap.quiet (z : Snap) : Bool := z.code.all fun e => get [] e.1 z.code = []

theorem Snap.quiet_st {z : Snap} (h : z.quiet = true) : z.st.quiet := by
  intro x
  by_cases hx : get [] x z.code = []
  · exact hx
  · obtain ⟨e, h1, h2⟩ := get_mem [] x z.code hx
    have := List.all_eq_true.1 h e h1
    rw [h2] at this
    exact absurd (by simpa using this) hx

/-- Only players of the list `l` have come. -/
def Snap.only (z : Snap) (l : List Nat) : Bool := z.stage.all fun e => e.1 ∈ l

theorem Snap.only_st {z : Snap} {l : List Nat} (h : z.only l = true) (q : Nat) (hq : q ∉ l) : z.st.stage q = .away := by
  by_cases hx : get .away q z.stage = .away
  · exact hx
  · obtain ⟨e, h1, h2⟩ := get_mem .away q z.stage hx
    have := List.all_eq_true.1 h e h1
    rw [h2] at this
    exact absurd (by simpa using this) hq

end Zinx.WorldConc
