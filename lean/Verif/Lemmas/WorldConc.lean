import Verif.Model.WorldConc

/-!
# Invariants of the players of Model/WorldConc.lean
-/

namespace Zinx.Props

open Zinx.WorldConc

/-- What holds in every execution: who is listed, collected, or has a running handler has been entered in the table; and who is not in the table any more has
left. -/
structure CauseInv (ls : List Act) (s : WorldConc.St) : Prop where
  hooks : ∀ p, (∃ g, s.code (.hooks p) = arriving g ∧ s.stage p = .coming) ∨ (s.code (.hooks p) = [] ∧ s.stage p = .away) ∨ .does (.hooks p) .online ∈ ls
  mover : ∀ p, s.code (.mover p) ≠ [] → .does (.hooks p) .online ∈ ls
  listed : ∀ g q, s.listed g q = true → .does (.hooks q) .online ∈ ls
  found : ∀ x q, q ∈ s.found x → .does (.hooks q) .online ∈ ls
  gone : ∀ p, s.online p = false → .does (.hooks p) .online ∈ ls → .does (.hooks p) .offline ∈ ls
  moverCode : ∀ p, .online ∉ s.code (.mover p) ∧ .offline ∉ s.code (.mover p)
  hooksCode : ∀ p, .offline ∈ s.code (.hooks p) → .leave p ∈ ls
  left : ∀ p, .does (.hooks p) .offline ∈ ls → .leave p ∈ ls

theorem updatePos_plain (near : Int → List Int) (o g : Int) : .online ∉ updatePos near o g ∧ .offline ∉ updatePos near o g := by
  unfold updatePos tellGrid
  split <;> simp

theorem scans_plain (l : List Int) : .online ∉ l.map Instr.scan ∧ .offline ∉ l.map Instr.scan := by
  simp

theorem crash_code (s : WorldConc.St) (x y : Gor) : (s.crash x).code y = if y = x then [] else s.code y := by cases x <;> rfl
theorem crash_found (s : WorldConc.St) (x y : Gor) : (s.crash x).found y = if y = x then [] else s.found y := by cases x <;> rfl
theorem crash_online (s : WorldConc.St) (x : Gor) : (s.crash x).online = s.online := by cases x <;> rfl
theorem crash_listed (s : WorldConc.St) (x : Gor) : (s.crash x).listed = s.listed := by cases x <;> rfl
theorem crash_pos (s : WorldConc.St) (x : Gor) : (s.crash x).pos = s.pos := by cases x <;> rfl
theorem crash_stage (s : WorldConc.St) (x : Gor) (p : Nat) :
    (s.crash x).stage p = if x = .hooks p then (if s.stage p = .coming then .lostStart else .lostStop) else s.stage p := by
  cases x <;> simp [WorldConc.St.crash, St.goOn, St.keep, St.setStage]
  grind

set_option linter.unusedSimpArgs false in
theorem causeInv_step (near : Int → List Int) (ls : List Act) (s : WorldConc.St) (l : Act) (t : WorldConc.St) (h : CauseInv ls s)
    (hs : WorldConc.Step near s l t) : CauseInv (ls ++ [l]) t := by
  obtain ⟨h1, h2, h3, h4, h5, h6, h7, h8⟩ := h
  have hp := updatePos_plain near
  have hq := scans_plain
  simp only [arriving] at h1
  have hown : ∀ x i c, s.code x = i :: c → i ≠ .online → .does (.hooks x.owner) .online ∈ ls := by
    intro x i c hc hi
    cases x with
    | hooks p => have := h1 p; grind [Gor.owner]
    | mover p => have := h2 p; grind [Gor.owner]
  have hoff : ∀ x c, s.code x = .offline :: c → x = .hooks x.owner := by
    intro x c hc
    cases x with
    | hooks p => rfl
    | mover p => exact absurd (hc ▸ List.mem_cons_self) (h6 p).2
  constructor
  · intro p
    cases hs <;> (try simp only [St.goOn, St.keep, St.setStage, St.setOnline, St.setPos, St.setListed, arriving, leaving, crash_code, crash_found, crash_online, crash_listed, crash_stage]) <;>
      (try grind [Gor.owner])
  · intro p
    cases hs <;> (try simp only [St.goOn, St.keep, St.setStage, St.setOnline, St.setPos, St.setListed, arriving, leaving, crash_code, crash_found, crash_online, crash_listed, crash_stage]) <;>
      (try grind [Gor.owner])
  · intro g q
    cases hs <;> (try simp only [St.goOn, St.keep, St.setStage, St.setOnline, St.setPos, St.setListed, arriving, leaving, crash_code, crash_found, crash_online, crash_listed, crash_stage]) <;>
      (try grind [Gor.owner])
  · intro x q
    cases hs <;> (try simp only [St.goOn, St.keep, St.setStage, St.setOnline, St.setPos, St.setListed, arriving, leaving, crash_code, crash_found, crash_online, crash_listed, crash_stage]) <;>
      (try grind [Gor.owner])
  · intro p
    cases hs <;> (try simp only [St.goOn, St.keep, St.setStage, St.setOnline, St.setPos, St.setListed, arriving, leaving, crash_code, crash_found, crash_online, crash_listed, crash_stage]) <;>
      (try grind [Gor.owner])
  · intro p
    cases hs <;> (try simp only [St.goOn, St.keep, St.setStage, St.setOnline, St.setPos, St.setListed, arriving, leaving, crash_code, crash_found, crash_online, crash_listed, crash_stage]) <;>
      (try grind [Gor.owner])
  · intro p
    cases hs <;> (try simp only [St.goOn, St.keep, St.setStage, St.setOnline, St.setPos, St.setListed, arriving, leaving, crash_code, crash_found, crash_online, crash_listed, crash_stage]) <;>
      (try grind [Gor.owner])
  · intro p
    cases hs <;> (try simp only [St.goOn, St.keep, St.setStage, St.setOnline, St.setPos, St.setListed, arriving, leaving, crash_code, crash_found, crash_online, crash_listed, crash_stage]) <;>
      (try grind [Gor.owner])

theorem causeInv {near : Int → List Int} {ls : List Act} {s : WorldConc.St} (h : Steps (WorldConc.Step near) {} ls s) : CauseInv ls s :=
  h.invariant_trace (causeInv_step near) (by constructor <;> simp)

/-- Executions in which no move of a player overlaps its departure: the connection ends while its handler is at rest, and no move is handled after that. -/
def OrderlyStep (near : Int → List Int) (s : WorldConc.St) (l : Act) (t : WorldConc.St) : Prop :=
  WorldConc.Step near s l t ∧ (∀ p, l = .leave p → s.code (.mover p) = []) ∧ (∀ p g, l = .move p g → s.stage p = .here)

/-- Only looks at others remain to be done. -/
def Looks (c : List Instr) : Prop := ∀ i ∈ c, i = .look ∨ i = .find ∨ ∃ g, i = .scan g

/-- Listed in grid `g` and nowhere else. -/
def ListedAt (s : WorldConc.St) (p : Nat) (g : Int) : Prop := ∀ h, s.listed h p = decide (h = g)

def Unlisted (s : WorldConc.St) (p : Nat) : Prop := ∀ h, s.listed h p = false

/-- Where a player is listed, by what its goroutines still have to do. -/
inductive Fits (s : WorldConc.St) (p : Nat) : Prop where
  | away : s.stage p = .away → s.code (.hooks p) = [] → s.code (.mover p) = [] → s.online p = false → Unlisted s p → Fits s p
  | coming : s.stage p = .coming → s.code (.hooks p) = arriving (s.pos p) → s.code (.mover p) = [] → s.online p = false → Unlisted s p → Fits s p
  | entering : s.stage p = .coming → s.code (.hooks p) = [.enter (s.pos p), .look] → s.code (.mover p) = [] → s.online p = true → Unlisted s p → Fits s p
  | settled : s.stage p ≠ .away → s.stage p ≠ .left → (s.stage p ≠ .here → s.code (.mover p) = []) →
      Looks (s.code (.hooks p)) → (s.stage p ≠ .coming → s.code (.hooks p) = []) →
      ((∃ g, s.code (.mover p) = [.self, .go g]) ∨ (∃ g, s.code (.mover p) = [.go g]) ∨ Looks (s.code (.mover p))) →
      s.online p = true → ListedAt s p (s.pos p) → Fits s p
  | still (c : List Instr) : s.stage p = .here → s.code (.hooks p) = [] → s.code (.mover p) = .setPos (s.pos p) :: c → Looks c →
      s.online p = true → ListedAt s p (s.pos p) → Fits s p
  | turning (g : Int) (c : List Instr) : s.stage p = .here → s.code (.hooks p) = [] → s.pos p ≠ g →
      s.code (.mover p) = .setPos g :: .exit (s.pos p) :: .enter g :: c → Looks c → s.online p = true → ListedAt s p (s.pos p) → Fits s p
  | exiting (o : Int) (c : List Instr) : s.stage p = .here → s.code (.hooks p) = [] → s.pos p ≠ o →
      s.code (.mover p) = .exit o :: .enter (s.pos p) :: c → Looks c → s.online p = true → ListedAt s p o → Fits s p
  | between (c : List Instr) : s.stage p = .here → s.code (.hooks p) = [] →
      s.code (.mover p) = .enter (s.pos p) :: c → Looks c → s.online p = true → Unlisted s p → Fits s p
  | leaving (c : List Instr) : s.stage p = .left → s.code (.mover p) = [] → s.code (.hooks p) = c ++ [.exitHere, .offline] → Looks c →
      s.online p = true → ListedAt s p (s.pos p) → Fits s p
  | parting : s.stage p = .left → s.code (.mover p) = [] → s.code (.hooks p) = [.exit (s.pos p), .offline] →
      s.online p = true → ListedAt s p (s.pos p) → Fits s p
  | fading : s.stage p = .left → s.code (.mover p) = [] → s.code (.hooks p) = [.offline] → s.online p = true → Unlisted s p → Fits s p
  | gone : s.stage p = .left → s.code (.mover p) = [] → s.code (.hooks p) = [] → s.online p = false → Unlisted s p → Fits s p

/-- Whose step it is. -/
def subject : Act → Nat
  | .arrive p _ | .served p | .move p _ | .leave p => p
  | .does x _ | .panic x _ => x.owner

/-- The steps of one player change nothing about another. -/
structure SameFor (s t : WorldConc.St) (p : Nat) : Prop where
  online : t.online p = s.online p
  listed : ∀ g, t.listed g p = s.listed g p
  pos : t.pos p = s.pos p
  stage : t.stage p = s.stage p
  hooks : t.code (.hooks p) = s.code (.hooks p)
  mover : t.code (.mover p) = s.code (.mover p)

set_option linter.unusedSimpArgs false in
theorem other_same {near : Int → List Int} {s t : WorldConc.St} {l : Act} (hs : WorldConc.Step near s l t) (p : Nat) (hp : p ≠ subject l) : SameFor s t p := by
  have ho : ∀ x : Gor, p ≠ x.owner → Gor.hooks p ≠ x ∧ Gor.mover p ≠ x := by
    intro x hx
    constructor <;> (intro hc; subst hc; exact hx rfl)
  constructor <;> cases hs <;> simp only [St.goOn, St.keep, St.setStage, St.setOnline, St.setPos, St.setListed, crash_code, crash_online, crash_listed, crash_stage, crash_pos] <;>
    (try simp only [subject] at hp) <;> grind

theorem Fits.congr {s t : WorldConc.St} {p : Nat} (h : Fits s p) (e : SameFor s t p) : Fits t p := by
  obtain ⟨e1, e2, e3, e4, e5, e6⟩ := e
  have hl : ∀ g, ListedAt s p g → ListedAt t p g := by intro g h h'; rw [e2]; exact h h'
  have hu : Unlisted s p → Unlisted t p := by intro h h'; rw [e2]; exact h h'
  cases h with
  | away => apply Fits.away <;> simp_all
  | coming => apply Fits.coming <;> simp_all
  | entering => apply Fits.entering <;> simp_all
  | settled => apply Fits.settled <;> simp_all
  | still c => apply Fits.still c <;> simp_all
  | turning g c => apply Fits.turning g c <;> simp_all
  | exiting o c => apply Fits.exiting o c <;> simp_all
  | between c => apply Fits.between c <;> simp_all
  | leaving c => apply Fits.leaving c <;> simp_all
  | parting => apply Fits.parting <;> simp_all
  | fading => apply Fits.fading <;> simp_all
  | gone => apply Fits.gone <;> simp_all

theorem looks_updatePos (near : Int → List Int) (o g : Int) (h : o ≠ g) :
    ∃ c, updatePos near o g = .setPos g :: .exit o :: .enter g :: c ∧ Looks c := by
  refine ⟨_, by unfold updatePos; rw [if_neg h], ?_⟩
  intro i hi
  simp only [tellGrid, List.mem_append, List.mem_flatMap, List.mem_cons, List.not_mem_nil, or_false] at hi
  grind

theorem Looks.tail {i : Instr} {c : List Instr} (h : Looks (i :: c)) : Looks c := fun j hj => h j (List.mem_cons_of_mem _ hj)

theorem Looks.head {i : Instr} {c : List Instr} (h : Looks (i :: c)) : i = .look ∨ i = .find ∨ ∃ g, i = .scan g := h i List.mem_cons_self

theorem Looks.look {near : List Int} {c : List Instr} (h : Looks c) : Looks (near.map .scan ++ .find :: c) := by
  intro i hi
  simp only [List.mem_append, List.mem_map, List.mem_cons] at hi
  grind [Looks]

theorem looks_nil : Looks [] := by intro i hi; cases hi

theorem leaving_next {c d : List Instr} {i : Instr} (h : Looks c) (he : i :: d = c ++ [.exitHere, .offline]) :
    (c = [] ∧ i = .exitHere ∧ d = [.offline]) ∨ (∃ c', c = i :: c' ∧ Looks c' ∧ d = c' ++ [.exitHere, .offline]) := by
  cases c with
  | nil => simp at he; exact .inl ⟨rfl, he.1, he.2⟩
  | cons j c' =>
    simp only [List.cons_append, List.cons.injEq] at he
    obtain ⟨rfl, he⟩ := he
    exact .inr ⟨c', rfl, h.tail, he⟩

set_option maxHeartbeats 2000000 in
set_option linter.unusedSimpArgs false in
theorem fits_step {near : Int → List Int} {s t : WorldConc.St} {l : Act} (hs : OrderlyStep near s l t) (h : ∀ p, Fits s p) : ∀ p, Fits t p := by
  intro p
  by_cases hp : p = subject l
  case neg => exact (h p).congr (other_same hs.1 p hp)
  have hf := h p
  clear h
  obtain ⟨hs, hl, hm⟩ := hs
  have hL := @Looks.head
  have hT := @Looks.tail
  have hN := looks_nil
  have hK : ∀ q c i d, s.code (.hooks q) = i :: d → s.code (.hooks q) = c ++ [.exitHere, .offline] → Looks c →
      (c = [] ∧ i = .exitHere ∧ d = [.offline]) ∨ (∃ c', c = i :: c' ∧ Looks c' ∧ d = c' ++ [.exitHere, .offline]) :=
    fun q c i d h1 h2 h3 => leaving_next h3 (h1.symm.trans h2)
  have hS : Looks [.look] := by simp [Looks]
  have hU := looks_updatePos near
  have hV := @Looks.look
  cases hs with
  | arrive q g h1 =>
    simp only [subject] at hp
    subst hp
    cases hf <;> try (exfalso; grind [arriving])
    apply Fits.coming <;> (try simp only [St.goOn, St.keep, St.setStage, St.setOnline, St.setPos, St.setListed, ListedAt, Unlisted, crash_code, crash_online, crash_listed, crash_stage, crash_pos] at *) <;> grind [arriving, leaving]
  | served q h1 h2 =>
    simp only [subject] at hp
    subst hp
    cases hf <;> try (exfalso; grind [arriving])
    apply Fits.settled <;> (try simp only [St.goOn, St.keep, St.setStage, St.setOnline, St.setPos, St.setListed, ListedAt, Unlisted, crash_code, crash_online, crash_listed, crash_stage, crash_pos] at *) <;> grind [arriving, leaving]
  | move q g h1 h2 =>
    simp only [subject] at hp
    subst hp
    have := hm _ g rfl
    cases hf <;> try (exfalso; grind [arriving])
    apply Fits.settled <;> (try simp only [St.goOn, St.keep, St.setStage, St.setOnline, St.setPos, St.setListed, ListedAt, Unlisted, crash_code, crash_online, crash_listed, crash_stage, crash_pos] at *) <;> grind [arriving, leaving]
  | leave q h1 =>
    simp only [subject] at hp
    subst hp
    have := hl _ rfl
    cases hf <;> try (exfalso; grind [arriving])
    apply Fits.leaving [.look] <;> (try simp only [St.goOn, St.keep, St.setStage, St.setOnline, St.setPos, St.setListed, ListedAt, Unlisted, crash_code, crash_online, crash_listed, crash_stage, crash_pos] at *) <;> grind [arriving, leaving]
  | online x c hc =>
    simp only [subject] at hp
    subst hp
    cases x with
    | hooks p =>
      simp only [Gor.owner] at *
      cases hf <;> try (exfalso; grind [arriving])
      apply Fits.entering <;> (try simp only [St.goOn, St.keep, St.setStage, St.setOnline, St.setPos, St.setListed, ListedAt, Unlisted, crash_code, crash_online, crash_listed, crash_stage, crash_pos] at *) <;> grind [arriving, leaving]
    | mover p =>
      simp only [Gor.owner] at *
      cases hf <;> (exfalso; grind [arriving])
  | offline x c hc =>
    simp only [subject] at hp
    subst hp
    cases x with
    | hooks p =>
      simp only [Gor.owner] at *
      cases hf <;> try (exfalso; grind [arriving])
      apply Fits.gone <;> (try simp only [St.goOn, St.keep, St.setStage, St.setOnline, St.setPos, St.setListed, ListedAt, Unlisted, crash_code, crash_online, crash_listed, crash_stage, crash_pos] at *) <;> grind [arriving, leaving]
    | mover p =>
      simp only [Gor.owner] at *
      cases hf <;> (exfalso; grind [arriving])
  | enter x g c hc =>
    simp only [subject] at hp
    subst hp
    cases x with
    | hooks p =>
      simp only [Gor.owner] at *
      cases hf <;> try (exfalso; grind [arriving])
      apply Fits.settled <;> (try simp only [St.goOn, St.keep, St.setStage, St.setOnline, St.setPos, St.setListed, ListedAt, Unlisted, crash_code, crash_online, crash_listed, crash_stage, crash_pos] at *) <;> grind [arriving, leaving]
    | mover p =>
      simp only [Gor.owner] at *
      cases hf <;> try (exfalso; grind [arriving])
      apply Fits.settled <;> (try simp only [St.goOn, St.keep, St.setStage, St.setOnline, St.setPos, St.setListed, ListedAt, Unlisted, crash_code, crash_online, crash_listed, crash_stage, crash_pos] at *) <;> grind [arriving, leaving]
  | exit x g c hc =>
    simp only [subject] at hp
    subst hp
    cases x with
    | hooks p =>
      simp only [Gor.owner] at *
      cases hf <;> try (exfalso; grind [arriving])
      apply Fits.fading <;> (try simp only [St.goOn, St.keep, St.setStage, St.setOnline, St.setPos, St.setListed, ListedAt, Unlisted, crash_code, crash_online, crash_listed, crash_stage, crash_pos] at *) <;> grind [arriving, leaving]
    | mover p =>
      simp only [Gor.owner] at *
      cases hf <;> try (exfalso; grind [arriving])
      rename_i d _ _ _ _ _ _ _
      apply Fits.between d <;> (try simp only [St.goOn, St.keep, St.setStage, St.setOnline, St.setPos, St.setListed, ListedAt, Unlisted, crash_code, crash_online, crash_listed, crash_stage, crash_pos] at *) <;> grind [arriving]
  | exitHere x c hc =>
    simp only [subject] at hp
    subst hp
    cases x with
    | hooks p =>
      simp only [Gor.owner] at *
      cases hf <;> try (exfalso; grind [arriving])
      apply Fits.parting <;> (try simp only [St.goOn, St.keep, St.setStage, St.setOnline, St.setPos, St.setListed, ListedAt, Unlisted, crash_code, crash_online, crash_listed, crash_stage, crash_pos] at *) <;> grind [arriving, leaving]
    | mover p =>
      simp only [Gor.owner] at *
      cases hf <;> (exfalso; grind [arriving])
  | self x c hc ho =>
    simp only [subject] at hp
    subst hp
    cases x with
    | hooks p =>
      simp only [Gor.owner] at *
      cases hf <;> (exfalso; grind [arriving])
    | mover p =>
      simp only [Gor.owner] at *
      cases hf <;> try (exfalso; grind [arriving])
      apply Fits.settled <;> (try simp only [St.goOn, St.keep, St.setStage, St.setOnline, St.setPos, St.setListed, ListedAt, Unlisted, crash_code, crash_online, crash_listed, crash_stage, crash_pos] at *) <;> grind [arriving, leaving]
  | selfNil x c hc ho =>
    simp only [subject] at hp
    subst hp
    cases x with
    | hooks p =>
      simp only [Gor.owner] at *
      cases hf <;> (exfalso; grind [arriving])
    | mover p =>
      simp only [Gor.owner] at *
      cases hf <;> (exfalso; grind [arriving])
  | go x g c hc =>
    simp only [subject] at hp
    subst hp
    cases x with
    | hooks p =>
      simp only [Gor.owner] at *
      cases hf <;> (exfalso; grind [arriving])
    | mover p =>
      simp only [Gor.owner] at *
      cases hf <;> try (exfalso; grind [arriving])
      have hc0 : c = [] := by clear hK hU hV; grind
      subst hc0
      by_cases hg : s.pos p = g
      · have hgc : updatePos near (s.pos p) g = [.setPos g, .look] := by rw [updatePos, if_pos hg]
        rw [hgc]
        apply Fits.still [.look] <;> (try simp only [St.goOn, St.keep, St.setStage, St.setOnline, St.setPos, St.setListed, ListedAt, Unlisted, crash_code, crash_online, crash_listed, crash_stage, crash_pos] at *) <;> grind [arriving, leaving]
      · obtain ⟨d, hd, hd2⟩ := hU _ _ hg
        rw [hd]
        clear hK hU hV hL hT
        apply Fits.turning g d <;> (try simp only [St.goOn, St.keep, St.setStage, St.setOnline, St.setPos, St.setListed, ListedAt, Unlisted, crash_code, crash_online, crash_listed, crash_stage, crash_pos] at *) <;> grind [arriving, leaving]
  | setPos x g c hc =>
    simp only [subject] at hp
    subst hp
    cases x with
    | hooks p =>
      simp only [Gor.owner] at *
      cases hf <;> (exfalso; grind [arriving])
    | mover p =>
      simp only [Gor.owner] at *
      cases hf <;> try (exfalso; grind [arriving])
      · rename_i d _ _ _ _ _ _
        apply Fits.settled <;> (try simp only [St.goOn, St.keep, St.setStage, St.setOnline, St.setPos, St.setListed, ListedAt, Unlisted, crash_code, crash_online, crash_listed, crash_stage, crash_pos] at *) <;> grind [arriving, leaving]
      · rename_i h d _ _ _ _ _ _ _
        apply Fits.exiting (s.pos p) d <;> (try simp only [St.goOn, St.keep, St.setStage, St.setOnline, St.setPos, St.setListed, ListedAt, Unlisted, crash_code, crash_online, crash_listed, crash_stage, crash_pos] at *) <;> grind [arriving, leaving]
  | look x c hc =>
    simp only [subject] at hp
    subst hp
    cases x with
    | hooks p =>
      simp only [Gor.owner] at *
      cases hf <;> try (exfalso; grind [arriving])
      · apply Fits.settled <;> (try simp only [St.goOn, St.keep, St.setStage, St.setOnline, St.setPos, St.setListed, ListedAt, Unlisted, crash_code, crash_online, crash_listed, crash_stage, crash_pos] at *) <;> grind [arriving, leaving]
      · rename_i e h4 h5 h6 h7 h8 h9
        obtain ⟨h1, h1'⟩ | ⟨d, h1, h2, h3⟩ := hK _ _ _ _ hc h6 h7
        · exfalso; grind
        · apply Fits.leaving ((near (s.pos p)).map .scan ++ .find :: d) <;> (try simp only [St.goOn, St.keep, St.setStage, St.setOnline, St.setPos, St.setListed, ListedAt, Unlisted, crash_code, crash_online, crash_listed, crash_stage, crash_pos] at *) <;> grind [arriving, leaving]
    | mover p =>
      simp only [Gor.owner] at *
      cases hf <;> try (exfalso; grind [arriving])
      apply Fits.settled <;> (try simp only [St.goOn, St.keep, St.setStage, St.setOnline, St.setPos, St.setListed, ListedAt, Unlisted, crash_code, crash_online, crash_listed, crash_stage, crash_pos] at *) <;> grind [arriving, leaving]
  | scan x g c b hc hb he =>
    simp only [subject] at hp
    subst hp
    cases x with
    | hooks p =>
      simp only [Gor.owner] at *
      cases hf <;> try (exfalso; grind [arriving])
      · apply Fits.settled <;> (try simp only [St.goOn, St.keep, St.setStage, St.setOnline, St.setPos, St.setListed, ListedAt, Unlisted, crash_code, crash_online, crash_listed, crash_stage, crash_pos] at *) <;> grind [arriving, leaving]
      · rename_i e h4 h5 h6 h7 h8 h9
        obtain ⟨h1, h1'⟩ | ⟨d, h1, h2, h3⟩ := hK _ _ _ _ hc h6 h7
        · exfalso; grind
        · apply Fits.leaving (d) <;> (try simp only [St.goOn, St.keep, St.setStage, St.setOnline, St.setPos, St.setListed, ListedAt, Unlisted, crash_code, crash_online, crash_listed, crash_stage, crash_pos] at *) <;> grind [arriving, leaving]
    | mover p =>
      simp only [Gor.owner] at *
      cases hf <;> try (exfalso; grind [arriving])
      apply Fits.settled <;> (try simp only [St.goOn, St.keep, St.setStage, St.setOnline, St.setPos, St.setListed, ListedAt, Unlisted, crash_code, crash_online, crash_listed, crash_stage, crash_pos] at *) <;> grind [arriving, leaving]
  | found x c hc hb =>
    simp only [subject] at hp
    subst hp
    cases x with
    | hooks p =>
      simp only [Gor.owner] at *
      cases hf <;> try (exfalso; grind [arriving])
      · apply Fits.settled <;> (try simp only [St.goOn, St.keep, St.setStage, St.setOnline, St.setPos, St.setListed, ListedAt, Unlisted, crash_code, crash_online, crash_listed, crash_stage, crash_pos] at *) <;> grind [arriving, leaving]
      · rename_i e h4 h5 h6 h7 h8 h9
        obtain ⟨h1, h1'⟩ | ⟨d, h1, h2, h3⟩ := hK _ _ _ _ hc h6 h7
        · exfalso; grind
        · apply Fits.leaving (d) <;> (try simp only [St.goOn, St.keep, St.setStage, St.setOnline, St.setPos, St.setListed, ListedAt, Unlisted, crash_code, crash_online, crash_listed, crash_stage, crash_pos] at *) <;> grind [arriving, leaving]
    | mover p =>
      simp only [Gor.owner] at *
      cases hf <;> try (exfalso; grind [arriving])
      apply Fits.settled <;> (try simp only [St.goOn, St.keep, St.setStage, St.setOnline, St.setPos, St.setListed, ListedAt, Unlisted, crash_code, crash_online, crash_listed, crash_stage, crash_pos] at *) <;> grind [arriving, leaving]
  | find x q b c hc hb ho => exact hf.congr ⟨rfl, fun _ => rfl, rfl, rfl, rfl, rfl⟩
  | findNil x q b c hc hb ho =>
    simp only [subject] at hp
    subst hp
    cases x with
    | hooks p =>
      simp only [Gor.owner] at *
      cases hf <;> try (exfalso; grind [arriving])
      · apply Fits.settled <;> (try simp only [St.goOn, St.keep, St.setStage, St.setOnline, St.setPos, St.setListed, ListedAt, Unlisted, crash_code, crash_online, crash_listed, crash_stage, crash_pos] at *) <;> grind [arriving, leaving]
      · apply Fits.settled <;> (try simp only [St.goOn, St.keep, St.setStage, St.setOnline, St.setPos, St.setListed, ListedAt, Unlisted, crash_code, crash_online, crash_listed, crash_stage, crash_pos] at *) <;> grind [arriving, leaving]
    | mover p =>
      simp only [Gor.owner] at *
      cases hf <;> try (exfalso; grind [arriving])
      apply Fits.settled <;> (try simp only [St.goOn, St.keep, St.setStage, St.setOnline, St.setPos, St.setListed, ListedAt, Unlisted, crash_code, crash_online, crash_listed, crash_stage, crash_pos] at *) <;> grind [arriving, leaving]

end Zinx.Props
