import Verif.Lemmas.Login
import Verif.Props.AsyncHomeLive

/-! # What of the workers and queues matters for the order of callbacks, for C149 -/

namespace Zinx.Login

open Zinx.AsyncHome (Item HPc SPc upd)
open Zinx.Props (FixedPool HomeInv target_home home_step home_init)

/-- What a worker is busy with. -/
def itemOf : AsyncHome.Worker → Option Item
  | .busy it _ => some it
  | _ => none

/-- What the worker of channel `g` is busy with. -/
def cur (s : AsyncHome.State) (g : Nat) : Option Item := itemOf (s.worker g)

theorem cur_some {s : AsyncHome.State} {g : Nat} {it : Item} : cur s g = some it ↔ ∃ pc, s.worker g = .busy it pc := by
  unfold cur
  cases s.worker g <;> simp [itemOf]

theorem cur_none {s : AsyncHome.State} {g : Nat} : cur s g = none ↔ ∀ it pc, s.worker g ≠ .busy it pc := by
  unfold cur
  cases s.worker g <;> simp [itemOf]

/-- What a step does to the numbers, the queues and what workers are busy with. -/
def View (cfg : AsyncHome.Cfg) (s : AsyncHome.State) (l : AsyncHome.Label) (t : AsyncHome.State) : Prop :=
  match l with
  | .connect c w => s.num c = none ∧ t.num = upd s.num c (some w) ∧ t.queue = s.queue ∧ cur t = cur s
  | .arrive c id => ∃ g, s.num c = some g ∧ t.num = s.num ∧ t.queue = upd s.queue g (s.queue g ++ [.msg c id]) ∧ cur t = cur s
  | .take g it => ∃ rest, s.queue g = it :: rest ∧ t.num = s.num ∧ t.queue = upd s.queue g rest ∧ cur s g = none ∧ cur t = upd (cur s) g (some it)
  | .finish g it => s.worker g = .busy it .code ∧ t.num = s.num ∧ t.queue = s.queue ∧ cur t = upd (cur s) g none
  | .push _ k h => s.num (cfg.conn k) = some h ∧ t.num = s.num ∧ t.queue = upd s.queue h (s.queue h ++ [.call k]) ∧ cur t = cur s
  | .opPush k h => s.num (cfg.conn k) = some h ∧ t.num = s.num ∧ t.queue = upd s.queue h (s.queue h ++ [.call k]) ∧ cur t = cur s
  | .process .. | .on .. | .goOn .. | .op .. => t.num = s.num ∧ t.queue = s.queue ∧ cur t = cur s
  | _ => False

theorem cur_upd {s t : AsyncHome.State} {g : Nat} {w : AsyncHome.Worker} (ht : t.worker = upd s.worker g w) : cur t = upd (cur s) g (itemOf w) := by
  funext g'
  unfold cur
  rw [ht]
  unfold upd
  by_cases e : g' = g
  · rw [if_pos e, if_pos e]
  · rw [if_neg e, if_neg e]

theorem cur_same {s t : AsyncHome.State} {g : Nat} {it : Item} {pc pc' : HPc} (hw : s.worker g = .busy it pc) (ht : t.worker = upd s.worker g (.busy it pc')) : cur t = cur s := by
  rw [cur_upd ht]
  funext g'
  unfold upd cur
  by_cases e : g' = g
  · rw [if_pos e, e, hw]; rfl
  · rw [if_neg e]

theorem view_step {cfg : AsyncHome.Cfg} (hd : FixedPool cfg) {s t : AsyncHome.State} {l : AsyncHome.Label} (hs : AsyncHome.Step cfg s l t) (hh : HomeInv cfg s) : View cfg s l t := by
  have ht := fun c g => target_home (c := c) (g := g) hd hh
  have ha : AsyncHome.after cfg = .idle := if_neg (by have := hd.some; omega)
  cases hs with
  | connect c w h1 h2 => exact ⟨h1, rfl, rfl, rfl⟩
  | connectExtra c' w h1 => rw [hd.fixed] at h1; cases h1
  | release c' w g' h1 => rw [hd.fixed] at h1; cases h1
  | own c' id w h1 => have := hd.some; omega
  | arrive c id w g h1 h2 h3 h4 =>
    refine ⟨g, ?_, rfl, rfl, rfl⟩
    unfold AsyncHome.State.target at h2
    rw [h1] at h2
    simp only [Option.getD_some] at h2
    rw [hh.cur] at h2
    split at h2
    · cases h2
    · split at h2 <;> grind
  | take g it rest h1 h2 => exact ⟨rest, h2, rfl, rfl, by unfold cur; rw [h1]; rfl, (cur_upd rfl).trans rfl⟩
  | quit g h1 h2 h3 => rw [hh.closed] at h3; cases h3
  | finish g it h1 => exact ⟨h1, rfl, rfl, by rw [cur_upd rfl, ha]; rfl⟩
  | process g k it h1 h2 h3 => exact ⟨rfl, rfl, rfl⟩
  | on g k it h1 h2 h3 => exact ⟨rfl, rfl, cur_same h1 rfl⟩
  | onStore g k it h1 => exact ⟨rfl, rfl, cur_same h1 rfl⟩
  | onLoad g k it h1 => exact ⟨rfl, rfl, cur_same h1 rfl⟩
  | onLose g k it h1 h2 => exact ⟨rfl, rfl, cur_same h1 rfl⟩
  | onWin g k it h1 h2 =>
    have k1 := hh.busy g it _ h1
    have k2 := hh.pcOwn g it _ k h1 rfl
    rw [ht _ g (by rw [k2]; exact k1.1) k1.2]
    exact ⟨rfl, rfl, cur_same h1 rfl⟩
  | onSend g k h it h1 h2 h3 =>
    have k1 := hh.busy g it _ h1
    have k2 := hh.pcOwn g it _ k h1 rfl
    have k3 := hh.sendTo g it k _ h1
    cases k3
    exact ⟨by rw [k2]; exact k1.1, rfl, rfl, cur_same h1 rfl⟩
  | onPanic g k h it h1 h2 => rw [hh.closed] at h2; cases h2
  | opBegin | opWin | opStore | opRead | opLose | opFire => exact ⟨rfl, rfl, rfl⟩
  | opSend k h h1 h2 h3 =>
    obtain ⟨g, k1, k2, k3⟩ := hh.opTo k _ h1
    cases k3
    exact ⟨k2, rfl, rfl, rfl⟩
  | opPanic k h h1 h2 => rw [hh.closed] at h2; cases h2

theorem home_inv {cfg : Cfg} (hd : FixedPool cfg.home) {ls : List Label} {s : State} (h : Steps (Step cfg) (init cfg) ls s) : HomeInv cfg.home s.home :=
  (inner_steps h).invariant (P := HomeInv cfg.home) (fun _ _ _ hp hs => home_step hd hs hp) (home_init cfg.home)

/-! ## Callbacks leave the queue in the order in which they came -/

/-- The callback of connection `c` that is put on a queue in this step. -/
def pushKey (cfg : AsyncHome.Cfg) (c : Nat) : AsyncHome.Label → Option Nat
  | .push _ k _ => if cfg.conn k = c then some k else none
  | .opPush k _ => if cfg.conn k = c then some k else none
  | _ => none

/-- … that is begun in this step. -/
def takeKey (cfg : AsyncHome.Cfg) (c : Nat) : AsyncHome.Label → Option Nat
  | .take _ (.call k) => if cfg.conn k = c then some k else none
  | _ => none

def callOf (cfg : AsyncHome.Cfg) (c : Nat) : Item → Option Nat
  | .call k => if cfg.conn k = c then some k else none
  | .msg .. => none

structure CallInv (cfg : AsyncHome.Cfg) (c : Nat) (ls : List AsyncHome.Label) (s : AsyncHome.State) : Prop where
  none : s.num c = none → ls.filterMap (takeKey cfg c) = ls.filterMap (pushKey cfg c)
  some : ∀ g, s.num c = some g → ls.filterMap (takeKey cfg c) ++ (s.queue g).filterMap (callOf cfg c) = ls.filterMap (pushKey cfg c)

/-- No item of a connection is on the queue of another number. -/
theorem no_call {cfg : AsyncHome.Cfg} {s : AsyncHome.State} (hh : HomeInv cfg s) {c g : Nat} (hn : s.num c ≠ some g) : (s.queue g).filterMap (callOf cfg c) = [] := by
  rw [List.filterMap_eq_nil_iff]
  intro it hm
  have := (hh.queued g it hm).1
  cases it with
  | msg => rfl
  | call k =>
    refine if_neg fun e => ?_
    subst e
    exact hn this

theorem call_inv {cfg : AsyncHome.Cfg} (hd : FixedPool cfg) {ls : List AsyncHome.Label} {s : AsyncHome.State} (h : Steps (AsyncHome.Step cfg) (AsyncHome.init cfg) ls s) (c : Nat) : CallInv cfg c ls s := by
  refine (h.invariant_trace (P := fun ls s => HomeInv cfg s ∧ CallInv cfg c ls s) ?_ ⟨home_init cfg, ⟨fun _ => rfl, fun g hg => ?_⟩⟩).2
  · rintro ls s l t ⟨hh, hi⟩ hs
    have hv := view_step hd hs hh
    refine ⟨home_step hd hs hh, ?_⟩
    have hpush : ∀ k h, s.num (cfg.conn k) = some h → t.num = s.num → t.queue = upd s.queue h (s.queue h ++ [.call k]) → takeKey cfg c l = none → pushKey cfg c l = (if cfg.conn k = c then some k else none) →
        CallInv cfg c (ls ++ [l]) t := by
      intro k h v1 v2 v3 v4 v5
      by_cases e : cfg.conn k = c
      · rw [if_pos e] at v5
        rw [e] at v1
        constructor
        · intro hn; rw [v2, v1] at hn; cases hn
        · intro g hg
          rw [v2, v1] at hg
          cases hg
          simp only [List.filterMap_append, List.filterMap_cons, List.filterMap_nil, v3, v4, v5, upd, if_pos, callOf, if_pos e]
          rw [List.append_nil, ← List.append_assoc, hi.some _ v1]
      · rw [if_neg e] at v5
        constructor
        · intro hn
          rw [v2] at hn
          simp only [List.filterMap_append, List.filterMap_cons, List.filterMap_nil, v4, v5, List.append_nil]
          exact hi.none hn
        · intro g hg
          rw [v2] at hg
          have := hi.some g hg
          simp only [List.filterMap_append, List.filterMap_cons, List.filterMap_nil, v4, v5, v3, upd, List.append_nil]
          split
          · rename_i e1
            subst e1
            simp only [List.filterMap_append, List.filterMap_cons, List.filterMap_nil, callOf, if_neg e, List.append_nil]
            exact this
          · exact this
    have hsame : ∀ (v1 : ∀ g, t.num c = some g → s.num c = some g ∧ (t.queue g).filterMap (callOf cfg c) = (s.queue g).filterMap (callOf cfg c)) (_ : t.num c = none → s.num c = none)
        (_ : takeKey cfg c l = none) (_ : pushKey cfg c l = none), CallInv cfg c (ls ++ [l]) t := by
      intro v1 v2 v3 v4
      constructor
      · intro hn
        simp only [List.filterMap_append, List.filterMap_cons, List.filterMap_nil, v3, v4, List.append_nil]
        exact hi.none (v2 hn)
      · intro g hg
        simp only [List.filterMap_append, List.filterMap_cons, List.filterMap_nil, v3, v4, List.append_nil]
        rw [(v1 g hg).2]
        exact hi.some g (v1 g hg).1
    cases l with
    | push g k h => exact hpush k h hv.1 hv.2.1 hv.2.2.1 rfl rfl
    | opPush k h => exact hpush k h hv.1 hv.2.1 hv.2.2.1 rfl rfl
    | process | on | goOn | op => exact hsame (fun g hg => by rw [hv.1] at hg; rw [hv.2.1]; exact ⟨hg, rfl⟩) (fun h => by rw [hv.1] at h; exact h) rfl rfl
    | finish => exact hsame (fun g hg => by rw [hv.2.1] at hg; rw [hv.2.2.1]; exact ⟨hg, rfl⟩) (fun h => by rw [hv.2.1] at h; exact h) rfl rfl
    | connect c' w =>
      obtain ⟨v1, v2, v3, v4⟩ := hv
      by_cases e : c' = c
      · subst e
        constructor
        · intro hn; rw [v2] at hn; simp [upd] at hn
        · intro g hg
          simp only [List.filterMap_append, List.filterMap_cons, List.filterMap_nil, takeKey, pushKey, List.append_nil]
          rw [v3, no_call hh (by rw [v1]; nofun), List.append_nil]
          exact hi.none v1
      · have e' : t.num c = s.num c := by rw [v2]; unfold upd; rw [if_neg (fun h => e h.symm)]
        exact hsame (fun g hg => by rw [e'] at hg; rw [v3]; exact ⟨hg, rfl⟩) (fun h => by rw [e'] at h; exact h) rfl rfl
    | arrive c' id =>
      obtain ⟨g', v1, v2, v3, v4⟩ := hv
      refine hsame (fun g hg => ?_) (fun h => by rw [v2] at h; exact h) rfl rfl
      rw [v2] at hg
      refine ⟨hg, ?_⟩
      rw [v3]
      unfold upd
      split
      · rename_i e; rw [List.filterMap_append, e]; simp [callOf]
      · rfl
    | take g' it =>
      obtain ⟨rest, v1, v2, v3, v4, v5⟩ := hv
      have hq := (hh.queued g' it (by rw [v1]; simp)).1
      by_cases e : callOf cfg c it = Option.none
      · refine hsame (fun g hg => ?_) (fun h => by rw [v2] at h; exact h) ?_ rfl
        · rw [v2] at hg
          refine ⟨hg, ?_⟩
          rw [v3]
          unfold upd
          split
          · rename_i e1
            rw [e1, v1, List.filterMap_cons, e]
          · rfl
        · cases it with
          | msg => rfl
          | call k => exact e
      · cases it with
        | msg => exact absurd rfl e
        | call k =>
          have ek : cfg.conn k = c := by
            by_cases e1 : cfg.conn k = c
            · exact e1
            · exact absurd (if_neg e1) e
          have hq' : s.num c = Option.some g' := by rw [← ek]; exact hq
          constructor
          · intro hn; rw [v2, hq'] at hn; cases hn
          · intro g hg
            rw [v2, hq'] at hg
            cases hg
            have := hi.some g' hq'
            rw [v1, List.filterMap_cons] at this
            simp only [callOf, if_pos ek] at this
            simp only [List.filterMap_append, List.filterMap_cons, List.filterMap_nil, takeKey, pushKey, if_pos ek, v3, upd, if_pos, List.append_nil]
            rw [List.append_assoc]
            exact this
    | own | quit | connectExtra | release => exact hv.elim
  · simp [AsyncHome.init]

end Zinx.Login
