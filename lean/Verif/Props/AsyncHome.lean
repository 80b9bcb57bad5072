import Verif.Model.AsyncHome

/-! # C107: completion callbacks run on the worker of their connection -/

namespace Zinx.Props

open Zinx Zinx.AsyncHome

/-- The result a call of `OnComplete` is about. -/
def _root_.Zinx.AsyncHome.HPc.result : HPc → Option Nat
  | .code => none
  | .won k | .wrote k | .fire k | .send k _ => some k

/-- A pool of workers, and connections keep to it. -/
structure FixedPool (cfg : Cfg) : Prop where
  some : 0 < cfg.pool
  fits : cfg.pool ≤ cfg.taskLen
  fixed : cfg.dynamic = false

/-- Invariant without dynamic binding: the channel of a number is always the same, and what belongs to a connection stays with its number. -/
structure HomeInv (cfg : Cfg) (s : AsyncHome.State) : Prop where
  cur : ∀ w, s.cur w = if w < cfg.pool then some w else none
  closed : ∀ g, s.closed g = false
  queued : ∀ g it, it ∈ s.queue g → s.num (it.owner cfg) = some g ∧ g < cfg.pool
  busy : ∀ g it pc, s.worker g = .busy it pc → s.num (it.owner cfg) = some g ∧ g < cfg.pool
  pcOwn : ∀ g it pc k, s.worker g = .busy it pc → pc.result = some k → cfg.conn k = it.owner cfg
  ops : ∀ k, (s.res k).op ≠ .notStarted → ∃ g, g < cfg.pool ∧ s.num (cfg.conn k) = some g
  sendTo : ∀ g it k h, s.worker g = .busy it (.send k h) → h = some g
  opTo : ∀ k h, (s.res k).op = .send h → ∃ g, g < cfg.pool ∧ s.num (cfg.conn k) = some g ∧ h = some g
  up : ∀ g, g < cfg.pool → s.worker g = .idle ∨ ∃ it pc, s.worker g = .busy it pc

theorem target_home {cfg : Cfg} {s : AsyncHome.State} (hd : FixedPool cfg) (h : HomeInv cfg s) {c g : Nat} (hn : s.num c = some g) (hg : g < cfg.pool) :
    s.target cfg c = .chan g := by
  unfold State.target
  rw [hn]
  simp only [Option.getD_some]
  rw [if_neg (by have := hd.fits; omega), h.cur, if_pos hg]

theorem home_step {cfg : Cfg} (hd : FixedPool cfg) {s t : AsyncHome.State} {l : AsyncHome.Label} (hs : AsyncHome.Step cfg s l t)
    (h : HomeInv cfg s) : HomeInv cfg t := by
  have ht := fun c g => target_home (c := c) (g := g) hd h
  have ha : after cfg = .idle := if_neg (by have := hd.some; omega)
  obtain ⟨a, b, c, d, e, f, g, i, j⟩ := h
  cases hs with
  | connectExtra c' w h1 => rw [hd.fixed] at h1; cases h1
  | release c' w g' h1 => rw [hd.fixed] at h1; cases h1
  | connect c' w h1 h2 =>
    refine ⟨a, b, ?_, ?_, e, ?_, g, ?_, j⟩ <;> simp only [upd] <;> grind
  | own c' id w h1 => have := hd.some; omega
  | arrive c' id w g' h1 h2 h3 h4 =>
    have k2 : w = g' ∧ w < cfg.pool := by
      unfold State.target at h2
      rw [h1] at h2
      simp only [Option.getD_some] at h2
      rw [a] at h2
      split at h2
      · cases h2
      · split at h2 <;> grind
    refine ⟨a, b, ?_, d, e, f, g, i, j⟩
    simp only [upd, State.push]
    intro g1 it1 hm
    by_cases hg : g1 = g'
    · rw [if_pos hg] at hm
      rw [List.mem_append, List.mem_singleton] at hm
      rcases hm with hm | hm
      · rw [hg]; exact c g' it1 hm
      · rw [hm, hg, ← k2.1]; exact ⟨h1, k2.2⟩
    · rw [if_neg hg] at hm; exact c g1 it1 hm
  | take g' it rest h1 h2 => refine ⟨a, b, ?_, ?_, ?_, f, ?_, i, ?_⟩ <;> simp only [upd] <;> grind [HPc.result]
  | quit g' h1 h2 h3 => rw [b] at h3; cases h3
  | finish g' it h1 => refine ⟨a, b, c, ?_, ?_, f, ?_, i, ?_⟩ <;> simp only [upd, State.setWorker] <;> grind [HPc.result]
  | process g' k it h1 h2 h3 => refine ⟨a, b, c, d, e, ?_, g, ?_, j⟩ <;> simp only [upd, State.setRes] <;> grind
  | on g' k it h1 h2 h3 => refine ⟨a, b, c, ?_, ?_, ?_, ?_, ?_, ?_⟩ <;> simp only [upd, State.setRes, State.setWorker] <;> grind [HPc.result]
  | onStore g' k it h1 => refine ⟨a, b, c, ?_, ?_, ?_, ?_, ?_, ?_⟩ <;> simp only [upd, State.setRes, State.setWorker] <;> grind [HPc.result]
  | onLoad g' k it h1 => refine ⟨a, b, c, ?_, ?_, f, ?_, i, ?_⟩ <;> simp only [upd, State.setWorker] <;> grind [HPc.result]
  | onLose g' k it h1 h2 => refine ⟨a, b, c, ?_, ?_, f, ?_, i, ?_⟩ <;> simp only [upd, State.setWorker] <;> grind [HPc.result]
  | onWin g' k it h1 h2 =>
    have k1 := d g' it _ h1
    have k2 := e g' it _ k h1 rfl
    rw [ht _ g' (by rw [k2]; exact k1.1) k1.2]
    refine ⟨a, b, c, ?_, ?_, ?_, ?_, ?_, ?_⟩ <;> simp only [upd, State.setRes, State.setWorker] <;> grind [HPc.result]
  | onSend g' k h' it h1 h2 h3 =>
    have k1 := d g' it _ h1
    have k2 := e g' it _ k h1 rfl
    have k3 := g g' it k _ h1
    refine ⟨a, b, ?_, ?_, ?_, f, ?_, i, ?_⟩ <;> simp only [upd, State.push, State.setWorker] <;> grind [HPc.result, Item.owner]
  | onPanic g' k h' it h1 h2 => rw [b] at h2; cases h2
  | opBegin k h1 => refine ⟨a, b, c, d, e, ?_, g, ?_, j⟩ <;> simp only [upd, State.setRes] <;> grind
  | opWin k h1 => refine ⟨a, b, c, d, e, ?_, g, ?_, j⟩ <;> simp only [upd, State.setRes] <;> grind
  | opStore k h1 => refine ⟨a, b, c, d, e, ?_, g, ?_, j⟩ <;> simp only [upd, State.setRes] <;> grind
  | opRead k h1 => refine ⟨a, b, c, d, e, ?_, g, ?_, j⟩ <;> simp only [upd, State.setRes] <;> grind
  | opLose k h1 h2 => refine ⟨a, b, c, d, e, ?_, g, ?_, j⟩ <;> simp only [upd, State.setRes] <;> grind
  | opFire k h1 h2 =>
    obtain ⟨g', k1, k2⟩ := f k (by rw [h1]; nofun)
    rw [ht _ g' k2 k1]
    refine ⟨a, b, c, d, e, ?_, g, ?_, j⟩ <;> simp only [upd, State.setRes] <;> grind
  | opSend k h' h1 h2 h3 =>
    obtain ⟨g', k1, k2, k3⟩ := i k _ h1
    refine ⟨a, b, ?_, d, e, ?_, g, ?_, j⟩ <;> simp only [upd, State.push, State.setRes] <;> grind [Item.owner]
  | opPanic k h' h1 h2 => rw [b] at h2; cases h2

theorem home_init (cfg : Cfg) : HomeInv cfg (AsyncHome.init cfg) := by
  refine ⟨fun _ => rfl, fun _ => rfl, ?_, ?_, ?_, ?_, ?_, ?_, ?_⟩ <;> simp only [AsyncHome.init] <;> grind

/-- **C107 (at home).** Without dynamic binding, whatever the handlers do and whenever operations end: handlers and callbacks of one connection are run by one and the same worker, so no two of them overlap. -/
theorem C107_home (cfg : Cfg) (hd : FixedPool cfg) (ls : List AsyncHome.Label) (s : AsyncHome.State)
    (h : Steps (AsyncHome.Step cfg) (AsyncHome.init cfg) ls s) (g g' : Nat) (it it' : Item) (pc pc' : HPc) (h1 : s.worker g = .busy it pc)
    (h2 : s.worker g' = .busy it' pc') (ho : it.owner cfg = it'.owner cfg) : g = g' ∧ s.num (it.owner cfg) = some g := by
  have hi := h.invariant (P := HomeInv cfg) (fun _ _ _ hp hs => home_step hd hs hp) (home_init cfg)
  have a := (hi.busy g it pc h1).1
  have b := (hi.busy g' it' pc' h2).1
  rw [← ho, a] at b
  exact ⟨Option.some.inj b, a⟩

/-! ## At most once -/

/-- Is this callback `k` going onto channel `h`? -/
def pushes (k h : Nat) : AsyncHome.Label → Bool
  | .push _ k' h' => k' = k ∧ h' = h
  | .opPush k' h' => k' = k ∧ h' = h
  | _ => false

def isPush (k : Nat) : AsyncHome.Label → Bool
  | .push _ k' _ => k' = k
  | .opPush k' _ => k' = k
  | _ => false

/-- Is this callback `k` being taken from channel `h`? -/
def takesCall (k h : Nat) : AsyncHome.Label → Bool
  | .take h' (.call k') => k' = k ∧ h' = h
  | _ => false

/-- Does a worker begin with callback `k`? -/
def beginsCall (k : Nat) : AsyncHome.Label → Bool
  | .take _ (.call k') => k' = k
  | _ => false

/-- Invariant: what has been put on a channel has been taken or is there. -/
theorem queue_count {cfg : Cfg} {ls : List AsyncHome.Label} {s : AsyncHome.State} (h : Steps (AsyncHome.Step cfg) (AsyncHome.init cfg) ls s) (k g : Nat) :
    ls.countP (takesCall k g) + (s.queue g).count (.call k) = ls.countP (pushes k g) := by
  refine h.invariant_trace (P := fun ls s => ls.countP (takesCall k g) + (s.queue g).count (.call k) = ls.countP (pushes k g)) ?_ (by simp [AsyncHome.init])
  intro ls s l t hp hs
  rw [List.countP_append, List.countP_append]
  cases hs <;> simp only [List.countP_cons, List.countP_nil, takesCall, pushes, State.setRes, State.setWorker, State.push, upd] <;> grind

/-- Invariant: a callback goes onto a channel at most once. -/
structure OnceInv (k : Nat) (ls : List AsyncHome.Label) (s : AsyncHome.State) : Prop where
  before : (s.res k).called = false → ls.countP (isPush k) = 0 ∧ (∀ h, (s.res k).op ≠ .send h) ∧ ∀ g it h, s.worker g ≠ .busy it (.send k h)
  once : ls.countP (isPush k) ≤ 1
  op : ∀ h, (s.res k).op = .send h → ls.countP (isPush k) = 0 ∧ ∀ g it h, s.worker g ≠ .busy it (.send k h)
  worker : ∀ g it h, s.worker g = .busy it (.send k h) → ls.countP (isPush k) = 0 ∧ ∀ g' it' h', s.worker g' = .busy it' (.send k h') → g' = g

theorem once_inv {cfg : Cfg} {ls : List AsyncHome.Label} {s : AsyncHome.State} (h : Steps (AsyncHome.Step cfg) (AsyncHome.init cfg) ls s) (k : Nat) : OnceInv k ls s := by
  refine h.invariant_trace (P := OnceInv k) ?_ ?_
  · intro ls s l t hp hs
    obtain ⟨a, b, c, d⟩ := hp
    have ha : ∀ it pc, after cfg ≠ .busy it pc := by unfold after; split <;> nofun
    cases hs <;> refine ⟨?_, ?_, ?_, ?_⟩ <;>
      simp only [List.countP_append, List.countP_cons, List.countP_nil, isPush, State.setRes, State.setWorker, State.push, upd] <;> grind
  · refine ⟨?_, ?_, ?_, ?_⟩ <;> simp [AsyncHome.init] <;> grind

/-- **C107 (at most once).** In every mode: no callback is begun twice. -/
theorem C107_once (cfg : Cfg) (ls : List AsyncHome.Label) (s : AsyncHome.State) (h : Steps (AsyncHome.Step cfg) (AsyncHome.init cfg) ls s) (k : Nat) :
    ls.countP (beginsCall k) ≤ 1 := by
  have h1 := (once_inv h k).once
  have hq := queue_count h k
  have mono : ∀ g, ls.countP (pushes k g) ≤ ls.countP (isPush k) :=
    fun g => List.countP_mono_left (fun l _ hp => by cases l <;> simp_all [pushes, isPush])
  by_cases hex : ∃ g, 0 < ls.countP (pushes k g)
  · obtain ⟨g, hg⟩ := hex
    have other : ∀ g', g' ≠ g → ls.countP (pushes k g') = 0 := by
      intro g' hne
      have : ls.countP (pushes k g) + ls.countP (pushes k g') ≤ ls.countP (isPush k) := by
        clear h1 hq mono hg h
        induction ls with
        | nil => simp
        | cons l ls ih =>
          rw [List.countP_cons, List.countP_cons, List.countP_cons]
          cases l <;> simp only [pushes, isPush] at ih ⊢ <;> grind
      omega
    have : ls.countP (beginsCall k) ≤ ls.countP (takesCall k g) := by
      apply List.countP_mono_left
      intro l hl hb
      cases l with
      | take g' it =>
        cases it with
        | msg c id => simp [beginsCall] at hb
        | call k' =>
          simp only [beginsCall, decide_eq_true_eq] at hb
          by_cases e : g' = g
          · simp [takesCall, hb, e]
          · have z := hq g'
            rw [other g' e] at z
            have : 0 < ls.countP (takesCall k g') := List.countP_pos_iff.mpr ⟨_, hl, by simp [takesCall, hb]⟩
            omega
      | _ => simp [beginsCall] at hb
    have := hq g
    have := mono g
    omega
  · have z : ls.countP (beginsCall k) = 0 := by
      rw [List.countP_eq_zero]
      intro l hl hb
      cases l with
      | take g' it =>
        cases it with
        | msg c id => simp [beginsCall] at hb
        | call k' =>
          simp only [beginsCall, decide_eq_true_eq] at hb
          have := hq g'
          have : 0 < ls.countP (takesCall k g') := List.countP_pos_iff.mpr ⟨_, hl, by simp [takesCall, hb]⟩
          exact hex ⟨g', by omega⟩
      | _ => simp [beginsCall] at hb
    omega

end Zinx.Props
