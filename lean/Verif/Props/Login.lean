import Verif.Lemmas.Login

/-! # C149: replies from completion callbacks reach the one who asked -/

namespace Zinx.Props

open Zinx.Login
open Zinx.AsyncHome (Item HPc SPc upd)

/-- **C149 (asks).** In both modes: a handler that starts its operation finds its own connection in its request. -/
theorem C149_asks (cfg : Login.Cfg) (ls : List Login.Label) (s t : Login.State) (h : Steps (Login.Step cfg) (Login.init cfg) ls s) (g c id : Nat) (hs : Login.Step cfg s (.ask g c id) t) :
    s.conn (s.obj c id) = c := by
  cases hs with
  | ask _ _ _ hw => exact ((objs_inv h).work g c id _ hw).2.2

/-- **C149 (own).** If request objects are not pooled, every reply from a callback goes to the connection whose message asked for it. -/
theorem C149_own_partial (cfg : Login.Cfg) (hk : Keyed cfg) (hp : cfg.poolMode = false) (ls : List Login.Label) (s t : Login.State) (h : Steps (Login.Step cfg) (Login.init cfg) ls s)
    (g c id d : Nat) (hs : Login.Step cfg s (.reply g c id d) t) : d = c := by
  cases hs with
  | reply _ _ _ hw =>
    obtain ⟨c', id', he, hlt⟩ := (low_inv h).workCall g _ _ hw
    obtain ⟨rfl, rfl⟩ := hk.inj _ _ _ _ he
    exact (obj_inv hp h c id hlt).2

/-! ## Callbacks that find no result -/

/-- Invariant: `returnedObj` is there once it has been stored, and callbacks are there only when the result has been claimed. -/
structure GotInv (s : State) : Prop where
  stored : ∀ k, (s.home.res k).op = .stored ∨ (s.home.res k).op = .fire ∨ (∃ h, (s.home.res k).op = .send h) ∨ (s.home.res k).op = .done → s.stored k = true
  ret : ∀ k, (s.home.res k).hasRet = true → (s.home.res k).op ≠ .notStarted ∧ (s.home.res k).op ≠ .queued ∧ (s.home.res k).op ≠ .running
  called : ∀ k, (s.home.res k).called = true → (s.home.res k).hasRet = true
  fire : ∀ g it k, s.home.worker g = .busy it (.fire k) → (s.home.res k).hasRet = true
  opRet : ∀ k, (s.home.res k).op = .fire → (s.home.res k).hasRet = true
  opStored : ∀ k, (s.home.res k).op = .stored → (s.home.res k).hasRet = true
  opWon : ∀ k, (s.home.res k).op = .won → (s.home.res k).hasRet = true
  send : ∀ g it k h, s.home.worker g = .busy it (.send k h) → (s.home.res k).called = true
  opSend : ∀ k h, (s.home.res k).op = .send h → (s.home.res k).called = true
  queue : ∀ g k, .call k ∈ s.home.queue g → (s.home.res k).called = true
  work : ∀ g k pc, s.home.worker g = .busy (.call k) pc → (s.home.res k).called = true

theorem GotInv.same {s t : State} (hi : GotInv s) (h1 : t.home = s.home) (h2 : t.stored = s.stored) : GotInv t := by
  obtain ⟨a, b, c, d, e, f, k, l, m, n, o⟩ := hi
  constructor <;> simp only [h1, h2] <;> assumption

set_option maxHeartbeats 1000000 in
theorem got_home {cfg : Login.Cfg} {s : State} {h : AsyncHome.State} {l : AsyncHome.Label} (hi : GotInv s) (hs : AsyncHome.Step cfg.home s.home l h) {st : Nat → Bool}
    (hst : ∀ k, s.stored k = true → st k = true) (ho : ∀ k, l = .op k → (s.home.res k).op = .won → st k = true) : GotInv { s with home := h, stored := st } := by
  obtain ⟨a, b, c, d, e, f, k, l, m, n, o⟩ := hi
  have haf : ∀ it pc, AsyncHome.after cfg.home ≠ .busy it pc := by unfold AsyncHome.after; split <;> nofun
  cases hs <;> (constructor <;> simp only [AsyncHome.State.setRes, AsyncHome.State.setWorker, AsyncHome.State.push, upd] <;> grind)

end Zinx.Props
