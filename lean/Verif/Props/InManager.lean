import Verif.Props.ConnLife

/-! # C147: hooks find their connection in the manager -/

namespace Zinx.Props

open Zinx.ConnLife

variable {k : ConnLife.Kind} {stuck : Bool}

/-- **C147** for hooks, all transports and schedules: while the start hook or the stop hook runs, and from before the one to after the other, the connection is in the manager. It is taken out by the last action
of `Start` and never comes back; its socket is closed before. So it is in the manager for ever exactly if `Start` never comes to its end. -/
theorem C147_partial (ls : List ConnLife.Label) (s : ConnLife.State) (h : Steps (ConnLife.Step k stuck) {} ls s) :
    (s.inMgr = false ↔ .remove ∈ ls) ∧ (s.inMgr = false → s.sockClosed = true ∧ .startHookDone ∈ ls ∧ .stopHookDone ∈ ls ∧ ∀ t, Reaches (ConnLife.Step k stuck) s t → t.inMgr = false) ∧
    (s.main = .startHook ∨ s.main = .stopHook → s.inMgr = true) := by
  have hi := lifeInv h
  have hr : s.inMgr = false ↔ .remove ∈ ls := by
    refine Steps.invariant_trace (P := fun ls (s : ConnLife.State) => s.inMgr = false ↔ Label.remove ∈ ls) ?_ h (by simp)
    intro ls s l t hp hs
    obtain ⟨_, hs⟩ := hs
    cases hs <;> simp_all
  refine ⟨hr, fun hm => ?_, fun hm => ?_⟩
  · have hd := hi.mgr.mp hm
    have hc := hi.cnt
    have hn : Label.stopHookPanic ∉ ls := fun h' => by rw [hi.panicked2.mp h'] at hd; cases hd
    rw [List.count_eq_zero.mpr hn, hd] at hc
    refine ⟨hi.sock.mpr (.inr hd), hi.hook (by simp [hd]) (by simp [hd]) (by simp [hd]), List.count_pos_iff.mp (by simp at hc; omega), ?_⟩
    rintro t ⟨ls', h'⟩
    refine h'.invariant (P := fun t => t.inMgr = false) ?_ hm
    intro s l t hp hs
    obtain ⟨_, hs⟩ := hs
    cases hs <;> simp_all
  · cases hq : s.inMgr with
    | true => rfl
    | false =>
      rw [hi.mgr.mp hq] at hm
      rcases hm with hm | hm <;> cases hm

/-- False of handlers: the reader may be handing on a message, or a handler called by it running, when the connection is out of the manager already, with every transport. -/
theorem C147_refuted : ∀ k, ∃ s, Reaches (ConnLife.Step k false) {} s ∧ s.reader = .handling ∧ s.inMgr = false := by
  intro k
  have pre : ∀ {ls t}, Steps (ConnLife.Step k false) { main := .stopHook, reader := .handling, ctxSet := true, cancelled := true } ls t → Reaches (ConnLife.Step k false) {} t := fun h =>
    ⟨_, .cons (.run rfl (.begin _ rfl)) (.cons (.run rfl (.startHookDone _ rfl)) (.cons (.run rfl (.spawnReader _ rfl)) (.cons (.run rfl (.handle _ rfl rfl))
      (.cons (.run rfl (.stop _ rfl)) (.cons (.run rfl (.ctxDone _ rfl rfl)) h)))))⟩
  cases k with
  | tcp => exact ⟨_, pre (.cons (.run rfl (.stopHookDone _ rfl)) (.cons (.run rfl (.close _ rfl)) (.cons (.run rfl (.remove _ rfl)) (.nil _)))), rfl, rfl⟩
  | ws => exact ⟨_, pre (.cons (.run rfl (.stopHookDone _ rfl)) (.cons (.run rfl (.lock _ rfl rfl)) (.cons (.run rfl (.close _ rfl)) (.cons (.run rfl (.remove _ rfl)) (.nil _))))), rfl, rfl⟩
  | kcp => exact ⟨_, pre (.cons (.run rfl (.stopHookDone _ rfl)) (.cons (.run rfl (.lock _ rfl rfl)) (.cons (.run rfl (.close _ rfl)) (.cons (.run rfl (.remove _ rfl)) (.nil _))))), rfl, rfl⟩

/-- A connection in its stop hook is found; the same connection later is not. -/
example (k : ConnLife.Kind) : ∃ s t, Reaches (ConnLife.Step k false) {} s ∧ s.main = .stopHook ∧ s.inMgr = true ∧ Reaches (ConnLife.Step k false) {} t ∧ t.inMgr = false := by
  obtain ⟨t, ht, _, h2⟩ := C147_refuted k
  exact ⟨_, t, ⟨_, .cons (.run rfl (.begin _ rfl)) (.cons (.run rfl (.startHookDone _ rfl)) (.cons (.run rfl (.spawnReader _ rfl))
    (.cons (.run rfl (.stop _ rfl)) (.cons (.run rfl (.ctxDone _ rfl rfl)) (.nil _)))))⟩, rfl, rfl, ht, h2⟩

end Zinx.Props
