import Verif.Props.ConnLife
import Verif.Props.Teardown
import Verif.Props.Alive

/-! # C35, C42 and C43, continued: no send is cut off by the teardown; what counts as activity at the start -/

namespace Zinx.Props

/-- Invariant: the sends that hold the lock are those that have taken it and not given it back, and the socket is closed with the lock held by the finalizer. -/
structure SendHoldInv (k : ConnLife.Kind) (ls : List ConnLife.Label) (s : ConnLife.State) : Prop where
  count : ls.count .sendLock = ls.count .sendUnlock + s.holders
  tcp : k = .tcp → s.holders = 0
  held : s.main = .close ∨ s.main = .remove → s.holders = 0

theorem send_hold_inv {k : ConnLife.Kind} {stuck : Bool} {ls : List ConnLife.Label} {s : ConnLife.State} (h : Steps (ConnLife.Step k stuck) {} ls s) : SendHoldInv k ls s := by
  refine h.invariant_trace (P := SendHoldInv k) ?_ ⟨rfl, fun _ => rfl, fun _ => rfl⟩
  rintro ls s l t ⟨a, b, c⟩ ⟨_, hs⟩
  cases hs <;> constructor <;> (try simp only [List.count_append, List.count_singleton]) <;> grind

/-- **C35 (sends).** The socket is closed only when every send that took the lock has given it back, on every kind of connection: closing cuts off no such send. -/
theorem C35_sends (k : ConnLife.Kind) (stuck : Bool) (a b : List ConnLife.Label) (t : ConnLife.State) (h : Steps (ConnLife.Step k stuck) {} (a ++ .close :: b) t) :
    a.count .sendLock = a.count .sendUnlock := by
  obtain ⟨s, h1, h2⟩ := h.split
  have hi := send_hold_inv h1
  cases h2 with
  | cons h3 _ =>
    cases h3 with
    | run _ h3 =>
      cases h3 with
      | close hm =>
        have := hi.count
        have := hi.held (.inl hm)
        omega

/-- A KCP connection is stopped while somebody sends: the finalizer waits. -/
example : ∃ t, Steps (ConnLife.Step .kcp false) {} ([.begin, .startHookDone, .spawnReader, .sendLock, .sendLock, .stop, .ctxDone, .stopHookDone, .sendUnlock, .sendUnlock, .lock] ++ .close :: []) t :=
  ⟨_, .cons (.run rfl (.begin _ rfl)) (.cons (.run rfl (.startHookDone _ rfl)) (.cons (.run rfl (.spawnReader _ rfl)) (.cons (.run rfl (.sendLock _ (.inr ⟨rfl, nofun⟩) nofun nofun))
    (.cons (.run rfl (.sendLock _ (.inr ⟨rfl, nofun⟩) nofun nofun)) (.cons (.run rfl (.stop _ rfl)) (.cons (.run rfl (.ctxDone _ rfl rfl)) (.cons (.run rfl (.stopHookDone _ rfl))
    (.cons (.run rfl (.sendUnlock _ (by decide) (.inl rfl))) (.cons (.run rfl (.sendUnlock _ (by decide) (.inl rfl))) (.cons (.run rfl (.lock _ rfl rfl)) (.cons (.run rfl (.close _ rfl)) (.nil _))))))))))))⟩

/-- Invariant: the same with a heartbeat. -/
structure SendLockInv (k : Teardown.Kind) (ls : List Teardown.Label) (s : Teardown.State) : Prop where
  count : ls.count .other = ls.count .otherDone + s.readers + (if s.lock = some .other then 1 else 0)
  readers : k ≠ .kcp → s.readers = 0
  lock : k ≠ .ws → s.lock ≠ some .other
  held : k ≠ .tcp → s.fin = .quit ∨ s.fin = .close ∨ s.fin = .remove ∨ s.fin = .finish → s.lock = some .fin ∧ s.readers = 0
  rlock : s.hb = .rlock → k = .kcp
  hbLock : k = .ws → (s.hb = .writing ↔ s.lock = some .hb)

theorem send_lock_inv {k : Teardown.Kind} {stuck : Bool} {ls : List Teardown.Label} {s : Teardown.State} (h : Steps (Teardown.Step k stuck) {} ls s) : SendLockInv k ls s := by
  refine h.invariant_trace (P := SendLockInv k) ?_ ?_
  · rintro ls s l t ⟨a, b, c, d, r, e⟩ hs
    cases hs <;> constructor <;> simp only [List.count_append, List.count_singleton, Teardown.State.free] at * <;> grind
  · constructor <;> simp

/-- **C42 (sends).** The finalizer of a WebSocket or KCP connection waits for the heartbeat to stop, closes the socket and removes the connection only while no send of anyone else is under way. -/
theorem C42_sends (k : Teardown.Kind) (stuck : Bool) (ls : List Teardown.Label) (s : Teardown.State) (h : Steps (Teardown.Step k stuck) {} ls s) (hk : k ≠ .tcp)
    (hf : s.fin = .quit ∨ s.fin = .close ∨ s.fin = .remove ∨ s.fin = .finish) : ls.count .other = ls.count .otherDone := by
  have hi := send_lock_inv h
  have h1 := hi.held hk hf
  have h2 := hi.count
  rw [h1.1, h1.2, if_neg (by decide)] at h2
  omega

/-- Two sends on a KCP connection, which is then stopped. -/
example : ∃ t, Steps (Teardown.Step .kcp false) {} [.other, .other, .stop, .fin, .fin, .otherDone, .otherDone, .fin] t ∧ t.fin = .quit :=
  ⟨_, .cons (.otherRLock _ rfl rfl nofun) (.cons (.otherRLock _ rfl rfl nofun) (.cons (.stop _) (.cons (.finStart _ rfl rfl) (.cons (.hookDone _ rfl) (.cons (.otherRUnlock _ (by decide) (.inl rfl))
    (.cons (.otherRUnlock _ (by decide) (.inl rfl)) (.cons (.finLock _ rfl ⟨rfl, rfl, nofun⟩ (.inl rfl)) (.nil _)))))))), rfl⟩

/-- **C43 (start).** Apart from data read, the only thing noted as activity is the start of the connection, once. -/
theorem C43_start (hm : Int) (ls : List Alive.Label) (t : Alive.State) (h : Steps (Alive.Step hm) {} ls t) : ls.count .firstUpdate = if t.started then 1 else 0 := by
  refine h.invariant_trace (P := fun ls t => ls.count .firstUpdate = if t.started then 1 else 0) ?_ rfl
  intro ls s l t hi hs
  rw [List.count_append, List.count_singleton]
  cases hs <;> simp_all

example : ∃ t, Steps (Alive.Step 10) {} [.hbStart, .firstUpdate, .advance 5] t ∧ t.started = true :=
  ⟨_, .cons (.hbStart _ rfl) (.cons (.firstUpdate _ nofun rfl) (.cons (.advance _ 5) (.nil _))), rfl⟩

end Zinx.Props
