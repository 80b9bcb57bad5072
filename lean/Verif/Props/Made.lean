import Verif.Model.Made

/-!
# C142, C143: the context of a connection; what a connection keeps from the time it was made
-/

namespace Zinx.Props

open Zinx Zinx.Made

/-! ## C142 -/

/-- Contexts of connections that are not started. -/
def firstCtx (k : Kind) (r : Nat) : Option Ctx := if k = .ws then some (.withValue .background .httpReq r) else none

structure CtxInv (tr : List Label) (s : State) : Prop where
  stop : ∀ c, s.called c = true ↔ .stop c ∈ tr
  here : ∀ c k r, .accept c k r ∈ tr → ∃ x, s.conn c = some x ∧ x.kind = k
  conn : ∀ c x, s.conn c = some x → ∃ r, .accept c x.kind r ∈ tr ∧ (∀ k' r', .accept c k' r' ∈ tr → k' = x.kind ∧ r' = r) ∧ (x.pc.started = true ↔ .start c ∈ tr) ∧
    x.ctx = (if x.pc.started = true then some (.withCancel ((firstCtx x.kind r).getD .background) c) else firstCtx x.kind r) ∧ (x.pc = .ending ∨ x.pc = .ended → .stop c ∈ tr)
  fresh : ∀ c, s.conn c = none → .start c ∉ tr

theorem State.put_self (s : State) (c : Nat) (x : Conn) : (s.put c x).conn c = some x := if_pos rfl

theorem State.put_other (s : State) {c i : Nat} (x : Conn) (h : i ≠ c) : (s.put c x).conn i = s.conn i := if_neg h

/-- A step of connection `c` from `y` to `x` that keeps kind, context and whether it is started. -/
theorem ctxInv_put {tr : List Label} {s : State} {l : Label} {c : Nat} {y x : Conn} (h : CtxInv tr s) (hy : s.conn c = some y) (h1 : ∀ c, l ≠ .stop c) (h2 : ∀ c k r, l ≠ .accept c k r) (h3 : ∀ c, l ≠ .start c)
    (hk : x.kind = y.kind) (hc : x.ctx = y.ctx) (hs : x.pc.started = y.pc.started) (he : x.pc = .ending ∨ x.pc = .ended → .stop c ∈ tr) : CtxInv (tr ++ [l]) (s.put c x) := by
  refine ⟨fun i => ?_, fun i k r hm => ?_, fun i z hz => ?_, fun i hz => ?_⟩
  · have := h.stop i
    have := h1 i
    simp only [List.mem_append, List.mem_singleton]
    show s.called i = true ↔ _
    grind
  · have hm' : .accept i k r ∈ tr := by
      rcases List.mem_append.1 hm with h | h
      · exact h
      · exact absurd (List.mem_singleton.1 h).symm (h2 i k r)
    obtain ⟨w, g1, g2⟩ := h.here i k r hm'
    by_cases hi : i = c
    · subst hi
      rw [hy] at g1
      cases g1
      exact ⟨x, State.put_self _ _ _, hk.trans g2⟩
    · exact ⟨w, by rw [State.put_other _ _ hi]; exact g1, g2⟩
  · have hmem : ∀ m, m ∈ tr ++ [l] ↔ m ∈ tr ∨ m = l := by simp
    simp only [hmem]
    by_cases hi : i = c
    · subst hi
      rw [State.put_self] at hz
      cases hz
      obtain ⟨r, g1, g2, g3, g4, g5⟩ := h.conn i y hy
      refine ⟨r, .inl (hk ▸ g1), fun k' r' hm => ?_, ?_, ?_, fun h => .inl (he h)⟩
      · rw [hk]
        exact g2 k' r' (hm.resolve_right fun h => h2 _ _ _ h.symm)
      · rw [hs, g3]
        exact ⟨.inl, fun hm => hm.resolve_right fun h => h3 _ h.symm⟩
      · rw [hc, g4, hs, hk]
    · rw [State.put_other _ _ hi] at hz
      obtain ⟨r, g1, g2, g3, g4, g5⟩ := h.conn i z hz
      exact ⟨r, .inl g1, fun k' r' hm => g2 k' r' (hm.resolve_right fun h => h2 _ _ _ h.symm), g3.trans ⟨.inl, fun hm => hm.resolve_right fun h => h3 _ h.symm⟩, g4, fun h => .inl (g5 h)⟩
  · have hi : i ≠ c := by rintro rfl; rw [State.put_self] at hz; cases hz
    rw [State.put_other _ _ hi] at hz
    intro hm
    rcases List.mem_append.1 hm with h' | h'
    · exact h.fresh i hz h'
    · exact h3 i (List.mem_singleton.1 h').symm

/-- A step that changes no connection and calls no cancel function. -/
theorem ctxInv_same {tr : List Label} {s t : State} {l : Label} (h : CtxInv tr s) (h1 : ∀ c, l ≠ .stop c) (h2 : ∀ c k r, l ≠ .accept c k r) (h3 : ∀ c, l ≠ .start c) (hc : t.conn = s.conn)
    (hd : t.called = s.called) : CtxInv (tr ++ [l]) t := by
  have hmem : ∀ m, m ∈ tr ++ [l] ↔ m ∈ tr ∨ m = l := by simp
  constructor <;> simp only [hmem, hc, hd]
  · exact fun i => (h.stop i).trans ⟨.inl, fun hm => hm.resolve_right fun h => h1 _ h.symm⟩
  · exact fun i k r hm => h.here i k r (hm.resolve_right fun h => h2 _ _ _ h.symm)
  · intro i z hz
    obtain ⟨r, g1, g2, g3, g4, g5⟩ := h.conn i z hz
    exact ⟨r, .inl g1, fun k' r' hm => g2 k' r' (hm.resolve_right fun h => h2 _ _ _ h.symm), g3.trans ⟨.inl, fun hm => hm.resolve_right fun h => h3 _ h.symm⟩, g4, fun h => .inl (g5 h)⟩
  · exact fun i hz hm => h.fresh i hz (hm.resolve_right fun h => h3 _ h.symm)

theorem firstCtx_done (k : Kind) (r : Nat) (called : Nat → Bool) : ((firstCtx k r).getD .background).done called = false := by cases k <;> rfl

theorem ctxInv {tr : List Label} {s : State} (h : Steps Step {} tr s) : CtxInv tr s := by
  refine h.invariant_trace (P := CtxInv) ?_ ⟨fun c => by simp, fun c k r hm => by simp at hm, fun c x hx => by simp at hx, fun c _ => by simp⟩
  intro tr s l t hi hs
  have hmem : ∀ m, m ∈ tr ++ [l] ↔ m ∈ tr ∨ m = l := by simp
  cases hs with
  | setPacket => exact ctxInv_same hi nofun nofun nofun rfl rfl
  | setStart => exact ctxInv_same hi nofun nofun nofun rfl rfl
  | setStop => exact ctxInv_same hi nofun nofun nofun rfl rfl
  | setHc => exact ctxInv_same hi nofun nofun nofun rfl rfl
  | reqOver => exact ctxInv_same hi nofun nofun nofun rfl rfl
  | stopPanic => exact ctxInv_same hi nofun nofun nofun rfl rfl
  | take => exact ctxInv_same hi nofun nofun nofun rfl rfl
  | pack => exact ctxInv_same hi nofun nofun nofun rfl rfl
  | readPacket c x hx hp => exact ctxInv_put hi hx nofun nofun nofun rfl rfl (by rw [hp]; rfl) (by simp)
  | readStart c x hx hp => exact ctxInv_put hi hx nofun nofun nofun rfl rfl (by rw [hp]; rfl) (by simp)
  | readStop c x hx hp => exact ctxInv_put hi hx nofun nofun nofun rfl rfl (by rw [hp]; rfl) (by simp)
  | bind c x hx hp => exact ctxInv_put hi hx nofun nofun nofun rfl rfl (by rw [hp]; rfl) (by simp)
  | startHook c x hx hp => exact ctxInv_put hi hx nofun nofun nofun rfl rfl (by rw [hp]; rfl) (by simp)
  | watch c x hx hp => exact ctxInv_put hi hx nofun nofun nofun rfl rfl (by rw [hp]; rfl) (by simp)
  | seesDone c x k hx hp hk hd =>
    refine ctxInv_put hi hx nofun nofun nofun rfl rfl (by rw [hp]; rfl) fun _ => ?_
    obtain ⟨r, _, _, _, g4, _⟩ := hi.conn c x hx
    rw [hp, hk] at g4
    cases g4
    have hd' : (s.called c || ((firstCtx x.kind r).getD .background).done s.called) = true := hd
    rw [firstCtx_done, Bool.or_false] at hd'
    exact (hi.stop c).1 hd'
  | stopHook c x hx hp => exact ctxInv_put hi hx nofun nofun nofun rfl rfl (by rw [hp]; rfl) fun _ => (hi.conn c x hx).choose_spec.2.2.2.2 (.inl hp)
  | stop c x hx hp =>
    constructor <;> simp only [hmem]
    · intro i
      by_cases hc : i = c
      · simp [hc]
      · have := hi.stop i
        simp [hc, this]
    · exact fun i k r hm => hi.here i k r (hm.resolve_right nofun)
    · intro i z hz
      obtain ⟨r, g1, g2, g3, g4, g5⟩ := hi.conn i z hz
      exact ⟨r, .inl g1, fun k' r' hm => g2 k' r' (hm.resolve_right nofun), g3.trans ⟨.inl, fun hm => hm.resolve_right nofun⟩, g4, fun h => .inl (g5 h)⟩
    · exact fun i hz hm => hi.fresh i hz (hm.resolve_right nofun)
  | accept c k r hn =>
    constructor <;> simp only [hmem]
    · exact fun i => (hi.stop i).trans ⟨.inl, fun hm => hm.resolve_right nofun⟩
    · rintro i k' r' (hm | hm)
      · obtain ⟨x, g1, g2⟩ := hi.here i k' r' hm
        have hc : i ≠ c := by rintro rfl; rw [hn] at g1; cases g1
        exact ⟨x, by rw [State.put_other _ _ hc]; exact g1, g2⟩
      · cases hm
        exact ⟨_, State.put_self _ _ _, rfl⟩
    · intro i z hz
      by_cases hc : i = c
      · subst hc
        rw [State.put_self] at hz
        cases hz
        refine ⟨r, .inr rfl, ?_, ?_, rfl, by simp⟩
        · rintro k' r' (hm | hm)
          · obtain ⟨x, g1, _⟩ := hi.here i k' r' hm
            rw [hn] at g1
            cases g1
          · cases hm
            exact ⟨rfl, rfl⟩
        · exact ⟨nofun, fun hm => absurd (hm.resolve_right nofun) (hi.fresh i hn)⟩
      · rw [State.put_other _ _ hc] at hz
        obtain ⟨r', g1, g2, g3, g4, g5⟩ := hi.conn i z hz
        refine ⟨r', .inl g1, fun k' q hm => ?_, g3.trans ⟨.inl, fun hm => hm.resolve_right nofun⟩, g4, fun h => .inl (g5 h)⟩
        rcases hm with hm | hm
        · exact g2 _ _ hm
        · cases hm
          exact absurd rfl hc
    · intro i hz hm
      by_cases hc : i = c
      · subst hc
        rw [State.put_self] at hz
        cases hz
      · rw [State.put_other _ _ hc] at hz
        exact hi.fresh i hz (hm.resolve_right nofun)
  | start c x hx hp =>
    obtain ⟨r, g1, g2, g3, g4, g5⟩ := hi.conn c x hx
    constructor <;> simp only [hmem]
    · exact fun i => (hi.stop i).trans ⟨.inl, fun hm => hm.resolve_right nofun⟩
    · intro i k' r' hm
      obtain ⟨w, w1, w2⟩ := hi.here i k' r' (hm.resolve_right nofun)
      by_cases hc : i = c
      · subst hc
        rw [hx] at w1
        cases w1
        exact ⟨_, State.put_self _ _ _, w2⟩
      · exact ⟨w, by rw [State.put_other _ _ hc]; exact w1, w2⟩
    · intro i z hz
      by_cases hc : i = c
      · subst hc
        rw [State.put_self] at hz
        cases hz
        refine ⟨r, .inl g1, fun k' r' hm => g2 k' r' (hm.resolve_right nofun), ⟨fun _ => .inr rfl, fun _ => rfl⟩, ?_, by simp⟩
        have hc : x.ctx = firstCtx x.kind r := by rw [g4, if_neg (by rw [hp]; exact nofun)]
        show some _ = some _
        rw [hc]
        cases x.kind <;> rfl
      · rw [State.put_other _ _ hc] at hz
        obtain ⟨r', w1, w2, w3, w4, w5⟩ := hi.conn i z hz
        refine ⟨r', .inl w1, fun k' q hm => w2 k' q (hm.resolve_right nofun), w3.trans ⟨.inl, fun hm => ?_⟩, w4, fun h => .inl (w5 h)⟩
        rcases hm with hm | hm
        · exact hm
        · cases hm
          exact absurd rfl hc
    · intro i hz hm
      by_cases hc : i = c
      · subst hc
        rw [State.put_self] at hz
        cases hz
      · rw [State.put_other _ _ hc] at hz
        rcases hm with hm | hm
        · exact hi.fresh i hz hm
        · cases hm
          exact hc rfl

/-- What a call of `Context()` returned. -/
theorem taken {a : List Label} {s : State} {c : Nat} {x : Option Ctx} {t : State} (h : Steps Step {} a s) (hs : Step s (.take c x) t) :
    ∃ k r, .accept c k r ∈ a ∧ (∀ k' r', .accept c k' r' ∈ a → k' = k ∧ r' = r) ∧ ((.start c ∈ a ∧ x = some (.withCancel ((firstCtx k r).getD .background) c)) ∨ (.start c ∉ a ∧ x = firstCtx k r)) := by
  cases hs with
  | take _ y hy hk =>
    obtain ⟨r, g1, g2, g3, g4, _⟩ := (ctxInv h).conn c y hy
    refine ⟨y.kind, r, g1, g2, ?_⟩
    by_cases hst : y.pc.started = true
    · exact .inl ⟨g3.1 hst, by rw [g4, if_pos hst]⟩
    · exact .inr ⟨fun h => hst (g3.2 h), by rw [g4, if_neg hst]⟩

theorem taken_at {a b : List Label} {c : Nat} {x : Option Ctx} {s : State} (h : Steps Step {} (a ++ .take c x :: b) s) :
    ∃ k r, .accept c k r ∈ a ∧ (∀ k' r', .accept c k' r' ∈ a → k' = k ∧ r' = r) ∧ ((.start c ∈ a ∧ x = some (.withCancel ((firstCtx k r).getD .background) c)) ∨ (.start c ∉ a ∧ x = firstCtx k r)) := by
  obtain ⟨t, h1, h2⟩ := h.split
  cases h2 with
  | cons h2 _ => exact taken h1 h2

/-- **C142**: a context that `Context()` returned is done, at any later time, exactly if `Start` had been called before `Context()` and the connection has been stopped. -/
theorem C142_exact (a b : List Label) (c : Nat) (x : Option Ctx) (s : State) (h : Steps Step {} (a ++ .take c x :: b) s) :
    (∃ y, x = some y ∧ y.done s.called = true) ↔ .start c ∈ a ∧ .stop c ∈ a ++ .take c x :: b := by
  obtain ⟨k, r, _, _, hx⟩ := taken_at h
  have hst := (ctxInv h).stop c
  rcases hx with ⟨h1, rfl⟩ | ⟨h1, rfl⟩
  · rw [← hst]
    have : ((Ctx.withCancel ((firstCtx k r).getD .background) c).done s.called = true) ↔ s.called c = true := by
      show (s.called c || _) = true ↔ _
      rw [firstCtx_done, Bool.or_false]
    exact ⟨fun ⟨y, hy, hd⟩ => ⟨h1, by cases hy; exact this.1 hd⟩, fun ⟨_, hd⟩ => ⟨_, rfl, this.2 hd⟩⟩
  · refine ⟨fun ⟨y, hy, hd⟩ => ?_, fun ⟨h2, _⟩ => absurd h2 h1⟩
    have := firstCtx_done k r s.called
    rw [hy] at this
    rw [show y.done s.called = false from this] at hd
    cases hd

/-- **C142**, in particular: from the start hook on `Context()` returns a context, and it is done exactly if the connection has been stopped; the end of the request of a WebSocket connection does not matter. -/
theorem C142_partial (a b : List Label) (c : Nat) (x : Option Ctx) (s : State) (h : Steps Step {} (a ++ .take c x :: b) s) (hs : .start c ∈ a) :
    ∃ y, x = some y ∧ (y.done s.called = true ↔ .stop c ∈ a ++ .take c x :: b) := by
  have he := C142_exact a b c x s h
  obtain ⟨k, r, _, _, hx⟩ := taken_at h
  rcases hx with ⟨_, hx⟩ | ⟨h1, _⟩
  · refine ⟨_, hx, ⟨fun hd => (he.1 ⟨_, hx, hd⟩).2, fun hd => ?_⟩⟩
    obtain ⟨y, hy, hd⟩ := he.2 ⟨hs, hd⟩
    rw [hx] at hy
    cases hy
    exact hd
  · exact absurd hs h1

/-- **C142**, what the authentication left: the context of a connection of a WebSocket server gives, at any time, the context of the request it was made for; those of other connections hold no values. -/
theorem C142_value (a b : List Label) (c : Nat) (k : Kind) (r : Nat) (x : Option Ctx) (s : State) (h : Steps Step {} (a ++ .take c x :: b) s) (hr : .accept c k r ∈ a) :
    (k = .ws → ∃ y, x = some y ∧ y.value .httpReq = some r) ∧ (∀ y, x = some y → ∀ key, y.value key = if k = .ws ∧ key = .httpReq then some r else none) := by
  obtain ⟨k', r', _, hu, hx⟩ := taken_at h
  obtain ⟨rfl, rfl⟩ := hu k r hr
  rcases hx with ⟨_, rfl⟩ | ⟨_, rfl⟩
  · refine ⟨?_, ?_⟩
    · rintro rfl
      exact ⟨_, rfl, rfl⟩
    · intro y hy key
      cases hy
      cases k <;> cases key <;> rfl
  · refine ⟨?_, ?_⟩
    · rintro rfl
      exact ⟨_, rfl, rfl⟩
    · intro y hy key
      cases k <;> cases hy
      cases key <;> rfl

/-- **C142**: when the stop hook is called, contexts taken since the start are done. -/
theorem C142_hook (a b : List Label) (c : Nat) (f : Option Nat) (s : State) (h : Steps Step {} (a ++ .stopHook c f :: b) s) : .start c ∈ a ∧ .stop c ∈ a := by
  obtain ⟨t, h1, h2⟩ := h.split
  cases h2 with
  | cons h2 _ =>
    cases h2 with
    | stopHook _ x hx hp =>
      obtain ⟨r, _, _, g3, _, g5⟩ := (ctxInv h1).conn c x hx
      exact ⟨g3.1 (by rw [hp]; rfl), g5 (.inl hp)⟩

theorem startHook_step (s : State) (c : Nat) (x : Conn) (f : Option Nat) (hx : s.conn c = some x) (hp : x.pc = .begun) (hf : x.onStart = f) : Step s (.startHook c f) (s.put c { x with pc := .greeted }) :=
  hf ▸ .startHook s c x hx hp

theorem watch_step (s : State) (c : Nat) (x : Conn) (h : Option Nat) (hx : s.conn c = some x) (hp : x.pc = .greeted) (hf : x.hc = h) : Step s (.watch c h) (s.put c { x with pc := .running }) :=
  hf ▸ .watch s c x hx hp

theorem stopHook_step (s : State) (c : Nat) (x : Conn) (f : Option Nat) (hx : s.conn c = some x) (hp : x.pc = .ending) (hf : x.onStop = f) : Step s (.stopHook c f) (s.put c { x with pc := .ended }) :=
  hf ▸ .stopHook s c x hx hp

theorem take_step (s : State) (c : Nat) (x : Conn) (k : Option Ctx) (hx : s.conn c = some x) (hp : x.pc.known = true) (hf : x.ctx = k) : Step s (.take c k) s :=
  hf ▸ .take s c x hx hp

theorem pack_step (s : State) (c : Nat) (x : Conn) (p : Nat) (hx : s.conn c = some x) (hp : x.pc.known = true) (hf : x.packet = p) : Step s (.pack c p) s :=
  hf ▸ .pack s c x hx hp

theorem goes {s t : State} {l : Label} {ls : List Label} (h : Step s l t) (h2 : ∃ u, Steps Step t ls u) : ∃ u, Steps Step s (l :: ls) u := h2.imp fun _ => .cons h

/-- Connections that others know, but that are not started. -/
def earlyRun (k : Kind) (x : Option Ctx) : List Label := [.accept 1 k 7, .readPacket 1, .readStart 1, .readStop 1, .take 1 x, .bind 1, .start 1, .startHook 1 none, .watch 1 none, .stop 1, .seesDone 1, .stopHook 1 none]

/-- **C142** fails for calls before `Start`: a connection that another goroutine got from the connection manager (or from the client) has no context yet, or, on a WebSocket server, one that is never done, even
though the connection comes to its end. -/
theorem C142_refuted : (∃ s, Steps Step {} (earlyRun .tcp none) s) ∧ (∃ s, Steps Step {} (earlyRun .kcp none) s) ∧ (∃ s, Steps Step {} (earlyRun .tcpClient none) s) ∧ (∃ s, Steps Step {} (earlyRun .wsClient none) s) ∧
    (∃ s, Steps Step {} (earlyRun .ws (some (.withValue .background .httpReq 7))) s) ∧ ∀ called, (Ctx.withValue .background .httpReq 7).done called = false := by
  refine ⟨?_, ?_, ?_, ?_, ?_, fun _ => rfl⟩
  all_goals
    refine goes (.accept _ 1 _ 7 rfl) ?_
    refine goes (.readPacket _ 1 _ rfl rfl) ?_
    refine goes (.readStart _ 1 _ rfl rfl) ?_
    refine goes (.readStop _ 1 _ rfl rfl) ?_
    refine goes (take_step _ 1 _ _ rfl rfl rfl) ?_
    refine goes (.bind _ 1 _ rfl rfl) ?_
    refine goes (.start _ 1 _ rfl rfl) ?_
    refine goes (startHook_step _ 1 _ _ rfl rfl rfl) ?_
    refine goes (watch_step _ 1 _ _ rfl rfl rfl) ?_
    refine goes (.stop _ 1 _ rfl rfl) ?_
    refine goes (.seesDone _ 1 _ _ rfl rfl rfl rfl) ?_
    refine goes (stopHook_step _ 1 _ _ rfl rfl rfl) ?_
    exact ⟨_, .nil _⟩

/-! ## C143 -/

/-- The value set last. -/
def setLast {α : Type} (g : Label → Option α) (d : α) (tr : List Label) : α := (tr.filterMap g).getLast?.getD d

/-- What is set and taken over: `srv` the field of the server or client, set by the calls `g`; `mine` that of the connection, read in the step to the states in which `pre` is false. -/
structure Takes (α : Type) where
  g : Label → Option α
  srv : State → α
  mine : Conn → α
  pre : Pc → Bool
  sets : ∀ {s l t}, Step s l t → srv t = (g l).getD (srv s)
  reads : ∀ {s l t c x}, Step s l t → t.conn c = some x → pre x.pc = true ∨ mine x = srv s ∨ ∃ y, s.conn c = some y ∧ pre y.pc = false ∧ mine x = mine y
  keeps : ∀ {s l t c y}, Step s l t → s.conn c = some y → pre y.pc = false → ∃ x, t.conn c = some x ∧ pre x.pc = false ∧ mine x = mine y

section
variable {α : Type} (T : Takes α)

theorem Takes.last {s t : State} {tr : List Label} (h : Steps Step s tr t) : T.srv t = setLast T.g (T.srv s) tr := by
  induction h with
  | nil => rfl
  | @cons s u t l ls h1 h2 ih =>
    rw [ih, T.sets h1]
    cases hl : T.g l with
    | none => simp [setLast, hl]
    | some v =>
      simp only [setLast, List.filterMap_cons, hl, Option.getD_some, List.getLast?_cons]

/-- What a connection has taken over by the end of an execution at whose beginning it had taken over nothing was there at the beginning or was set meanwhile. -/
theorem Takes.taken {s t : State} {tr : List Label} {c : Nat} (h : Steps Step s tr t) : ∀ x, t.conn c = some x → T.pre x.pc = false →
    (∀ y, s.conn c = some y → T.pre y.pc = true) → T.mine x = T.srv s ∨ ∃ l ∈ tr, T.g l = some (T.mine x) := by
  induction h with
  | nil => intro x hx hp h0; rw [h0 x hx] at hp; cases hp
  | @cons s u t l ls h1 h2 ih =>
    intro x hx hp h0
    by_cases hu : ∀ y, u.conn c = some y → T.pre y.pc = true
    · rcases ih x hx hp hu with h | ⟨l', hl', h⟩
      · rw [T.sets h1] at h
        cases hl : T.g l with
        | none => rw [hl] at h; exact .inl h
        | some v => rw [hl] at h; exact .inr ⟨l, List.mem_cons_self, by rw [hl, h]; rfl⟩
      · exact .inr ⟨l', List.mem_cons_of_mem _ hl', h⟩
    · simp only [Classical.not_forall] at hu
      obtain ⟨y, hy, hpy⟩ := hu
      have hpy : T.pre y.pc = false := by simpa using hpy
      have hk : ∃ x', t.conn c = some x' ∧ T.pre x'.pc = false ∧ T.mine x' = T.mine y :=
        h2.invariant (P := fun s => ∃ x', s.conn c = some x' ∧ T.pre x'.pc = false ∧ T.mine x' = T.mine y) (by
          rintro s l t ⟨z, z1, z2, z3⟩ hs
          obtain ⟨w, w1, w2, w3⟩ := T.keeps hs z1 z2
          exact ⟨w, w1, w2, w3.trans z3⟩) ⟨y, hy, hpy, rfl⟩
      obtain ⟨x', k1, _, k3⟩ := hk
      rw [hx] at k1
      cases k1
      rcases T.reads h1 hy with h | h | ⟨z, z1, z2, _⟩
      · rw [hpy] at h; cases h
      · exact .inl (k3.trans h)
      · rw [h0 z z1] at z2; cases z2

end

theorem put_conn {s : State} {c i : Nat} {x z : Conn} (h : (s.put c x).conn i = some z) : (i = c ∧ z = x) ∨ (i ≠ c ∧ s.conn i = some z) := by
  by_cases hi : i = c
  · subst hi
    rw [State.put_self] at h
    cases h
    exact .inl ⟨rfl, rfl⟩
  · rw [State.put_other _ _ hi] at h
    exact .inr ⟨hi, h⟩

/-- `SetOnConnStart`, and the start hook of a connection. -/
def setsStart : Label → Option (Option Nat)
  | .setStart f => some f
  | _ => none

/-- `SetOnConnStop`, and the stop hook of a connection. -/
def setsStop : Label → Option (Option Nat)
  | .setStop f => some f
  | _ => none

/-- `SetPacket`, and the packing of a connection. -/
def setsPacket : Label → Option Nat
  | .setPacket p => some p
  | _ => none

/-- `StartHeartBeat`, and the heartbeat checker of a connection. -/
def setsHc : Label → Option (Option Nat)
  | .setHc h => some h
  | _ => none

/-- The start hook. -/
def takesStart : Takes (Option Nat) where
  g := setsStart
  srv := (·.onStart)
  mine := (·.onStart)
  pre := fun p => match p with | .raw | .packed => true | _ => false
  sets := by intro s l t h; cases h <;> rfl
  reads := by
    intro s l t c x h hx
    cases h <;> (try (rcases put_conn hx with ⟨rfl, rfl⟩ | ⟨_, hx⟩)) <;> grind
  keeps := by
    intro s l t c y h hy hp
    cases h <;> grind [State.put]

/-- The stop hook. -/
def takesStop : Takes (Option Nat) where
  g := setsStop
  srv := (·.onStop)
  mine := (·.onStop)
  pre := fun p => match p with | .raw | .packed | .hooked => true | _ => false
  sets := by intro s l t h; cases h <;> rfl
  reads := by
    intro s l t c x h hx
    cases h <;> (try (rcases put_conn hx with ⟨rfl, rfl⟩ | ⟨_, hx⟩)) <;> grind
  keeps := by
    intro s l t c y h hy hp
    cases h <;> grind [State.put]

/-- The packing. -/
def takesPacket : Takes (Nat) where
  g := setsPacket
  srv := (·.packet)
  mine := (·.packet)
  pre := fun p => match p with | .raw => true | _ => false
  sets := by intro s l t h; cases h <;> rfl
  reads := by
    intro s l t c x h hx
    cases h <;> (try (rcases put_conn hx with ⟨rfl, rfl⟩ | ⟨_, hx⟩)) <;> grind
  keeps := by
    intro s l t c y h hy hp
    cases h <;> grind [State.put]

/-- The heartbeat checker. -/
def takesHc : Takes (Option Nat) where
  g := setsHc
  srv := (·.hc)
  mine := (·.hc)
  pre := fun p => match p with | .raw | .packed | .hooked | .made => true | _ => false
  sets := by intro s l t h; cases h <;> rfl
  reads := by
    intro s l t c x h hx
    cases h <;> (try (rcases put_conn hx with ⟨rfl, rfl⟩ | ⟨_, hx⟩)) <;> grind
  keeps := by
    intro s l t c y h hy hp
    cases h <;> grind [State.put]

/-- A connection that has taken over something between the actions `l0` and `l1`. -/
theorem Takes.used {α : Type} (T : Takes α) {a0 a1 a2 : List Label} {l0 l1 : Label} {s : State} {c : Nat} {x : Conn} (h : Steps Step {} (a0 ++ l0 :: (a1 ++ l1 :: a2)) s) (hx : s.conn c = some x)
    (h0 : ∀ u t, Step u l0 t → (T.srv t = T.srv u) ∧ ∀ y, t.conn c = some y → T.pre y.pc = true) (h1 : ∀ u t, Step u l1 t → ∃ y, t.conn c = some y ∧ T.pre y.pc = false) (hl : T.g l1 = none) :
    T.mine x = setLast T.g (T.srv {}) a0 ∨ ∃ l ∈ a1, T.g l = some (T.mine x) := by
  obtain ⟨u, hu, h⟩ := h.split
  cases h with
  | cons hs h =>
    obtain ⟨hsrv, hpre⟩ := h0 _ _ hs
    obtain ⟨v, hv, h⟩ := h.split
    cases h with
    | cons hs' h =>
      obtain ⟨y, hy, hp⟩ := h1 _ _ hs'
      have hk := h.invariant (P := fun s => ∃ x', s.conn c = some x' ∧ T.pre x'.pc = false ∧ T.mine x' = T.mine y) (by
        rintro s l t ⟨z, z1, z2, z3⟩ hs
        obtain ⟨w, w1, w2, w3⟩ := T.keeps hs z1 z2
        exact ⟨w, w1, w2, w3.trans z3⟩) ⟨y, hy, hp, rfl⟩
      obtain ⟨x', k1, _, k3⟩ := hk
      rw [hx] at k1
      cases k1
      rw [k3, ← T.last hu, ← hsrv]
      refine (T.taken (hv.snoc hs') y hy hp hpre).imp id ?_
      rintro ⟨l, hm, hg⟩
      refine ⟨l, (List.mem_append.1 hm).resolve_right fun hm => ?_, hg⟩
      rw [List.mem_singleton.1 hm, hl] at hg
      cases hg

theorem accept_raw {c : Nat} {k : Kind} {r : Nat} {u t : State} (hs : Step u (.accept c k r) t) : (t.onStart = u.onStart ∧ t.onStop = u.onStop ∧ t.packet = u.packet) ∧ ∀ y, t.conn c = some y → y.pc = .raw := by
  cases hs
  refine ⟨⟨rfl, rfl, rfl⟩, fun y hy => ?_⟩
  rw [State.put_self] at hy
  cases hy
  rfl

theorem readStop_made {c : Nat} {u t : State} (hs : Step u (.readStop c) t) : t.hc = u.hc ∧ ∃ y, t.conn c = some y ∧ y.pc = .made := by
  cases hs
  exact ⟨rfl, _, State.put_self _ _ _, rfl⟩

theorem start_begun {c : Nat} {u t : State} (hs : Step u (.start c) t) : ∃ y, t.conn c = some y ∧ y.pc = .begun := by
  cases hs
  exact ⟨_, State.put_self _ _ _, rfl⟩

/-- Acceptance, then known to others, then started. -/
def InOrder (tr : List Label) (c : Nat) (p : Pc) : Prop :=
  ∃ a0 k r a1, tr = a0 ++ .accept c k r :: a1 ∧ (p.known = true → ∃ a2 a3, a1 = a2 ++ .readStop c :: a3 ∧ (p.started = true → ∃ a4 a5, a3 = a4 ++ .start c :: a5))

theorem InOrder.more {tr : List Label} {c : Nat} {p q : Pc} {l : Label} (h : InOrder tr c p) (h1 : q.known = true → p.known = true) (h2 : q.started = true → p.started = true) : InOrder (tr ++ [l]) c q := by
  obtain ⟨a0, k, r, a1, rfl, h⟩ := h
  refine ⟨a0, k, r, a1 ++ [l], by simp, fun hq => ?_⟩
  obtain ⟨a2, a3, rfl, h'⟩ := h (h1 hq)
  refine ⟨a2, a3 ++ [l], by simp, fun hq => ?_⟩
  obtain ⟨a4, a5, rfl⟩ := h' (h2 hq)
  exact ⟨a4, a5 ++ [l], by simp⟩

theorem inOrder {tr : List Label} {s : State} (h : Steps Step {} tr s) : ∀ c x, s.conn c = some x → InOrder tr c x.pc := by
  refine h.invariant_trace (P := fun tr s => ∀ c x, s.conn c = some x → InOrder tr c x.pc) ?_ (fun c x hx => by simp at hx)
  intro tr s l t hi hs i z hz
  have keep : ∀ {z}, s.conn i = some z → InOrder (tr ++ [l]) i z.pc := fun hz => (hi i _ hz).more id id
  cases hs with
  | setPacket | setStart | setStop | setHc | reqOver | stopPanic | take | pack | stop => exact keep hz
  | accept c k r hn =>
    rcases put_conn hz with ⟨rfl, rfl⟩ | ⟨_, hz⟩
    · exact ⟨tr, k, r, [], rfl, fun h => nomatch h⟩
    · exact keep hz
  | readStop c x hx hp =>
    rcases put_conn hz with ⟨rfl, rfl⟩ | ⟨_, hz⟩
    · obtain ⟨a0, k, r, a1, rfl, _⟩ := hi i x hx
      exact ⟨a0, k, r, a1 ++ [.readStop i], by simp, fun _ => ⟨a1, [], rfl, fun h => nomatch h⟩⟩
    · exact keep hz
  | start c x hx hp =>
    rcases put_conn hz with ⟨rfl, rfl⟩ | ⟨_, hz⟩
    · obtain ⟨a0, k, r, a1, rfl, h⟩ := hi i x hx
      obtain ⟨a2, a3, rfl, _⟩ := h (by rw [hp]; rfl)
      exact ⟨a0, k, r, a2 ++ .readStop i :: (a3 ++ [.start i]), by simp, fun _ => ⟨a2, a3 ++ [.start i], rfl, fun _ => ⟨a3, [], rfl⟩⟩⟩
    · exact keep hz
  | readPacket c x hx hp | readStart c x hx hp | bind c x hx hp | startHook c x hx hp | watch c x hx hp | stopHook c x hx hp | seesDone c x k hx hp =>
    rcases put_conn hz with ⟨rfl, rfl⟩ | ⟨_, hz⟩
    · exact (hi i x hx).more (by rw [hp]; exact id) (by rw [hp]; exact id)
    · exact keep hz

/-- What a known connection has taken over. -/
theorem taken_over {a : List Label} {s : State} (h : Steps Step {} a s) {c : Nat} {x : Conn} (hx : s.conn c = some x) (hk : x.pc.known = true) : ∃ a0 k r a1 a2, a = a0 ++ .accept c k r :: (a1 ++ .readStop c :: a2) ∧
    (x.onStart = setLast setsStart none a0 ∨ .setStart x.onStart ∈ a1) ∧ (x.onStop = setLast setsStop none a0 ∨ .setStop x.onStop ∈ a1) ∧ (x.packet = setLast setsPacket 0 a0 ∨ .setPacket x.packet ∈ a1) ∧
    (x.pc.started = true → ∃ a3 a4, a2 = a3 ++ .start c :: a4 ∧ (x.hc = setLast setsHc none (a0 ++ .accept c k r :: a1) ∨ .setHc x.hc ∈ a3)) := by
  obtain ⟨a0, k, r, a1', rfl, h1⟩ := inOrder h c x hx
  obtain ⟨a1, a2, rfl, h2⟩ := h1 hk
  refine ⟨a0, k, r, a1, a2, rfl, ?_, ?_, ?_, fun hs => ?_⟩
  · refine (takesStart.used h hx (fun u t hs => ⟨(accept_raw hs).1.1, fun y hy => by rw [(accept_raw hs).2 y hy]; rfl⟩) (fun u t hs => ?_) rfl).imp id ?_
    · obtain ⟨_, y, g1, g2⟩ := readStop_made hs
      exact ⟨y, g1, by rw [g2]; rfl⟩
    · rintro ⟨l, hl, hg⟩
      cases l <;> cases hg
      exact hl
  · refine (takesStop.used h hx (fun u t hs => ⟨(accept_raw hs).1.2.1, fun y hy => by rw [(accept_raw hs).2 y hy]; rfl⟩) (fun u t hs => ?_) rfl).imp id ?_
    · obtain ⟨_, y, g1, g2⟩ := readStop_made hs
      exact ⟨y, g1, by rw [g2]; rfl⟩
    · rintro ⟨l, hl, hg⟩
      cases l <;> cases hg
      exact hl
  · refine (takesPacket.used h hx (fun u t hs => ⟨(accept_raw hs).1.2.2, fun y hy => by rw [(accept_raw hs).2 y hy]; rfl⟩) (fun u t hs => ?_) rfl).imp id ?_
    · obtain ⟨_, y, g1, g2⟩ := readStop_made hs
      exact ⟨y, g1, by rw [g2]; rfl⟩
    · rintro ⟨l, hl, hg⟩
      cases l <;> cases hg
      exact hl
  · obtain ⟨a3, a4, rfl⟩ := h2 hs
    refine ⟨a3, a4, rfl, ?_⟩
    have h' : Steps Step {} ((a0 ++ .accept c k r :: a1) ++ .readStop c :: (a3 ++ .start c :: a4)) s := by simpa using h
    refine (takesHc.used h' hx (fun u t hs => ⟨(readStop_made hs).1, fun y hy => ?_⟩) (fun u t hs => ?_) rfl).imp id ?_
    · obtain ⟨_, z, g1, g2⟩ := readStop_made hs
      rw [hy] at g1
      cases g1
      rw [g2]
      rfl
    · obtain ⟨y, g1, g2⟩ := start_begun hs
      exact ⟨y, g1, by rw [g2]; rfl⟩
    · rintro ⟨l, hl, hg⟩
      cases l <;> cases hg
      exact hl

/-- **C143**: the start hook, the stop hook and the packing that are used for a connection are those that were set last when it was accepted or dialled, or were set before others could know it (`readStop`); its
heartbeat checker is the one that was set last when others could know it, or was set before it was started. What is set later makes no difference to it. -/
theorem C143_kept (a b : List Label) (s : State) (c : Nat) :
    (∀ f, Steps Step {} (a ++ .startHook c f :: b) s → ∃ a0 k r a1 a2, a = a0 ++ .accept c k r :: (a1 ++ .readStop c :: a2) ∧ (f = setLast setsStart none a0 ∨ .setStart f ∈ a1)) ∧
    (∀ f, Steps Step {} (a ++ .stopHook c f :: b) s → ∃ a0 k r a1 a2, a = a0 ++ .accept c k r :: (a1 ++ .readStop c :: a2) ∧ (f = setLast setsStop none a0 ∨ .setStop f ∈ a1)) ∧
    (∀ p, Steps Step {} (a ++ .pack c p :: b) s → ∃ a0 k r a1 a2, a = a0 ++ .accept c k r :: (a1 ++ .readStop c :: a2) ∧ (p = setLast setsPacket 0 a0 ∨ .setPacket p ∈ a1)) ∧
    (∀ h, Steps Step {} (a ++ .watch c h :: b) s → ∃ a0 a1 a2, a = a0 ++ .readStop c :: (a1 ++ .start c :: a2) ∧ (h = setLast setsHc none a0 ∨ .setHc h ∈ a1)) := by
  refine ⟨fun f h => ?_, fun f h => ?_, fun p h => ?_, fun w h => ?_⟩
  · obtain ⟨t, h1, h2⟩ := h.split
    cases h2 with
    | cons hs _ =>
      cases hs with
      | startHook _ x hx hp =>
        obtain ⟨a0, k, r, a1, a2, e, g1, g2, g3, g4⟩ := taken_over h1 hx (by first | exact hp | (rw [hp]; rfl))
        exact ⟨a0, k, r, a1, a2, e, g1⟩
  · obtain ⟨t, h1, h2⟩ := h.split
    cases h2 with
    | cons hs _ =>
      cases hs with
      | stopHook _ x hx hp =>
        obtain ⟨a0, k, r, a1, a2, e, g1, g2, g3, g4⟩ := taken_over h1 hx (by first | exact hp | (rw [hp]; rfl))
        exact ⟨a0, k, r, a1, a2, e, g2⟩
  · obtain ⟨t, h1, h2⟩ := h.split
    cases h2 with
    | cons hs _ =>
      cases hs with
      | pack _ x hx hp =>
        obtain ⟨a0, k, r, a1, a2, e, g1, g2, g3, g4⟩ := taken_over h1 hx (by first | exact hp | (rw [hp]; rfl))
        exact ⟨a0, k, r, a1, a2, e, g3⟩
  · obtain ⟨t, h1, h2⟩ := h.split
    cases h2 with
    | cons hs _ =>
      cases hs with
      | watch _ x hx hp =>
        obtain ⟨a0, k, r, a1, a2, e, g1, g2, g3, g4⟩ := taken_over h1 hx (by first | exact hp | (rw [hp]; rfl))
        obtain ⟨a3, a4, e', g⟩ := g4 (by rw [hp]; rfl)
        exact ⟨a0 ++ .accept c k r :: a1, a3, a4, by rw [e, e']; simp, g⟩

/-- **C143**, in particular: a hook set after the connection became known to others is not called for it, unless it was set before, too. -/
theorem C143_later (a b d : List Label) (s : State) (c : Nat) (f g : Option Nat) (h : Steps Step {} (a ++ .readStop c :: (b ++ .stopHook c f :: d)) s) (hg : .setStop g ∉ a) (hn : g ≠ none) : f ≠ g := by
  rintro rfl
  have h' : Steps Step {} ((a ++ .readStop c :: b) ++ .stopHook c f :: d) s := by simpa using h
  obtain ⟨t, h1, h2⟩ := h'.split
  cases h2 with
  | cons hs _ =>
    cases hs with
    | stopHook _ x hx hp =>
      have hx' := h1.split
      obtain ⟨u, hu, hr⟩ := hx'
      cases hr with
      | cons hs hr =>
        cases hs with
        | readStop _ y hy hpy =>
          have hk := hr.invariant (P := fun s => ∃ x', s.conn c = some x' ∧ takesStop.pre x'.pc = false ∧ x'.onStop = u.onStop) (by
            rintro s l t ⟨z, z1, z2, z3⟩ hs
            obtain ⟨w, w1, w2, w3⟩ := takesStop.keeps hs z1 z2
            exact ⟨w, w1, w2, w3.trans z3⟩) ⟨_, State.put_self _ _ _, rfl, rfl⟩
          obtain ⟨x', k1, _, k3⟩ := hk
          rw [hx] at k1
          cases k1
          have hl : u.onStop = setLast setsStop none a := takesStop.last hu
          rw [k3, hl] at hg hn
          unfold setLast at hg hn
          cases hq : (a.filterMap setsStop).getLast? with
          | none => rw [hq] at hn; exact hn rfl
          | some v =>
            rw [hq] at hg
            have hm := List.mem_of_getLast? hq
            obtain ⟨l, hl, hv⟩ := List.mem_filterMap.1 hm
            cases l <;> cases hv
            exact hg hl

/-- A connection of a WebSocket server while settings are changed: it keeps the hooks and the packing it was made with, has the heartbeat checker set before it was started, and its context is done after `Stop` only. -/
def keptRun : List Label := [.setStart (some 1), .setStop (some 2), .setPacket 3, .setHc (some 4), .accept 1 .ws 7, .readPacket 1, .readStart 1, .readStop 1, .setStop (some 9), .setHc (some 5), .bind 1, .start 1,
  .startHook 1 (some 1), .watch 1 (some 5), .setPacket 8, .pack 1 3, .take 1 (some (.withCancel (.withValue .background .httpReq 7) 1)), .reqOver 7, .stop 1, .seesDone 1, .stopHook 1 (some 2)]

example : ∃ s, Steps Step {} keptRun s := by
  refine goes (.setStart _ _) ?_
  refine goes (.setStop _ _) ?_
  refine goes (.setPacket _ _) ?_
  refine goes (.setHc _ _) ?_
  refine goes (.accept _ 1 _ 7 rfl) ?_
  refine goes (.readPacket _ 1 _ rfl rfl) ?_
  refine goes (.readStart _ 1 _ rfl rfl) ?_
  refine goes (.readStop _ 1 _ rfl rfl) ?_
  refine goes (.setStop _ _) ?_
  refine goes (.setHc _ _) ?_
  refine goes (.bind _ 1 _ rfl rfl) ?_
  refine goes (.start _ 1 _ rfl rfl) ?_
  refine goes (startHook_step _ 1 _ _ rfl rfl rfl) ?_
  refine goes (watch_step _ 1 _ _ rfl rfl rfl) ?_
  refine goes (.setPacket _ _) ?_
  refine goes (pack_step _ 1 _ _ rfl rfl rfl) ?_
  refine goes (take_step _ 1 _ _ rfl rfl rfl) ?_
  refine goes (.reqOver _ 7) ?_
  refine goes (.stop _ 1 _ rfl rfl) ?_
  refine goes (.seesDone _ 1 _ _ rfl rfl rfl rfl) ?_
  refine goes (stopHook_step _ 1 _ _ rfl rfl rfl) ?_
  exact ⟨_, .nil _⟩

/-- The hypotheses of `C142_partial`, `C142_value`, `C142_hook`, `C143_kept` and `C143_later` hold of it. -/
example : keptRun = keptRun.take 16 ++ .take 1 (some (.withCancel (.withValue .background .httpReq 7) 1)) :: keptRun.drop 17 ∧ .start 1 ∈ keptRun.take 16 ∧ .accept 1 .ws 7 ∈ keptRun.take 16 ∧
    keptRun = keptRun.take 7 ++ .readStop 1 :: ((keptRun.drop 8).take 12 ++ [.stopHook 1 (some 2)]) ∧ .setStop (some 9) ∉ keptRun.take 7 ∧ .setStop (some 9) ∈ keptRun := by decide +kernel

/-- **C142**, `Stop`: a call panics only between the moment others know the connection and `Start`; after `Start` it ends the context. -/
theorem C142_stop (a b : List Label) (c : Nat) (s : State) :
    (Steps Step {} (a ++ .stopPanic c :: b) s → .readStop c ∈ a ∧ .start c ∉ a) ∧ (Steps Step {} (a ++ .stop c :: b) s → .start c ∈ a) := by
  constructor
  · intro h
    obtain ⟨t, h1, h2⟩ := h.split
    cases h2 with
    | cons h2 _ =>
      cases h2 with
      | stopPanic _ x hx hk hp =>
        obtain ⟨r, _, _, g3, _, _⟩ := (ctxInv h1).conn c x hx
        obtain ⟨a0, k, r, a1, rfl, hi⟩ := inOrder h1 c x hx
        obtain ⟨a2, a3, rfl, _⟩ := hi hk
        exact ⟨by simp, fun h => by rw [g3.2 h] at hp; cases hp⟩
  · intro h
    obtain ⟨t, h1, h2⟩ := h.split
    cases h2 with
    | cons h2 _ =>
      cases h2 with
      | stop _ x hx hp =>
        obtain ⟨r, _, _, g3, _, _⟩ := (ctxInv h1).conn c x hx
        exact g3.1 hp

/-- Someone stops a connection that is not started. -/
example : ∃ s, Steps Step {} [.accept 1 .tcp 7, .readPacket 1, .readStart 1, .readStop 1, .stopPanic 1, .bind 1, .start 1, .stop 1] s := by
  refine goes (.accept _ 1 .tcp 7 rfl) ?_
  refine goes (.readPacket _ 1 _ (State.put_self _ _ _) rfl) ?_
  refine goes (.readStart _ 1 _ (State.put_self _ _ _) rfl) ?_
  refine goes (.readStop _ 1 _ (State.put_self _ _ _) rfl) ?_
  refine goes (.stopPanic _ 1 _ (State.put_self _ _ _) rfl rfl) ?_
  refine goes (.bind _ 1 _ (State.put_self _ _ _) rfl) ?_
  refine goes (.start _ 1 _ (State.put_self _ _ _) rfl) ?_
  refine goes (.stop _ 1 _ (State.put_self _ _ _) rfl) ?_
  exact ⟨_, .nil _⟩

end Zinx.Props
