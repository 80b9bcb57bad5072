import Verif.Model.ConnLife
import Verif.Lemmas.ExecOf

/-! # C35, C36: life of a connection -/

namespace Zinx.Props

open Zinx.ConnLife

variable {k : ConnLife.Kind} {stuck : Bool}

/-- What the history says about where `Start` is. -/
structure LifeInv (ls : List ConnLife.Label) (s : ConnLife.State) : Prop where
  ctx : s.ctxSet = false ↔ s.main = .new
  can : s.cancelled = true → s.main ≠ .new
  past : s.main = .stopHook ∨ s.main = .lock ∨ s.main = .close ∨ s.main = .remove ∨ s.main = .done ∨ s.main = .stopPanicked → s.cancelled = true
  rdr : s.reader = .none ↔ s.main = .new ∨ s.main = .startHook ∨ s.main = .spawn ∨ s.main = .startPanicked
  hook : s.main ≠ .new → s.main ≠ .startHook → s.main ≠ .startPanicked → .startHookDone ∈ ls
  cnt : ls.count .stopHookDone + ls.count .stopHookPanic =
    if s.main = .lock ∨ s.main = .close ∨ s.main = .remove ∨ s.main = .done ∨ s.main = .stopPanicked then 1 else 0
  scnt : ls.count .startHookDone + ls.count .startHookPanic = if s.main = .new ∨ s.main = .startHook then 0 else 1
  sock : s.sockClosed = true ↔ s.main = .remove ∨ s.main = .done
  mgr : s.inMgr = false ↔ s.main = .done
  panicked : .startHookPanic ∈ ls ↔ s.main = .startPanicked
  panicked2 : .stopHookPanic ∈ ls ↔ s.main = .stopPanicked

theorem lifeInv {ls : List ConnLife.Label} {t : ConnLife.State} (h : Steps (ConnLife.Step k stuck) {} ls t) : LifeInv ls t := by
  refine Steps.invariant_trace (P := LifeInv) ?_ h (by constructor <;> simp)
  intro ls s l t hi hs
  obtain ⟨i1, i2, i3, i4, i5, i6, i7, i8, i9, i10, i11⟩ := hi
  obtain ⟨_, hs⟩ := hs
  cases hs <;> (constructor <;> (simp [List.count_append] at * <;> grind))

/-- Every message is handled after the start hook has returned. -/
theorem C35_start_first (a b : List ConnLife.Label) (t : ConnLife.State) (h : Steps (ConnLife.Step k stuck) {} (a ++ .handle :: b) t) : Label.startHookDone ∈ a := by
  obtain ⟨s, h1, h2⟩ := h.split
  have hi := lifeInv h1
  cases h2 with
  | cons hs _ =>
    obtain ⟨_, hs⟩ := hs
    cases hs with
    | handle hr _ =>
      have := hi.rdr
      rw [hr] at this
      simp at this
      exact hi.hook this.1 this.2.1 this.2.2.2

/-- Each hook runs at most once; the socket is closed only after the stop hook has returned, and the connection leaves the manager only after that. -/
theorem C35_at_most_once (ls : List ConnLife.Label) (t : ConnLife.State) (h : Steps (ConnLife.Step k stuck) {} ls t) :
    ls.count .startHookDone + ls.count .startHookPanic ≤ 1 ∧ ls.count .stopHookDone + ls.count .stopHookPanic ≤ 1 ∧
      (t.sockClosed = true → ls.count .stopHookDone = 1) ∧ (t.inMgr = false → t.sockClosed = true) := by
  have hi := lifeInv h
  refine ⟨?_, ?_, ?_, ?_⟩
  · rw [hi.scnt]; split <;> omega
  · rw [hi.cnt]; split <;> omega
  · intro hc
    have hm := hi.sock.mp hc
    have h1 := hi.cnt
    rw [if_pos (by rcases hm with h | h <;> simp [h])] at h1
    have h2 : ls.count .stopHookPanic = 0 := by
      rw [List.count_eq_zero]
      intro hp
      have := hi.panicked2.mp hp
      rcases hm with h | h <;> rw [h] at this <;> cases this
    omega
  · intro hm
    exact hi.sock.mpr (.inr (hi.mgr.mp hm))

theorem life_cancelled_step {s t : ConnLife.State} {l : ConnLife.Label} (hs : ConnLife.Step k stuck s l t) (h : s.cancelled = true) : t.cancelled = true := by
  obtain ⟨_, hs⟩ := hs
  cases hs <;> first | exact h | rfl

/-- No hook panics, and with WebSocket nothing that handles a message does. -/
def calm (k : ConnLife.Kind) (l : ConnLife.Label) : Prop := l ≠ .startHookPanic ∧ l ≠ .stopHookPanic ∧ (k = .ws → l ≠ .handled true)

theorem life_calm_step {s t : ConnLife.State} {l : ConnLife.Label} (hs : ConnLife.Step k stuck s l t) (hl : calm k l) : t.crashed = false := by
  obtain ⟨hc, hs⟩ := hs
  obtain ⟨h1, h2, h3⟩ := hl
  cases hs <;> first | exact hc | (simp_all <;> grind)

/-- `Start` goes from one place to the next, when its hooks do not panic. -/
theorem life_next {s t : ConnLife.State} {l : ConnLife.Label} (hs : ConnLife.Step k stuck s l t) (hl : calm k l) :
    t.main = s.main ∧ l.isMain = false ∨ l.isMain = true ∧
      (s.main = .new ∧ t.main = .startHook ∨ s.main = .startHook ∧ t.main = .spawn ∨ s.main = .spawn ∧ t.main = .waiting ∨
        s.main = .waiting ∧ t.main = .stopHook ∨ s.main = .stopHook ∧ t.main = (if k = .tcp then .close else .lock) ∨
        s.main = .lock ∧ t.main = .close ∧ l = .lock ∨ s.main = .close ∧ t.main = .remove ∨ s.main = .remove ∧ t.main = .done) := by
  obtain ⟨_, hs⟩ := hs
  obtain ⟨h1, h2, h3⟩ := hl
  cases hs <;> simp_all [ConnLife.Label.isMain]

/-- One place of `Start` leads to the next. -/
theorem life_rule {e : Exec (ConnLife.Step k stuck)} (hf : e.WeakFair (·.isMain = true)) (hcalm : ∀ n l, e.act n = some l → calm k l) {p q : MainPc}
    (hen : ∀ s : ConnLife.State, s.main = p → s.cancelled = true → s.crashed = false → Enabled (ConnLife.Step k stuck) (·.isMain = true) s)
    (hst : ∀ s l t, s.main = p → ConnLife.Step k stuck s l t → calm k l → t.main = p ∧ l.isMain = false ∨ t.main = q) {m : Nat}
    (hc : (e.run m).cancelled = true) (hr : (e.run m).crashed = false) (h : (e.run m).main = p) : ∃ m', m ≤ m' ∧ (e.run m').main = q := by
  apply Classical.byContradiction
  intro hno
  have hP : ∀ k, m ≤ k → (e.run k).main = p ∧ (e.run k).cancelled = true ∧ (e.run k).crashed = false := by
    intro k hk
    induction k with
    | zero =>
      have : m = 0 := by omega
      subst this; exact ⟨h, hc, hr⟩
    | succ k ih =>
      by_cases e1 : m = k + 1
      · subst e1; exact ⟨h, hc, hr⟩
      · have hp := ih (by omega)
        have hn := e.next k
        cases ha : e.act k with
        | none => rw [ha] at hn; rw [hn]; exact hp
        | some l =>
          rw [ha] at hn
          rcases hst _ l _ hp.1 hn (hcalm k l ha) with h2 | h2
          · exact ⟨h2.1, life_cancelled_step hn hp.2.1, life_calm_step hn (hcalm k l ha)⟩
          · exact absurd ⟨k + 1, hk, h2⟩ hno
  obtain ⟨k, l, hk, ha, hl⟩ := hf m (fun k hk => hen _ (hP k hk).1 (hP k hk).2.1 (hP k hk).2.2)
  have hn := e.next k
  rw [ha] at hn
  rcases hst _ l _ (hP k hk).1 hn (hcalm k l ha) with h2 | h2
  · rw [h2.2] at hl; cases hl
  · exact hno ⟨k + 1, by omega, h2⟩

/-- Along a calm execution nothing crashes. -/
theorem life_no_crash {e : Exec (ConnLife.Step k stuck)} (h0 : e.run 0 = {}) (hcalm : ∀ n l, e.act n = some l → calm k l) (n : Nat) :
    (e.run n).crashed = false := by
  induction n with
  | zero => rw [h0]
  | succ n ih =>
    have hn := e.next n
    cases ha : e.act n with
    | none => rw [ha] at hn; rw [hn]; exact ih
    | some l => rw [ha] at hn; exact life_calm_step hn (hcalm n l ha)

/-- A reader that ends stops the connection. -/
theorem reader_stops {e : Exec (ConnLife.Step k stuck)} (hf : e.WeakFair (·.isReader = true)) (hcr : ∀ n, (e.run n).crashed = false) {n : Nat}
    (h : (e.run n).reader = .stopping) (h' : (e.run n).main ≠ .new ∧ (e.run n).main ≠ .startHook ∧ (e.run n).main ≠ .spawn) :
    ∃ m, n ≤ m ∧ (e.run m).cancelled = true := by
  obtain ⟨m, hm, h1⟩ := e.leads_weak hf
    (P := fun s => s.reader = .stopping ∧ (s.main ≠ .new ∧ s.main ≠ .startHook ∧ s.main ≠ .spawn) ∧ s.crashed = false)
    (Q := fun s => s.cancelled = true ∨ s.crashed = true) (by
      intro s l t hp hs
      obtain ⟨_, hs⟩ := hs
      cases hs <;> simp_all <;> grind) (by
      intro s l t hp hs hl
      obtain ⟨_, hs⟩ := hs
      cases hs <;> simp_all [ConnLife.Label.isReader]) (by
      intro s hp
      exact ⟨.readerStop, _, rfl, .run hp.2.2 (.readerStop s hp.1)⟩) ⟨h, h', hcr n⟩
  rcases h1 with h1 | h1
  · exact ⟨m, hm, h1⟩
  · rw [hcr m] at h1; cases h1

/-- The finalizer of a WebSocket or KCP connection gets the lock, if writes return. -/
theorem life_lock {e : Exec (ConnLife.Step k false)} (hcr : ∀ n, (e.run n).crashed = false) (hlock : e.StrongFair (· = .lock))
    (hun : e.WeakFair (· = .sendUnlock)) {m : Nat} (h : (e.run m).main = .lock) : ∃ m', m ≤ m' ∧ (e.run m').main = .close := by
  refine e.leads_strong hlock (P := fun s => s.main = .lock) (Q := fun s => s.main = .close) (by
      intro s l t hp hs
      obtain ⟨_, hs⟩ := hs
      cases hs <;> simp_all) (by
      intro s l t hp hs hl
      obtain ⟨_, hs⟩ := hs
      cases hs <;> simp_all) ?_ h
  intro n hn
  have free : ∃ m', n ≤ m' ∧ ((e.run m').holders = 0 ∨ (e.run m').crashed = true ∨ (e.run m').main = .close) := by
    by_cases h0 : (e.run n).holders = 0
    · exact ⟨n, Nat.le_refl _, .inl h0⟩
    · refine e.leads_weak_dec hun (P := fun s => s.main = .lock ∧ 0 < s.holders ∧ s.crashed = false)
        (Q := fun s => s.holders = 0 ∨ s.crashed = true ∨ s.main = .close) (fun s => s.holders) ?_ ?_ ?_ ⟨hn n (Nat.le_refl _), by omega, hcr n⟩
      · intro s l t hp hs
        obtain ⟨_, hs⟩ := hs
        obtain ⟨h1, h2, h3⟩ := hp
        cases hs <;> simp_all <;> grind
      · intro s l t hp hs hl
        obtain ⟨_, hs⟩ := hs
        obtain ⟨h1, h2, h3⟩ := hp
        cases hs <;> simp_all <;> omega
      · intro s hp
        exact ⟨_, _, rfl, .run hp.2.2 (.sendUnlock s hp.2.1 (.inl rfl))⟩
  obtain ⟨m', hm', h1⟩ := free
  refine ⟨m', hm', ?_⟩
  rcases h1 with h1 | h1 | h1
  · exact ⟨_, _, rfl, .run (hcr m') (.lock _ (hn m' hm') h1)⟩
  · rw [hcr m'] at h1; cases h1
  · rw [hn m' hm'] at h1; cases h1

/-- If the hooks do not panic (nor, with WebSocket, the handling of a message) and, except with TCP, writes return: once the connection has ended (stopped by anyone, or its reader has
failed), in every fair execution the stop hook runs exactly once, the socket gets closed and the connection leaves the manager, and it stays so. -/
theorem C35_partial (e : Exec (ConnLife.Step k stuck)) (h0 : e.run 0 = {}) (hw : k = .tcp ∨ stuck = false) (hmain : e.WeakFair (·.isMain = true))
    (hrdr : e.WeakFair (·.isReader = true)) (hlock : k ≠ .tcp → e.StrongFair (· = .lock) ∧ e.WeakFair (· = .sendUnlock))
    (hcalm : ∀ n l, e.act n = some l → calm k l) (n : Nat)
    (hend : (e.run n).cancelled = true ∨ (e.run n).reader = .stopping) :
    ∃ m, n ≤ m ∧ ∀ k, m ≤ k → (e.trace k).count .stopHookDone = 1 ∧ (e.run k).sockClosed = true ∧ (e.run k).inMgr = false := by
  have hinv : ∀ k, LifeInv (e.trace k) (e.run k) := fun k => lifeInv (by rw [← h0]; exact e.steps k)
  have hcr := life_no_crash h0 hcalm
  have hcan : ∃ m, n ≤ m ∧ (e.run m).cancelled = true := by
    rcases hend with h | h
    · exact ⟨n, Nat.le_refl _, h⟩
    · have := (hinv n).rdr
      rw [h] at this
      simp at this
      exact reader_stops hrdr hcr h ⟨this.1, this.2.1, this.2.2.1⟩
  obtain ⟨n1, hn1, hc1⟩ := hcan
  have hc : ∀ k, n1 ≤ k → (e.run k).cancelled = true := e.invariant (P := fun s => s.cancelled = true) (fun s l t hp hs => life_cancelled_step hs hp) hc1
  have step : ∀ {p q : MainPc}, (∀ s : ConnLife.State, s.main = p → s.cancelled = true → s.crashed = false →
        Enabled (ConnLife.Step k stuck) (·.isMain = true) s) →
      (∀ s l t, s.main = p → ConnLife.Step k stuck s l t → calm k l → t.main = p ∧ l.isMain = false ∨ t.main = q) →
      (∀ m, n1 ≤ m → (e.run m).main = q → ∃ m', m ≤ m' ∧ (e.run m').main = .done) →
      ∀ m, n1 ≤ m → (e.run m).main = p → ∃ m', m ≤ m' ∧ (e.run m').main = .done := by
    intro p q hen hst hq m hm h
    obtain ⟨m1, hm1, h1⟩ := life_rule hmain hcalm hen hst (hc m hm) (hcr m) h
    obtain ⟨m2, hm2, h2⟩ := hq m1 (by omega) h1
    exact ⟨m2, by omega, h2⟩
  have go : ∀ {p q : MainPc} (s : ConnLife.State) (l : ConnLife.Label) (t : ConnLife.State), s.main = p → ConnLife.Step k stuck s l t → calm k l →
      (p = .new ∧ q = .startHook ∨ p = .startHook ∧ q = .spawn ∨ p = .spawn ∧ q = .waiting ∨ p = .waiting ∧ q = .stopHook ∨
        p = .stopHook ∧ q = (if k = .tcp then .close else .lock) ∨ p = .close ∧ q = .remove ∨ p = .remove ∧ q = .done) →
      t.main = p ∧ l.isMain = false ∨ t.main = q := by
    intro p q s l t hp hs hl hpq
    subst hp
    rcases life_next hs hl with h | ⟨_, h⟩
    · exact .inl h
    · right
      rcases h with h | h | h | h | h | h | h | h <;> rcases hpq with g | g | g | g | g | g | g <;>
        first | exact h.2.trans g.2.symm | (exfalso; have := h.1.symm.trans g.1; cases this)
  have pd : ∀ m, n1 ≤ m → (e.run m).main = .done → ∃ m', m ≤ m' ∧ (e.run m').main = .done := fun m _ h => ⟨m, Nat.le_refl _, h⟩
  have p7 := step (fun s h _ hr => ⟨_, _, rfl, .run hr (.remove s h)⟩) (fun s l t h hs hl => go s l t h hs hl (by simp)) pd
  have p6 := step (fun s h _ hr => ⟨_, _, rfl, .run hr (.close s h)⟩) (fun s l t h hs hl => go s l t h hs hl (by simp)) p7
  have p5' : ∀ m, n1 ≤ m → (e.run m).main = .lock → ∃ m', m ≤ m' ∧ (e.run m').main = .done := by
    intro m hm h
    have hk : k ≠ .tcp := by
      rintro rfl
      have : ∀ m, (e.run m).main ≠ .lock := by
        intro m
        refine e.invariant (P := fun s => s.main ≠ .lock) ?_ (n := 0) (by rw [h0]; nofun) m (Nat.zero_le _)
        intro s l t hp hs
        obtain ⟨_, hs⟩ := hs
        cases hs <;> simp_all
      exact this m h
    have hst : stuck = false := by
      rcases hw with h | h
      · exact absurd h hk
      · exact h
    subst hst
    obtain ⟨m1, hm1, h1⟩ := life_lock hcr (hlock hk).1 (hlock hk).2 h
    obtain ⟨m2, hm2, h2⟩ := p6 m1 (by omega) h1
    exact ⟨m2, by omega, h2⟩
  have p5 := step (p := .stopHook) (q := if k = .tcp then .close else .lock) (fun s h _ hr => ⟨_, _, rfl, .run hr (.stopHookDone s h)⟩) (fun s l t h hs hl => go s l t h hs hl (by simp)) (by
    intro m hm h
    by_cases hk : k = .tcp
    · rw [if_pos hk] at h; exact p6 m hm h
    · rw [if_neg hk] at h; exact p5' m hm h)
  have p4 := step (fun s h hc hr => ⟨_, _, rfl, .run hr (.ctxDone s h hc)⟩) (fun s l t h hs hl => go s l t h hs hl (by simp)) p5
  have p3 := step (fun s h _ hr => ⟨_, _, rfl, .run hr (.spawnReader s h)⟩) (fun s l t h hs hl => go s l t h hs hl (by simp)) p4
  have p2 := step (fun s h _ hr => ⟨_, _, rfl, .run hr (.startHookDone s h)⟩) (fun s l t h hs hl => go s l t h hs hl (by simp)) p3
  have p1 := step (fun s h _ hr => ⟨_, _, rfl, .run hr (.begin s h)⟩) (fun s l t h hs hl => go s l t h hs hl (by simp)) p2
  have hdone : ∃ m', n1 ≤ m' ∧ (e.run m').main = .done := by
    cases h : (e.run n1).main with
    | new => exact p1 n1 (Nat.le_refl _) h
    | startHook => exact p2 n1 (Nat.le_refl _) h
    | spawn => exact p3 n1 (Nat.le_refl _) h
    | waiting => exact p4 n1 (Nat.le_refl _) h
    | stopHook => exact p5 n1 (Nat.le_refl _) h
    | lock => exact p5' n1 (Nat.le_refl _) h
    | close => exact p6 n1 (Nat.le_refl _) h
    | remove => exact p7 n1 (Nat.le_refl _) h
    | done => exact pd n1 (Nat.le_refl _) h
    | startPanicked =>
      obtain ⟨m, _, hm⟩ := e.mem_trace ((hinv n1).panicked.mpr h)
      exact absurd rfl (hcalm m _ hm).1
    | stopPanicked =>
      obtain ⟨m, _, hm⟩ := e.mem_trace ((hinv n1).panicked2.mpr h)
      exact absurd rfl (hcalm m _ hm).2.1
  obtain ⟨m, hm, hd⟩ := hdone
  refine ⟨m, by omega, ?_⟩
  intro k hk
  have hdk : (e.run k).main = .done := by
    refine e.invariant (P := fun s => s.main = .done) ?_ hd k hk
    intro s l t hp hs
    obtain ⟨_, hs⟩ := hs
    cases hs <;> simp_all
  have hi := hinv k
  have hs : (e.run k).sockClosed = true := hi.sock.mpr (.inr hdk)
  exact ⟨(C35_at_most_once (e.trace k) (e.run k) (by rw [← h0]; exact e.steps k)).2.2.1 hs, hs, hi.mgr.mpr hdk⟩

/-- Not true without these assumptions. If the start hook panics, or the stop hook does, then the socket of a stopped connection is never closed and the connection never leaves the
manager (TCP, KCP). With WebSocket a panic in a hook or in the handling of a message ends the process. With WebSocket and KCP, a send to a peer that does not read keeps the socket from
being closed for ever. -/
theorem C35_refuted :
    (∀ k, ∃ s, Reaches (ConnLife.Step k false) {} s ∧ (k ≠ .ws → s.cancelled = true) ∧ s.main = .startPanicked ∧ s.crashed = (k == .ws) ∧
      ∀ t, Reaches (ConnLife.Step k false) s t → t.sockClosed = false ∧ t.inMgr = true) ∧
    (∀ k, ∃ s, Reaches (ConnLife.Step k false) {} s ∧ s.cancelled = true ∧ s.main = .stopPanicked ∧ s.crashed = (k == .ws) ∧
      ∀ t, Reaches (ConnLife.Step k false) s t → t.sockClosed = false ∧ t.inMgr = true) ∧
    (∃ s, Reaches (ConnLife.Step .ws false) {} s ∧ s.main = .waiting ∧ s.crashed = true) ∧
    ∀ k, k ≠ .tcp → ∃ s, Reaches (ConnLife.Step k true) {} s ∧ s.cancelled = true ∧
      ∀ t, Reaches (ConnLife.Step k true) s t → t.sockClosed = false ∧ t.inMgr = true := by
  have h1 : ∀ k s, s.main = .startPanicked → s.sockClosed = false → s.inMgr = true → ∀ t, Reaches (ConnLife.Step k false) s t → t.sockClosed = false ∧ t.inMgr = true := by
    rintro k s a b c t ⟨ls, h⟩
    have := h.invariant (P := fun t => t.main = .startPanicked ∧ t.sockClosed = false ∧ t.inMgr = true) (by
      intro s l t hp hs
      obtain ⟨h1, h2, h3⟩ := hp
      obtain ⟨_, hs⟩ := hs
      cases hs <;> simp_all) ⟨a, b, c⟩
    exact this.2
  have h2 : ∀ k s, s.main = .stopPanicked → s.sockClosed = false → s.inMgr = true → ∀ t, Reaches (ConnLife.Step k false) s t → t.sockClosed = false ∧ t.inMgr = true := by
    rintro k s a b c t ⟨ls, h⟩
    have := h.invariant (P := fun t => t.main = .stopPanicked ∧ t.sockClosed = false ∧ t.inMgr = true) (by
      intro s l t hp hs
      obtain ⟨h1, h2, h3⟩ := hp
      obtain ⟨_, hs⟩ := hs
      cases hs <;> simp_all) ⟨a, b, c⟩
    exact this.2
  refine ⟨fun k => ?_, fun k => ?_, ?_, fun k hk => ?_⟩
  · cases hw : (k == ConnLife.Kind.ws) with
    | true =>
      refine ⟨{ main := .startPanicked, ctxSet := true, crashed := true }, ⟨[.begin, .startHookPanic],
        .cons (.run rfl (.begin _ rfl)) (.cons (.run rfl (hw ▸ .startHookPanic _ rfl)) (.nil _))⟩, fun h => absurd (by simpa using hw) h, rfl, rfl, h1 k _ rfl rfl rfl⟩
    | false =>
      exact ⟨{ main := .startPanicked, ctxSet := true, cancelled := true }, ⟨[.begin, .startHookPanic, .stop],
        .cons (.run rfl (.begin _ rfl)) (.cons (.run rfl (.startHookPanic _ rfl)) (.cons (.run hw (hw ▸ .stop _ rfl)) (.nil _)))⟩, fun _ => rfl, rfl, rfl, h1 k _ rfl rfl rfl⟩
  · exact ⟨{ main := .stopPanicked, ctxSet := true, cancelled := true, reader := .loop, crashed := k == .ws },
      ⟨[.begin, .startHookDone, .spawnReader, .stop, .ctxDone, .stopHookPanic],
      .cons (.run rfl (.begin _ rfl)) (.cons (.run rfl (.startHookDone _ rfl)) (.cons (.run rfl (.spawnReader _ rfl)) (.cons (.run rfl (.stop _ rfl))
        (.cons (.run rfl (.ctxDone _ rfl rfl)) (.cons (.run rfl (.stopHookPanic _ rfl)) (.nil _))))))⟩, rfl, rfl, rfl, h2 k _ rfl rfl rfl⟩
  · exact ⟨{ main := .waiting, ctxSet := true, reader := .stopping, crashed := true }, ⟨[.begin, .startHookDone, .spawnReader, .handle, .handled true],
      .cons (.run rfl (.begin _ rfl)) (.cons (.run rfl (.startHookDone _ rfl)) (.cons (.run rfl (.spawnReader _ rfl)) (.cons (.run rfl (.handle _ rfl rfl))
        (.cons (.run rfl (.handled _ true rfl)) (.nil _)))))⟩, rfl, rfl⟩
  · have hl : (if k = ConnLife.Kind.tcp then MainPc.close else .lock) = .lock := if_neg hk
    have hk2 : k = .ws ∨ k = .kcp := by cases k <;> simp_all
    refine ⟨{ main := .lock, ctxSet := true, cancelled := true, reader := .loop, holders := 1 },
      ⟨[.begin, .startHookDone, .spawnReader, .sendLock, .stop, .ctxDone, .stopHookDone],
      .cons (.run rfl (.begin _ rfl)) (.cons (.run rfl (.startHookDone _ rfl)) (.cons (.run rfl (.spawnReader _ rfl))
        (.cons (.run rfl (.sendLock _ (hk2.imp (fun h => ⟨h, rfl⟩) (fun h => ⟨h, nofun⟩)) nofun nofun)) (.cons (.run rfl (.stop _ rfl))
        (.cons (.run rfl (.ctxDone _ rfl rfl)) (.cons (.run rfl (hl ▸ .stopHookDone _ rfl)) (.nil _)))))))⟩, rfl, ?_⟩
    rintro t ⟨ls, h⟩
    have := h.invariant (P := fun t => t.main = .lock ∧ 0 < t.holders ∧ t.sockClosed = false ∧ t.inMgr = true) (by
      intro s l t hp hs
      obtain ⟨h1, h2, h3, h4⟩ := hp
      obtain ⟨_, hs⟩ := hs
      cases hs <;> simp_all) ⟨rfl, by decide, rfl, rfl⟩
    exact this.2.2

/-- A connection is in the manager before it is started; a `Stop` then (`ClearConn`, for instance) panics. -/
theorem C36_refuted : ∀ k stuck, ∃ s, Reaches (ConnLife.Step k stuck) {} s ∧ s.inMgr = true ∧ ∃ t, ConnLife.Step k stuck s .stopPanic t :=
  fun _ _ => ⟨{}, ⟨[], .nil _⟩, rfl, _, .run rfl (.stopPanic _ rfl)⟩

/-- Once `Start` has made the context, `Stop` never panics, is always possible (unless the process has crashed), and after the first call further ones change nothing; in any case the stop hook runs at most once
(`C35_at_most_once`). -/
theorem C36_partial (ls : List ConnLife.Label) (s : ConnLife.State) (h : Steps (ConnLife.Step k stuck) {} ls s) (hb : Label.begin ∈ ls) :
    (∀ t, ¬ ConnLife.Step k stuck s .stopPanic t) ∧ (s.crashed = false → ∃ t, ConnLife.Step k stuck s .stop t) ∧
    ∀ t, ConnLife.Step k stuck s .stop t → t.cancelled = true ∧ ∀ u, ConnLife.Step k stuck t .stop u → u = t := by
  have hctx : s.ctxSet = true := by
    have : Label.begin ∈ ls → s.ctxSet = true := by
      refine Steps.invariant_trace (P := fun ls s => Label.begin ∈ ls → s.ctxSet = true) ?_ h nofun
      intro ls s l t hi hs hm
      rw [List.mem_append, List.mem_singleton] at hm
      rcases hm with hm | hm
      · have := hi hm
        obtain ⟨_, hs⟩ := hs
        cases hs <;> first | exact this | rfl
      · subst hm; obtain ⟨_, hs⟩ := hs; cases hs; rfl
    exact this hb
  refine ⟨?_, fun hr => ⟨_, .run hr (.stop s hctx)⟩, ?_⟩
  · rintro t ⟨_, ht⟩
    cases ht with
    | stopPanic h => rw [hctx] at h; cases h
  · rintro t ⟨_, ht⟩
    cases ht with
    | stop _ =>
      refine ⟨rfl, ?_⟩
      rintro u ⟨_, hu⟩
      cases hu with
      | stop _ => rfl

/-- An execution from creation to removal, with one message, two calls of `Stop` and, except with TCP, a send under way when the finalizer asks for the lock. -/
theorem life_example (k : ConnLife.Kind) : ∃ ls t, Steps (ConnLife.Step k false) {} ls t ∧ ls.take 6 = [.begin, .startHookDone, .spawnReader, .handle, .stop, .stop] ∧
    (∀ l ∈ ls, calm k l) ∧ t = { main := .done, ctxSet := true, reader := .exited, cancelled := true, sockClosed := true, inMgr := false } := by
  cases k with
  | tcp =>
    exact ⟨[.begin, .startHookDone, .spawnReader, .handle, .stop, .stop, .ctxDone, .stopHookDone, .close, .remove, .handled false, .readerSeesDone, .readerStop], _,
      .cons (.run rfl (.begin _ rfl)) (.cons (.run rfl (.startHookDone _ rfl)) (.cons (.run rfl (.spawnReader _ rfl)) (.cons (.run rfl (.handle _ rfl rfl))
      (.cons (.run rfl (.stop _ rfl)) (.cons (.run rfl (.stop _ rfl)) (.cons (.run rfl (.ctxDone _ rfl rfl)) (.cons (.run rfl (.stopHookDone _ rfl))
      (.cons (.run rfl (.close _ rfl)) (.cons (.run rfl (.remove _ rfl)) (.cons (.run rfl (.handled _ false rfl)) (.cons (.run rfl (.readerSeesDone _ rfl rfl))
      (.cons (.run rfl (.readerStop _ rfl)) (.nil _))))))))))))), rfl, by simp [calm], rfl⟩
  | ws =>
    exact ⟨[.begin, .startHookDone, .spawnReader, .handle, .stop, .stop, .ctxDone, .sendLock, .stopHookDone, .sendUnlock, .lock, .close, .remove, .handled false, .readerSeesDone,
      .readerStop], _, .cons (.run rfl (.begin _ rfl)) (.cons (.run rfl (.startHookDone _ rfl)) (.cons (.run rfl (.spawnReader _ rfl)) (.cons (.run rfl (.handle _ rfl rfl))
      (.cons (.run rfl (.stop _ rfl)) (.cons (.run rfl (.stop _ rfl)) (.cons (.run rfl (.ctxDone _ rfl rfl))
      (.cons (.run rfl (.sendLock _ (.inl ⟨rfl, rfl⟩) nofun nofun))
      (.cons (.run rfl (.stopHookDone _ rfl)) (.cons (.run rfl (.sendUnlock _ (by decide) (.inl rfl))) (.cons (.run rfl (.lock _ rfl rfl))
      (.cons (.run rfl (.close _ rfl)) (.cons (.run rfl (.remove _ rfl)) (.cons (.run rfl (.handled _ false rfl)) (.cons (.run rfl (.readerSeesDone _ rfl rfl))
      (.cons (.run rfl (.readerStop _ rfl)) (.nil _)))))))))))))))), rfl, by simp [calm], rfl⟩
  | kcp =>
    exact ⟨[.begin, .startHookDone, .spawnReader, .handle, .stop, .stop, .ctxDone, .sendLock, .stopHookDone, .sendUnlock, .lock, .close, .remove, .handled false, .readerSeesDone,
      .readerStop], _, .cons (.run rfl (.begin _ rfl)) (.cons (.run rfl (.startHookDone _ rfl)) (.cons (.run rfl (.spawnReader _ rfl)) (.cons (.run rfl (.handle _ rfl rfl))
      (.cons (.run rfl (.stop _ rfl)) (.cons (.run rfl (.stop _ rfl)) (.cons (.run rfl (.ctxDone _ rfl rfl))
      (.cons (.run rfl (.sendLock _ (.inr ⟨rfl, nofun⟩) nofun nofun))
      (.cons (.run rfl (.stopHookDone _ rfl)) (.cons (.run rfl (.sendUnlock _ (by decide) (.inl rfl))) (.cons (.run rfl (.lock _ rfl rfl))
      (.cons (.run rfl (.close _ rfl)) (.cons (.run rfl (.remove _ rfl)) (.cons (.run rfl (.handled _ false rfl)) (.cons (.run rfl (.readerSeesDone _ rfl rfl))
      (.cons (.run rfl (.readerStop _ rfl)) (.nil _)))))))))))))))), rfl, by simp [calm], rfl⟩

/-- It meets the conditions of `C35_partial` and `C36_partial`. -/
example (k : ConnLife.Kind) : ∃ e : Exec (ConnLife.Step k false), e.run 0 = {} ∧ e.WeakFair (·.isMain = true) ∧ e.WeakFair (·.isReader = true) ∧
    (k ≠ .tcp → e.StrongFair (· = .lock) ∧ e.WeakFair (· = .sendUnlock)) ∧ (∀ n l, e.act n = some l → calm k l) ∧ Label.begin ∈ e.trace 6 ∧
    ∃ n, (e.run n).cancelled = true := by
  obtain ⟨ls, t, h, hp, hc, rfl⟩ := life_example k
  obtain ⟨e, h1, h2, h3, h4⟩ := Exec.ofSteps h
  have hE : ∀ A : ConnLife.Label → Prop, ¬ A .stop → ¬ A .sendLock →
      ¬ Enabled (ConnLife.Step k false) A { main := .done, ctxSet := true, reader := .exited, cancelled := true, sockClosed := true, inMgr := false } := by
    rintro A a1 a2 ⟨l, t, hl, ⟨_, hs⟩⟩
    cases hs <;> first | exact a1 hl | exact a2 hl | simp_all
  refine ⟨e, h1, Exec.weakFair_of_end h4 (hE _ nofun nofun), Exec.weakFair_of_end h4 (hE _ nofun nofun),
    fun _ => ⟨Exec.strongFair_of_end h4 (hE _ nofun nofun), Exec.weakFair_of_end h4 (hE _ nofun nofun)⟩, ?_, ?_, _, by rw [h4 _ (Nat.le_refl _)]⟩
  · intro n l hn
    rw [h2] at hn
    exact hc l (List.mem_of_getElem? hn)
  · rw [h3, hp]; decide

end Zinx.Props
