import Verif.Model.Client
import Verif.Lemmas.ExecOf

/-! C75: starting and stopping a client. -/

namespace Zinx.Props

open Client (Label GPc CPc UPc)

/-! ## What goes wrong -/

/-- `Stop` after a failed dial does not return, though the error has been received: nobody is left to receive from the exit channel. -/
theorem C75_failed_refuted : ∃ t, Steps Client.Step {} [.restart, .dialFail 0, .errRecv 0, .stop] t ∧ ∀ ls u, Steps Client.Step t ls u → .ret ∉ ls ∧ u.u ≠ .idle := by
  have key : ∀ s l t, (s.n = 1 ∧ s.g 0 = .gaveUp ∧ (∀ k, k ≠ 0 → s.g k = .none) ∧ s.exit = some 0 ∧ (s.u = .conn ∨ s.u = .eval ∨ s.u = .send (some 0) ∨ s.u = .crashed)) → Client.Step s l t →
      (t.n = 1 ∧ t.g 0 = .gaveUp ∧ (∀ k, k ≠ 0 → t.g k = .none) ∧ t.exit = some 0 ∧ (t.u = .conn ∨ t.u = .eval ∨ t.u = .send (some 0) ∨ t.u = .crashed)) ∧ l ≠ .ret := by
    rintro s l t ⟨h1, h2, h3, h4, h5⟩ hs
    cases hs <;> simp [Client.set] at * <;> grind
  have h0 : ∀ (ls : List Label) (s u : Client.State), (s.n = 1 ∧ s.g 0 = .gaveUp ∧ (∀ k, k ≠ 0 → s.g k = .none) ∧ s.exit = some 0 ∧ (s.u = .conn ∨ s.u = .eval ∨ s.u = .send (some 0) ∨ s.u = .crashed)) →
      Steps Client.Step s ls u → .ret ∉ ls ∧ u.u ≠ .idle := by
    intro ls s u hp h
    induction h with
    | nil => exact ⟨nofun, fun e => by rcases hp.2.2.2.2 with h | h | h | h <;> rw [h] at e <;> cases e⟩
    | cons hs _ ih =>
      obtain ⟨a, b⟩ := key _ _ _ hp hs
      obtain ⟨c, d⟩ := ih a
      exact ⟨fun hm => (List.mem_cons.1 hm).elim (fun e => b e.symm) c, d⟩
  exact ⟨_, .cons (.restart _ rfl) (.cons (.dialFail _ 0 rfl) (.cons (.errRecv _ 0 rfl rfl) (.cons (.stop _ rfl) (.nil _)))), fun ls u h => h0 ls _ u
    ⟨rfl, rfl, fun k hk => by simp [Client.set, hk], rfl, .inl rfl⟩ h⟩

/-- `Stop` of a client that was never started does not return. -/
theorem C75_unstarted_refuted : ∃ t, Steps Client.Step {} [.stop] t ∧ ∀ ls u, Steps Client.Step t ls u → .ret ∉ ls ∧ u.u ≠ .idle := by
  have key : ∀ s l t, (s.exit = none ∧ (s.u = .conn ∨ s.u = .eval ∨ s.u = .send none) ∧ ∀ k, s.g k = .none) ∧ s.conn = none → Client.Step s l t →
      ((t.exit = none ∧ (t.u = .conn ∨ t.u = .eval ∨ t.u = .send none) ∧ ∀ k, t.g k = .none) ∧ t.conn = none) ∧ l ≠ .ret := by
    rintro s l t ⟨⟨h1, h2, h3⟩, h4⟩ hs
    cases hs <;> simp [Client.set] at * <;> grind
  have h0 : ∀ (ls : List Label) (s u : Client.State), (s.exit = none ∧ (s.u = .conn ∨ s.u = .eval ∨ s.u = .send none) ∧ ∀ k, s.g k = .none) ∧ s.conn = none →
      Steps Client.Step s ls u → .ret ∉ ls ∧ u.u ≠ .idle := by
    intro ls s u hp h
    induction h with
    | nil => exact ⟨nofun, fun e => by rcases hp.1.2.1 with h | h | h <;> rw [h] at e <;> cases e⟩
    | cons hs _ ih =>
      obtain ⟨a, b⟩ := key _ _ _ hp hs
      obtain ⟨c, d⟩ := ih a
      exact ⟨fun hm => (List.mem_cons.1 hm).elim (fun e => b e.symm) c, d⟩
  exact ⟨_, .cons (.stop _ rfl) (.nil _), fun ls u h => h0 ls _ u ⟨⟨rfl, .inl rfl, fun _ => rfl⟩, rfl⟩ h⟩

/-- `Stop` returns at most once in the life of a client, however often the client is started again: the error channel is closed by the first one and never made again. -/
theorem C75_once_refuted (ls : List Label) (t : Client.State) (h : Steps Client.Step {} ls t) : ls.count .ret ≤ 1 := by
  have key : ls.count .ret ≤ 1 ∧ (t.errClosed = false → ls.count .ret = 0) := by
    refine h.invariant_trace (P := fun ls t => ls.count .ret ≤ 1 ∧ (t.errClosed = false → ls.count .ret = 0)) (fun ls s l t hp hs => ?_) ⟨by simp, fun _ => rfl⟩
    obtain ⟨h1, h2⟩ := hp
    rw [List.count_append]
    cases hs <;> simp at * <;> grind
  exact key.1

/-- Started, stopped, started again, stopped again: the second `Stop` panics. -/
theorem C75_again_refuted : ∃ ls t, Steps Client.Step {} ls t ∧ ls = [.restart, .dialOk 0, .own 0, .own 0, .connStart 0, .own 0, .stop, .user, .user, .meet 0, .user, .ret,
    .restart, .dialOk 1, .own 1, .own 1, .connStart 1, .own 1, .stop, .user, .user, .meet 1, .user, .panic] ∧ t.u = .crashed :=
  ⟨_, _, .cons (.restart _ rfl) (.cons (.dialOk _ 0 rfl) (.cons (.setConn _ 0 rfl) (.cons (.spawn _ 0 rfl) (.cons (.connStart _ 0 (.inl rfl) rfl) (.cons (.eval _ 0 0 rfl rfl)
    (.cons (.stop _ rfl) (.cons (.connStop _ 0 rfl rfl nofun) (.cons (.ueval _ rfl) (.cons (.meet _ 0 0 rfl rfl rfl) (.cons (.close _ 0 rfl rfl rfl) (.cons (.ret _ rfl rfl)
    (.cons (.restart _ rfl) (.cons (.dialOk _ 1 rfl) (.cons (.setConn _ 1 rfl) (.cons (.spawn _ 1 rfl) (.cons (.connStart _ 1 (.inl rfl) rfl) (.cons (.eval _ 1 1 rfl rfl)
    (.cons (.stop _ rfl) (.cons (.connStop _ 1 rfl rfl nofun) (.cons (.ueval _ rfl) (.cons (.meet _ 1 1 rfl rfl rfl) (.cons (.close _ 1 rfl rfl rfl) (.cons (.retPanic _ rfl rfl)
    (.nil _)))))))))))))))))))))))), rfl, rfl⟩

/-- Two calls of `Stop`, one after the other: the second panics. -/
theorem C75_twice_refuted : ∃ ls t, Steps Client.Step {} ls t ∧ ls = [.restart, .dialOk 0, .own 0, .own 0, .connStart 0, .own 0, .stop, .user, .user, .meet 0, .user, .ret,
    .stop, .user, .user, .panic] ∧ t.u = .crashed :=
  ⟨_, _, .cons (.restart _ rfl) (.cons (.dialOk _ 0 rfl) (.cons (.setConn _ 0 rfl) (.cons (.spawn _ 0 rfl) (.cons (.connStart _ 0 (.inl rfl) rfl) (.cons (.eval _ 0 0 rfl rfl)
    (.cons (.stop _ rfl) (.cons (.connStop _ 0 rfl rfl nofun) (.cons (.ueval _ rfl) (.cons (.meet _ 0 0 rfl rfl rfl) (.cons (.close _ 0 rfl rfl rfl) (.cons (.ret _ rfl rfl)
    (.cons (.stop _ rfl) (.cons (.connStop _ 0 rfl rfl nofun) (.cons (.ueval _ rfl) (.cons (.sendPanic _ 0 rfl rfl) (.nil _)))))))))))))))), rfl, rfl⟩

/-- Started again after a `Stop`, and the server cannot be reached: the dialling goroutine panics on the closed error channel. -/
theorem C75_redial_refuted : ∃ ls t, Steps Client.Step {} ls t ∧ ls = [.restart, .dialOk 0, .own 0, .own 0, .connStart 0, .own 0, .stop, .user, .user, .meet 0, .user, .ret,
    .restart, .dialFail 1, .errPanic 1] ∧ t.g 1 = .crashed :=
  ⟨_, _, .cons (.restart _ rfl) (.cons (.dialOk _ 0 rfl) (.cons (.setConn _ 0 rfl) (.cons (.spawn _ 0 rfl) (.cons (.connStart _ 0 (.inl rfl) rfl) (.cons (.eval _ 0 0 rfl rfl)
    (.cons (.stop _ rfl) (.cons (.connStop _ 0 rfl rfl nofun) (.cons (.ueval _ rfl) (.cons (.meet _ 0 0 rfl rfl rfl) (.cons (.close _ 0 rfl rfl rfl) (.cons (.ret _ rfl rfl)
    (.cons (.restart _ rfl) (.cons (.dialFail _ 1 rfl) (.cons (.errPanic _ 1 rfl rfl) (.nil _))))))))))))))), rfl, rfl⟩

/-- `Stop` right after the connection is made: its context does not exist yet, and `Stop` panics. -/
theorem C75_early_refuted : ∃ ls t, Steps Client.Step {} ls t ∧ ls = [.restart, .dialOk 0, .own 0, .stop, .panic] ∧ t.u = .crashed :=
  ⟨_, _, .cons (.restart _ rfl) (.cons (.dialOk _ 0 rfl) (.cons (.setConn _ 0 rfl) (.cons (.stop _ rfl) (.cons (.connPanic _ 0 rfl rfl rfl) (.nil _))))), rfl, rfl⟩

/-! ## The first stop of a running client -/

structure ClientInv (s : Client.State) : Prop where
  exit : ∀ c, s.exit = some c → c + 1 = s.n
  noexit : s.exit = none → s.n = 0
  g : ∀ k, s.n ≤ k → s.g k = .none
  waiting : ∀ k c, s.g k = .waiting c → c < s.n
  cnone : ∀ k, s.g k = .none ∨ s.g k = .dialing ∨ s.g k = .failed ∨ s.g k = .gaveUp ∨ s.g k = .crashed → s.c k = .none
  early : ∀ k, s.g k = .made ∨ s.g k = .bound → s.c k = .made
  conn : ∀ k, s.g k = .bound ∨ s.g k = .eval ∨ (∃ c, s.g k = .waiting c) ∨ s.g k = .exited → s.conn ≠ none
  connLt : ∀ k, s.conn = some k → k < s.n
  connC : ∀ k, s.conn = some k → s.c k ≠ .none
  closed : ∀ c, s.closed c = true → s.errClosed = true ∨ s.u = .closeErr ∨ s.u = .crashed
  exited : ∀ k, s.g k = .exited → s.errClosed = true ∨ s.u = .close ∨ s.u = .closeErr ∨ s.u = .crashed

set_option maxHeartbeats 2000000 in
theorem clientInv_step {s l t} (h : ClientInv s) (hs : Client.Step s l t) : ClientInv t := by
  obtain ⟨h1, h2, h3, h4, h5, h6, h7, h8, h9, h10, h11⟩ := h
  cases hs <;> constructor <;> simp [Client.set] at * <;> grind

theorem clientInv_init : ClientInv {} := by constructor <;> simp

/-- In the first `Stop`, after one start and with the connection started. -/
structure Stopping (s : Client.State) : Prop where
  inv : ClientInv s
  one : s.n = 1
  err : s.errClosed = false
  up : s.c 0 = .running ∨ s.c 0 = .stopped
  pc : s.u = .conn ∨ s.u = .eval ∨ s.u = .send (some 0) ∨ s.u = .close ∨ s.u = .closeErr
  stopped : s.u ≠ .conn → s.c 0 = .stopped
  open' : s.u ≠ .closeErr → s.closed 0 = false
  there : s.u = .conn ∨ s.u = .eval ∨ s.u = .send (some 0) → s.g 0 = .eval ∨ s.g 0 = .waiting 0
  gone : s.u = .close ∨ s.u = .closeErr → s.g 0 = .exited

def clientDone (s : Client.State) : Prop := s.u = .idle ∧ s.c 0 = .stopped ∧ s.g 0 = .exited

set_option maxHeartbeats 2000000 in
theorem stopping_step {s l t} (h : Stopping s) (hs : Client.Step s l t) : (Stopping t ∧ l ≠ .ret ∨ clientDone t ∧ l = .ret) ∧ l ≠ .panic := by
  have hi := clientInv_step h.inv hs
  obtain ⟨⟨h1, h2, h3, h4, h5, h6, h7, h8, h9, h10, h11⟩, g1, g2, g3, g4, g5, g6, g7, g8⟩ := h
  have hx : s.exit = some 0 := by
    cases hx : s.exit with
    | none => have := h2 hx; omega
    | some c => have := h1 c hx; congr; omega
  have hc : s.conn = some 0 := by
    cases hc : s.conn with
    | none => exact absurd hc (h7 0 (by rcases g4 with h | h | h | h | h <;> grind))
    | some c => have := h8 c hc; congr; omega
  have h30 : ∀ k, k ≠ 0 → s.g k = .none := fun k hk => h3 k (by omega)
  have h40 := h4 0
  clear h1 h2 h3 h4 h5 h6 h7 h8 h9 h10 h11
  refine ⟨?_, ?_⟩
  · by_cases hr : l = .ret
    · right
      subst hr
      cases hs
      simp [clientDone] at *; grind
    · left
      refine ⟨⟨hi, ?_, ?_, ?_, ?_, ?_, ?_, ?_, ?_⟩, hr⟩ <;> clear hi <;> cases hs <;> simp [Client.set] at * <;> grind
  · clear hi
    cases hs <;> simp at * <;> grind

theorem stopping_init {s t} (hi : ClientInv s) (h1 : s.n = 1) (h2 : s.errClosed = false) (h3 : s.c 0 = .running ∨ s.c 0 = .stopped) (hs : Client.Step s .stop t) : Stopping t := by
  have hi' := clientInv_step hi hs
  have h4 : s.g 0 = .eval ∨ s.g 0 = .waiting 0 := by
    have a1 := hi.cnone 0
    have a2 := hi.early 0
    have a3 := hi.exited 0
    have a4 := hi.waiting 0
    cases hs
    cases hg : s.g 0 with
    | waiting c =>
      have := a4 c hg
      have : c = 0 := by omega
      simp [this]
    | eval => simp
    | _ => simp_all <;> grind
  have h5 : s.closed 0 = false := by
    have := hi.closed 0
    cases hs
    simp_all
  cases hs
  exact ⟨hi', h1, h2, h3, .inl rfl, nofun, fun _ => h5, fun _ => h4, nofun⟩

/-- What the goroutine in `Stop` does. -/
def isUser : Label → Prop
  | .user | .meet _ | .ret | .panic => True
  | _ => False

def clientRank (s : Client.State) : Nat :=
  (match s.u with
  | .conn => 6
  | .eval => 5
  | .send _ => 4
  | .close => 2
  | .closeErr => 1
  | _ => 0) + if s.g 0 = .eval then 1 else 0

set_option maxHeartbeats 2000000 in
theorem clientRank_step {s l t} (h : Stopping s) (hs : Client.Step s l t) : clientRank t ≤ clientRank s ∧ (isUser l ∨ l = .own 0 → clientRank t < clientRank s) := by
  have h3 : ∀ k, k ≠ 0 → s.g k = .none := fun k hk => h.inv.g k (by have := h.one; omega)
  have hp := h.pc
  have h4 := h.there
  have h5 := h.gone
  clear h
  cases hs <;> simp [clientRank, isUser, Client.set] at * <;> grind

theorem stopping_enabled {s} (h : Stopping s) : Enabled Client.Step isUser s ∨ Enabled Client.Step (· = .own 0) s := by
  have hx : s.exit = some 0 := by
    cases hx : s.exit with
    | none => have := h.inv.noexit hx; have := h.one; omega
    | some c => have := h.inv.exit c hx; have := h.one; congr; omega
  rcases h.pc with hu | hu | hu | hu | hu
  · left
    cases hc : s.conn with
    | none => exact ⟨_, _, by trivial, .noConn s hu hc⟩
    | some k =>
      by_cases hm : s.c k = .made
      · exact ⟨_, _, by trivial, .connPanic s k hu hc hm⟩
      · exact ⟨_, _, by trivial, .connStop s k hu hc hm⟩
  · exact .inl ⟨_, _, by trivial, .ueval s hu⟩
  · rcases h.there (.inr (.inr hu)) with hg | hg
    · exact .inr ⟨_, _, rfl, .eval s 0 0 hg hx⟩
    · exact .inl ⟨_, _, by trivial, .meet s 0 0 hu (h.open' (by simp [hu])) hg⟩
  · exact .inl ⟨_, _, by trivial, .close s 0 hu hx (h.open' (by simp [hu]))⟩
  · exact .inl ⟨_, _, by trivial, .ret s hu h.err⟩

/-- Either of the two keeps being possible until the rank falls. -/
theorem stopping_ends (e : Exec Client.Step) (hf : e.WeakFair isUser) (hg : e.WeakFair (· = .own 0)) : ∀ v a, Stopping (e.run a) → clientRank (e.run a) ≤ v → ∃ m, a ≤ m ∧ ¬ Stopping (e.run m) := by
  intro v
  induction v with
  | zero =>
    intro a h hv
    rcases stopping_enabled h with ⟨l, t, hl, hs⟩ | ⟨l, t, hl, hs⟩
    · have := (clientRank_step h hs).2 (.inl hl); omega
    · have := (clientRank_step h hs).2 (.inr hl); omega
  | succ v ih =>
    intro a h hv
    apply Classical.byContradiction
    intro hno
    have hst : ∀ m, a ≤ m → Stopping (e.run m) := fun m hm => Classical.byContradiction fun hc => hno ⟨m, hm, hc⟩
    have hrk : ∀ m, a ≤ m → v < clientRank (e.run m) := fun m hm => by
      apply Classical.byContradiction
      intro hc
      obtain ⟨k, hk, hn⟩ := ih m (hst m hm) (by omega)
      exact hno ⟨k, by omega, hn⟩
    have hmono : ∀ m, a ≤ m → clientRank (e.run m) = v + 1 := by
      intro m hm
      induction m with
      | zero =>
        have : a = 0 := by omega
        subst this
        have := hrk 0 (by omega); omega
      | succ m ihm =>
        by_cases hm' : a ≤ m
        · have h1 := ihm hm'
          have hx := e.next m
          have h2 := hrk (m + 1) hm
          cases ha : e.act m with
          | none => simp only [ha] at hx; rw [hx]; exact h1
          | some l => simp only [ha] at hx; have := (clientRank_step (hst m hm') hx).1; omega
        · have : a = m + 1 := by omega
          subst this
          have := hrk _ (Nat.le_refl _); omega
    have hdec : ∀ m l, a ≤ m → e.act m = some l → ¬ (isUser l ∨ l = .own 0) := by
      intro m l hm ha hl
      have hx := e.next m
      simp only [ha] at hx
      have h1 := hmono m hm
      have h2 := hmono (m + 1) (by omega)
      have := (clientRank_step (hst m hm) hx).2 hl
      omega
    -- the inner step of the dialling goroutine stays possible, since nothing else changes the rank
    by_cases hev : ∃ m, a ≤ m ∧ Enabled Client.Step (· = .own 0) (e.run m)
    · obtain ⟨m, hm, hE⟩ := hev
      have hall : ∀ k, m ≤ k → (e.run k).g 0 = .eval ∨ (e.run k).g 0 = .made ∨ (e.run k).g 0 = .bound := by
        intro k hk
        induction k with
        | zero =>
          obtain ⟨l, t, rfl, hs⟩ := hE
          have : m = 0 := by omega
          subst this
          cases hs <;> simp_all
        | succ k ihk =>
          by_cases hmk : m ≤ k
          · have h1 := ihk hmk
            have hx := e.next k
            cases ha : e.act k with
            | none => simp only [ha] at hx; rw [hx]; exact h1
            | some l =>
              simp only [ha] at hx
              have hn := hdec k l (by omega) ha
              have hn1 := (hst k (by omega)).one
              clear hE ihk hno hst hrk hmono hdec ih
              generalize e.run (k + 1) = t at *
              generalize e.run k = s at *
              cases hx <;> simp [isUser, Client.set] at * <;> grind
          · have : m = k + 1 := by omega
            subst this
            obtain ⟨l, t, rfl, hs⟩ := hE
            cases hs <;> simp_all
      obtain ⟨k, l, hk, ha, hl⟩ := hg m (fun k hk => by
        have hS := hst k (by omega)
        rcases hall k hk with h | h | h
        · cases hx : (e.run k).exit with
          | none => have := hS.inv.noexit hx; have := hS.one; omega
          | some c => exact ⟨_, _, rfl, .eval _ 0 c h hx⟩
        · exact ⟨_, _, rfl, .setConn _ 0 h⟩
        · exact ⟨_, _, rfl, .spawn _ 0 h⟩)
      exact hdec k l (by omega) ha (.inr hl)
    · obtain ⟨k, l, hk, ha, hl⟩ := hf a (fun k hk => (stopping_enabled (hst k hk)).resolve_right fun hE => hev ⟨k, hk, hE⟩)
      exact hdec k l hk ha (.inl hl)

theorem least {P : Nat → Prop} (m : Nat) (h : P m) : ∃ m, P m ∧ ∀ k, k < m → ¬ P k := by
  induction m using Nat.strongRecOn with
  | _ m ih =>
    by_cases hk : ∃ k, k < m ∧ P k
    · obtain ⟨k, hk, hp⟩ := hk
      exact ih k hk hp
    · exact ⟨m, h, fun k hk' hp => hk ⟨k, hk', hp⟩⟩

/-- **C75**, in part: a client was started once, its connection was made and its `Start` has begun, and `Stop` is called for the first time. Then `Stop` does not panic, returns, and the connection is stopped and
the goroutine of the client has ended; and nothing of this changes later. Fairness: the goroutine in `Stop` and the goroutine of the client run. -/
theorem C75_partial (e : Exec Client.Step) (h0 : e.run 0 = {}) (n : Nat) (hcall : e.act n = some .stop) (hone : (e.trace n).count .restart = 1) (hfirst : .ret ∉ e.trace n)
    (hup : ∃ m, m < n ∧ e.act m = some (.connStart 0)) (hf : e.WeakFair isUser) (hg : e.WeakFair (· = .own 0)) :
    ∃ m, n < m ∧ e.act m = some .ret ∧ (∀ k, n ≤ k → k ≤ m → e.act k ≠ some .panic) ∧ ∀ k, m < k → (e.run k).c 0 = .stopped ∧ (e.run k).g 0 = .exited := by
  have hrec : ClientInv (e.run n) ∧ (e.run n).n = (e.trace n).count .restart ∧ (.ret ∉ e.trace n → (e.run n).errClosed = false) ∧
      (.connStart 0 ∈ e.trace n → (e.run n).c 0 = .running ∨ (e.run n).c 0 = .stopped) := by
    have h := e.steps n
    rw [h0] at h
    refine h.invariant_trace (P := fun ls s => ClientInv s ∧ s.n = ls.count .restart ∧ (.ret ∉ ls → s.errClosed = false) ∧ (.connStart 0 ∈ ls → s.c 0 = .running ∨ s.c 0 = .stopped))
      (fun ls s l t hp hs => ?_) ⟨clientInv_init, rfl, fun _ => rfl, nofun⟩
    obtain ⟨h1, h2, h3, h4⟩ := hp
    refine ⟨clientInv_step h1 hs, ?_, ?_, ?_⟩
    · rw [List.count_append]; cases hs <;> simp at * <;> grind
    · rw [List.mem_append]; cases hs <;> simp at * <;> grind
    · rw [List.mem_append]
      have := h1.cnone 0
      cases hs <;> simp [Client.set] at * <;> grind
  obtain ⟨hi, hn, herr, hst⟩ := hrec
  have hmem : Label.connStart 0 ∈ e.trace n := by
    obtain ⟨m, hm, ha⟩ := hup
    have : ∀ k, m < k → Label.connStart 0 ∈ e.trace k := by
      intro k hk
      induction k with
      | zero => omega
      | succ k ih =>
        unfold Exec.trace
        by_cases hmk : m = k
        · subst hmk; simp [ha]
        · exact List.mem_append_left _ (ih (by omega))
    exact this n hm
  have hcs := hst hmem
  have her := herr hfirst
  have hx := e.next n
  simp only [hcall] at hx
  have hS : Stopping (e.run (n + 1)) := stopping_init hi (hn.trans hone) her hcs hx
  obtain ⟨m, hm, hns⟩ := stopping_ends e hf hg _ _ hS (Nat.le_refl _)
  obtain ⟨m, ⟨hm, hns⟩, hmin⟩ : ∃ m, (n + 1 ≤ m ∧ ¬ Stopping (e.run m)) ∧ ∀ k, k < m → ¬ (n + 1 ≤ k ∧ ¬ Stopping (e.run k)) := by
    exact least (P := fun m => n + 1 ≤ m ∧ ¬ Stopping (e.run m)) m ⟨hm, hns⟩
  have hin : ∀ k, n + 1 ≤ k → k < m → Stopping (e.run k) := fun k h1 h2 => Classical.byContradiction fun hc => hmin k h2 ⟨h1, hc⟩
  obtain ⟨j, rfl⟩ : ∃ j, m = j + 1 := ⟨m - 1, by omega⟩
  have hjn : n + 1 ≤ j := by
    apply Classical.byContradiction
    intro hc
    have : j = n := by omega
    subst this
    exact hns hS
  have hj := hin j hjn (by omega)
  have hxj := e.next j
  cases ha : e.act j with
  | none => simp only [ha] at hxj; rw [hxj] at hns; exact absurd hj hns
  | some l =>
    simp only [ha] at hxj
    obtain ⟨h1 | ⟨h1, h2⟩, h3⟩ := stopping_step hj hxj
    · exact absurd h1.1 hns
    · subst h2
      refine ⟨j, hjn, ha, fun k h4 h5 hp => ?_, fun k hk => ?_⟩
      · by_cases hkn : k = n
        · subst hkn; rw [hcall] at hp; cases hp
        · have hxk := e.next k
          simp only [hp] at hxk
          exact (stopping_step (hin k (by omega) (by omega)) hxk).2 rfl
      · refine e.invariant (P := fun s => s.c 0 = .stopped ∧ s.g 0 = .exited ∧ 0 < s.n) (fun s l t h hs => ?_) ?_ k hk |> fun h => ⟨h.1, h.2.1⟩
        · cases hs <;> simp [Client.set] at * <;> grind
        · refine ⟨h1.2.1, h1.2.2, ?_⟩
          have := hj.one
          generalize e.run (j + 1) = t at *
          cases hxj
          simp [this]

/-- The hypotheses of `C75_partial` can be met. -/
example : ∃ (e : Exec Client.Step) (n : Nat), e.run 0 = {} ∧ e.act n = some .stop ∧ (e.trace n).count .restart = 1 ∧ .ret ∉ e.trace n ∧ (∃ m, m < n ∧ e.act m = some (.connStart 0)) ∧
    e.WeakFair isUser ∧ e.WeakFair (· = .own 0) := by
  obtain ⟨e, h1, h2, h3, h4⟩ := Exec.ofSteps (step := Client.Step) (s := {}) (.cons (.restart _ rfl) (.cons (.dialOk _ 0 rfl) (.cons (.setConn _ 0 rfl) (.cons (.spawn _ 0 rfl)
    (.cons (.connStart _ 0 (.inl rfl) rfl) (.cons (.stop _ rfl) (.cons (.connStop _ 0 rfl rfl nofun) (.cons (.ueval _ rfl) (.cons (.eval _ 0 0 rfl rfl) (.cons (.meet _ 0 0 rfl rfl rfl)
    (.cons (.close _ 0 rfl rfl rfl) (.cons (.ret _ rfl rfl) (.nil _)))))))))))))
  refine ⟨e, 5, h1, by rw [h2]; rfl, by rw [h3]; rfl, by rw [h3]; simp, ⟨4, by omega, by rw [h2]; rfl⟩, Exec.weakFair_of_end h4 ?_, Exec.weakFair_of_end h4 ?_⟩
  · rintro ⟨l, t, hl, hs⟩
    cases hs <;> simp [isUser, Client.set] at *
  · rintro ⟨l, t, rfl, hs⟩
    cases hs <;> simp [Client.set] at *

end Zinx.Props
