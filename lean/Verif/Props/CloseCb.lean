import Verif.Model.CloseCb
import Verif.Props.Callbacks
import Verif.Lemmas.ExecOf

/-! C76: the close callbacks of a connection. -/

namespace Zinx.Props

open Callbacks (Op)
open CloseCb (Kind Label OPc IPc Entry)

/-- The additions and removals that took effect, in order. -/
def cbOps : List Label → List (Op Nat)
  | [] => []
  | .apply _ o :: ls => o :: cbOps ls
  | _ :: ls => cbOps ls

/-- The callbacks called, in order. -/
def cbCalls : List Label → List Nat
  | [] => []
  | .ran c :: ls => c :: cbCalls ls
  | .raised c :: ls => c :: cbCalls ls
  | _ :: ls => cbCalls ls

theorem cbOps_append (a b : List Label) : cbOps (a ++ b) = cbOps a ++ cbOps b := by
  induction a with
  | nil => rfl
  | cons x a ih => cases x <;> simp [cbOps, ih]

theorem cbCalls_append (a b : List Label) : cbCalls (a ++ b) = cbCalls a ++ cbCalls b := by
  induction a with
  | nil => rfl
  | cons x a ih => cases x <;> simp [cbCalls, ih]

theorem callbacksDue_append (l : List Entry) (a b : List (Op Nat)) : callbacksDue l (a ++ b) = callbacksDue (callbacksDue l a) b := by
  induction a generalizing l with
  | nil => rfl
  | cons o a ih =>
    match o with
    | .add h k none => exact ih l
    | .add h k (some c) => exact ih _
    | .remove h k => exact ih _

theorem callbacksDue_one (l : List Entry) (o : Op Nat) : callbacksDue l [o] = CloseCb.applyOp l o := by
  match o with
  | .add h k none => rfl
  | .add h k (some c) => rfl
  | .remove h k => rfl

/-- What holds after every execution. -/
structure CbInv (k : Kind) (ls : List Label) (s : CloseCb.State) : Prop where
  list : s.list = callbacksDue [] (cbOps ls)
  before : s.inv = .none ∨ s.inv = .lock → .begin ∉ ls ∧ .done ∉ ls ∧ cbCalls ls = [] ∧ ∀ c, .raised c ∉ ls
  during : ∀ rest, s.inv = .run rest → ∃ a b, ls = a ++ [.begin] ++ b ∧ .cancel ∈ a ∧ cbCalls a = [] ∧ (callbacksDue [] (cbOps a)).map (·.2.2) = cbCalls b ++ rest.map (·.2.2) ∧ .done ∉ ls ∧ ∀ c, .raised c ∉ ls
  after : s.inv = .done → ∃ a b, ls = a ++ [.begin] ++ b ∧ .cancel ∈ a ∧ cbCalls a = [] ∧ (callbacksDue [] (cbOps a)).map (·.2.2) = cbCalls b ∧ ∀ c, .raised c ∉ ls
  crash : s.inv = .crashed → ∃ a b, ls = a ++ [.begin] ++ b ∧ .cancel ∈ a ∧ cbCalls a = [] ∧ (∀ c, .raised c ∈ ls → ∃ pre, cbCalls b = pre ++ [c]) ∧ cbCalls b <+: (callbacksDue [] (cbOps a)).map (·.2.2) ∧ .done ∉ ls
  close : s.closing = true → .cancel ∈ ls
  closing : s.inv ≠ .none → s.closing = true
  cancel : s.cancelled = true → .cancel ∈ ls
  cancelled : s.closing = true → s.cancelled = true
  start : .start ∈ ls → s.started = true
  flag : s.flag = true → s.closing = true
  ws : k = .ws → s.inv ≠ .none → s.flag = true
  kcp : k = .kcp → s.closing = true → s.flag = true
  started : s.cancelled = true → s.started = true

theorem cbInv_init (k : Kind) : CbInv k [] {} := by
  constructor <;> simp [callbacksDue, cbOps, cbCalls]

set_option maxHeartbeats 1000000 in
theorem cbInv_step {k ls s l t} (h : CbInv k ls s) (hs : CloseCb.Step k s l t) : CbInv k (ls ++ [l]) t := by
  obtain ⟨h1, h2, h3, h4, h5, h7, h8, h9, h9', h10, h11, h12, h13, h14⟩ := h
  have hl : t.list = callbacksDue [] (cbOps (ls ++ [l])) := by
    rw [cbOps_append, callbacksDue_append, ← h1]
    cases hs <;> first | rfl | exact (callbacksDue_one _ _).symm
  have hrest : (t.closing = true → .cancel ∈ ls ++ [l]) ∧ (t.inv ≠ .none → t.closing = true) ∧ (t.cancelled = true → .cancel ∈ ls ++ [l]) ∧
      (t.closing = true → t.cancelled = true) ∧ (.start ∈ ls ++ [l] → t.started = true) ∧ (t.flag = true → t.closing = true) ∧ (k = .ws → t.inv ≠ .none → t.flag = true) ∧
      (k = .kcp → t.closing = true → t.flag = true) ∧ (t.cancelled = true → t.started = true) := by
    clear h1 h2 h3 h4 h5 hl
    cases hs <;> simp at * <;> grind
  obtain ⟨r1, r2, r3, r4, r5, r6, r7, r8, r9⟩ := hrest
  refine ⟨hl, ?_, ?_, ?_, ?_, r1, r2, r3, r4, r5, r6, r7, r8, r9⟩ <;> clear r1 r2 r3 r4 r5 r6 r7 r8 r9 hl h9 h9' h10 h11 h12 h13 h14
  · rw [cbCalls_append]
    cases hs <;> simp [cbCalls] at * <;> grind
  · intro rest hr
    by_cases hb : l = .begin
    · subst hb
      cases hs
      rename_i hlk
      refine ⟨ls, [], by simp, h7 (h8 (by simp [hlk])), (h2 (.inr hlk)).2.2.1, ?_, ?_, ?_⟩
      · simp at hr
        subst hr
        rw [h1]; simp [cbCalls]
      · have := (h2 (.inr hlk)).2.1; simp [this]
      · have := (h2 (.inr hlk)).2.2.2; simp [this]
    · have hpre : ∃ e, s.inv = .run (e ++ rest) ∧ e.map (·.2.2) = cbCalls [l] ∧ l ≠ .done ∧ ∀ c, l ≠ .raised c := by
        cases hs <;> first | (simp at hr; done) | (simp at hb; done) | exact ⟨[], hr, rfl, nofun, nofun⟩ | skip
        rename_i e rest' hx
        simp at hr
        subst hr
        exact ⟨[e], hx, rfl, nofun, nofun⟩
      obtain ⟨e, he, hc, hd, hr'⟩ := hpre
      obtain ⟨a, b, g1, g2, g3, g4, g5, g6⟩ := h3 _ he
      refine ⟨a, b ++ [l], by simp [g1], g2, g3, ?_, ?_, ?_⟩
      · rw [cbCalls_append, ← hc, g4]; simp
      · simp [g5, Ne.symm hd]
      · intro c; simp [g6 c, Ne.symm (hr' c)]
  · intro hd
    by_cases hb : l = .done
    · subst hb
      cases hs
      rename_i hx
      obtain ⟨a, b, g1, g2, g3, g4, g5, g6⟩ := h3 _ hx
      exact ⟨a, b ++ [.done], by simp [g1], g2, g3, by rw [cbCalls_append, g4]; simp [cbCalls], by simpa using g6⟩
    · have hsame : s.inv = .done ∧ cbCalls [l] = [] ∧ ∀ c, l ≠ .raised c := by
        cases hs <;> first | (simp at hd; done) | (simp at hb; done) | exact ⟨hd, rfl, nofun⟩
      obtain ⟨a, b, g1, g2, g3, g4, g6⟩ := h4 hsame.1
      refine ⟨a, b ++ [l], by simp [g1], g2, g3, by rw [cbCalls_append, g4, hsame.2.1]; simp, ?_⟩
      intro c; simp [g6 c, Ne.symm (hsame.2.2 c)]
  · intro hd
    by_cases hb : ∃ c, l = .raised c
    · obtain ⟨c, rfl⟩ := hb
      cases hs
      rename_i e rest hx
      obtain ⟨a, b, g1, g2, g3, g4, g5, g6⟩ := h3 _ hx
      refine ⟨a, b ++ [.raised e.2.2], by simp [g1], g2, g3, fun c hc => ?_, ?_, by simp [g5]⟩
      · rw [List.mem_append] at hc
        rcases hc with hc | hc
        · exact absurd hc (g6 c)
        · simp at hc
          subst hc
          exact ⟨cbCalls b, by rw [cbCalls_append]; rfl⟩
      rw [cbCalls_append, g4]
      exact ⟨rest.map (·.2.2), by simp [cbCalls]⟩
    · have hsame : s.inv = .crashed ∧ cbCalls [l] = [] ∧ l ≠ .done := by
        cases hs <;> first | (simp at hd; done) | (simp at hb; done) | exact ⟨hd, rfl, nofun⟩
      obtain ⟨a, b, g1, g2, g3, g5, g6, g7⟩ := h5 hsame.1
      refine ⟨a, b ++ [l], by simp [g1], g2, g3, fun c hc => ?_, ?_, by simp [g7, Ne.symm hsame.2.2]⟩
      · rw [cbCalls_append, hsame.2.1, List.append_nil]
        rw [List.mem_append] at hc
        rcases hc with hc | hc
        · exact g5 c hc
        · simp at hc
          exact absurd ⟨c, hc.symm⟩ hb
      · rw [cbCalls_append, hsame.2.1, List.append_nil]; exact g6

theorem cbInv {k ls t} (h : Steps (CloseCb.Step k) {} ls t) : CbInv k ls t :=
  h.invariant_trace (P := CbInv k) (fun _ _ _ _ hp hs => cbInv_step hp hs) (cbInv_init k)

/-- **C76**, in part: when the invocation has ended normally, the callbacks called in all are exactly those due by the additions and removals that took effect before it began, each once and in order. When a
callback has panicked, those called are the first ones due, up to and including it. Nothing is called before the connection was stopped. A call of `AddCloseCallback` or `RemoveCloseCallback` is
dropped only when the connection was stopped before, or, with TCP, was not started yet. -/
theorem C76_partial (k : Kind) (ls : List Label) (t : CloseCb.State) (h : Steps (CloseCb.Step k) {} ls t) :
    (.done ∈ ls → ∃ a b, ls = a ++ [.begin] ++ b ∧ .cancel ∈ a ∧ cbCalls ls = (callbacksDue [] (cbOps a)).map (·.2.2)) ∧
    (∀ c, .raised c ∈ ls → ∃ a b pre, ls = a ++ [.begin] ++ b ∧ .cancel ∈ a ∧ cbCalls ls = pre ++ [c] ∧ cbCalls ls <+: (callbacksDue [] (cbOps a)).map (·.2.2)) ∧
    (cbCalls ls ≠ [] → .cancel ∈ ls) ∧
    ∀ i u, CloseCb.Step k t (.drop i) u → .cancel ∈ ls ∨ (k = .tcp ∧ .start ∉ ls) := by
  have hi := cbInv h
  refine ⟨fun hd => ?_, fun c hc => ?_, fun hc => ?_, fun i u hu => ?_⟩
  · cases hx : t.inv with
    | done =>
      obtain ⟨a, b, g1, g2, g3, g4, _⟩ := hi.after hx
      exact ⟨a, b, g1, g2, by rw [g1, cbCalls_append, cbCalls_append, g3, g4]; rfl⟩
    | none => exact absurd hd (hi.before (.inl hx)).2.1
    | lock => exact absurd hd (hi.before (.inr hx)).2.1
    | run rest => obtain ⟨a, b, _, _, _, _, g, _⟩ := hi.during _ hx; exact absurd hd g
    | crashed => obtain ⟨a, b, _, _, _, _, _, g⟩ := hi.crash hx; exact absurd hd g
  · cases hx : t.inv with
    | crashed =>
      obtain ⟨a, b, g1, g2, g3, g5, g6, _⟩ := hi.crash hx
      obtain ⟨pre, g5⟩ := g5 c hc
      have : cbCalls ls = cbCalls b := by rw [g1, cbCalls_append, cbCalls_append, g3]; rfl
      exact ⟨a, b, pre, g1, g2, this.trans g5, by rw [this]; exact g6⟩
    | done => obtain ⟨a, b, _, _, _, _, g⟩ := hi.after hx; exact absurd hc (g c)
    | none => exact absurd hc ((hi.before (.inl hx)).2.2.2 c)
    | lock => exact absurd hc ((hi.before (.inr hx)).2.2.2 c)
    | run rest => obtain ⟨a, b, _, _, _, _, _, g⟩ := hi.during _ hx; exact absurd hc (g c)
  · cases hx : t.inv with
    | none => exact absurd (hi.before (.inl hx)).2.2.1 hc
    | _ => exact hi.close (hi.closing (by simp [hx]))
  · cases hu
    rename_i o hc ho
    cases k with
    | tcp =>
      simp [CloseCb.closed] at hc
      rcases hc with hc | hc
      · exact .inr ⟨rfl, fun hm => by rw [hi.start hm] at hc; cases hc⟩
      · exact .inl (hi.cancel hc)
    | ws => exact .inl (hi.close (hi.flag hc))
    | kcp => exact .inl (hi.close (hi.flag hc))

theorem invoked_closed {k : Kind} {ls : List Label} {t : CloseCb.State} (h : Steps (CloseCb.Step k) {} ls t) (hr : t.inv ≠ .none) : CloseCb.closed k t = true := by
  have hi := cbInv h
  cases k with
  | tcp => simp [CloseCb.closed, hi.cancelled (hi.closing hr)]
  | ws => exact hi.ws rfl hr
  | kcp => exact hi.kcp rfl (hi.closing hr)

/-- From the moment the callbacks are about to be invoked, a callback (or anybody else) that calls `AddCloseCallback` or `RemoveCloseCallback` finds the connection closed and can return at every
moment: it never waits for the mutex, and the call has no effect. -/
theorem C76_reentrant (k : Kind) (ls : List Label) (t : CloseCb.State) (h : Steps (CloseCb.Step k) {} ls t) (hr : t.inv ≠ .none) (i : Nat) (o : Op Nat) (u : CloseCb.State)
    (hu : CloseCb.Step k t (.call i o) u) (ls' : List Label) (v : CloseCb.State) (hv : Steps (CloseCb.Step k) u ls' v) (hd : .drop i ∉ ls') :
    (∃ w, CloseCb.Step k v (.drop i) w) ∧ .pass i ∉ ls' ∧ ∀ o', .apply i o' ∉ ls' := by
  have key : ∀ ls' u v, Steps (CloseCb.Step k) u ls' v → .drop i ∉ ls' → ∀ ls, Steps (CloseCb.Step k) {} ls u → u.inv ≠ .none → u.op i = .check o →
      (∃ w, CloseCb.Step k v (.drop i) w) ∧ .pass i ∉ ls' ∧ ∀ o', .apply i o' ∉ ls' := by
    intro ls' u v hv
    induction hv with
    | nil s => intro _ ls hs hn ho; exact ⟨⟨_, .drop s i o ho (invoked_closed hs hn)⟩, by simp, by simp⟩
    | @cons s t u l ls' h1 _ ih =>
      intro hd ls hs hn ho
      have hc := invoked_closed hs hn
      have hd1 : l ≠ .drop i := fun e => hd (by simp [e])
      have hp : l ≠ .pass i ∧ (∀ o', l ≠ .apply i o') ∧ t.inv ≠ .none ∧ t.op i = .check o := by
        cases h1 <;> simp only [CloseCb.set] <;> grind
      obtain ⟨h2, h3, h4⟩ := ih (fun e => hd (by simp [e])) (ls ++ [l]) (hs.snoc h1) hp.2.2.1 hp.2.2.2
      refine ⟨h2, ?_, ?_⟩
      · simp only [List.mem_cons, not_or]; exact ⟨fun e => hp.1 e.symm, h3⟩
      · intro o'; simp only [List.mem_cons, not_or]; exact ⟨fun e => hp.2.1 o' e.symm, h4 o'⟩
  refine key ls' u v hv hd _ (h.snoc hu) ?_ ?_
  · cases hu; exact hr
  · cases hu; simp [CloseCb.set]

example : ∃ ls t u, Steps (CloseCb.Step .ws) {} ls t ∧ t.inv ≠ .none ∧ CloseCb.Step .ws t (.call 0 (.add 0 1 (some 2))) u :=
  ⟨_, _, _, .cons (.start _ rfl) (.cons (.cancel _ rfl) (.cons (.close _ rfl rfl) (.cons (.spawn _ rfl rfl) (.nil _)))), (by decide), .call _ 0 _ rfl⟩

/-- What the finalizer, the goroutine it starts and the callbacks do. -/
def isCloser : Label → Prop
  | .close | .spawn | .begin | .ran _ | .raised _ | .done => True
  | _ => False

/-- Once the connection is stopped, the invocation ends, normally or with a panic. Fairness: the finalizer and the goroutine it starts run, and callbacks return. -/
theorem C76_ends (k : Kind) (e : Exec (CloseCb.Step k)) (h0 : e.run 0 = {}) (n : Nat) (hc : e.act n = some .cancel) (hf : e.WeakFair isCloser) :
    ∃ m, e.act m = some .done ∨ ∃ c, e.act m = some (.raised c) := by
  have hn := e.next n
  simp only [hc] at hn
  have h1 : (e.run (n + 1)).cancelled = true := by
    generalize e.run (n + 1) = t at hn
    cases hn; rfl
  have hinv : ∀ m, CbInv k (e.trace m) (e.run m) := fun m => cbInv (h0 ▸ e.steps m)
  have hcl : ∀ m, (e.run m).inv ≠ .none → (e.run m).closing = true := fun m => (hinv m).closing
  obtain ⟨m1, h2, h3⟩ : ∃ m, n + 1 ≤ m ∧ (e.run m).closing = true := by
    by_cases hx : (e.run (n + 1)).closing = true
    · exact ⟨_, Nat.le_refl _, hx⟩
    · refine e.leads_weak hf (P := fun s => s.cancelled = true ∧ s.closing = false ∧ s.inv = .none) (Q := fun s => s.closing = true) ?_ ?_ ?_ ⟨h1, by simpa using hx, ?_⟩
      · intro s l t hp hs
        cases hs <;> simp_all
      · intro s l t hp hs hl
        cases hs <;> simp_all [isCloser]
      · intro s hp
        exact ⟨_, _, by trivial, .close s hp.1 hp.2.1⟩
      · exact Classical.byContradiction fun hy => hx (hcl _ hy)
  obtain ⟨m2, h4, h5⟩ : ∃ m, m1 ≤ m ∧ (e.run m).inv ≠ .none := by
    by_cases hx : (e.run m1).inv = .none
    · refine e.leads_weak hf (P := fun s => s.closing = true ∧ s.inv = .none) (Q := fun s => s.inv ≠ .none) ?_ ?_ ?_ ⟨h3, hx⟩
      · intro s l t hp hs
        cases hs <;> simp_all
      · intro s l t hp hs hl
        cases hs <;> simp_all [isCloser]
      · intro s hp
        exact ⟨_, _, by trivial, .spawn s hp.1 hp.2⟩
    · exact ⟨m1, Nat.le_refl _, hx⟩
  obtain ⟨m3, h6, h7⟩ : ∃ m, m2 ≤ m ∧ (e.run m).inv ≠ .none ∧ (e.run m).inv ≠ .lock := by
    by_cases hx : (e.run m2).inv = .lock
    · refine e.leads_weak hf (P := fun s => s.inv = .lock ∧ s.closing = true) (Q := fun s => s.inv ≠ .none ∧ s.inv ≠ .lock) ?_ ?_ ?_ ⟨hx, hcl _ h5⟩
      · intro s l t hp hs
        cases hs <;> simp_all
      · intro s l t hp hs hl
        cases hs <;> simp_all [isCloser]
      · intro s hp
        exact ⟨_, _, by trivial, .begin s hp.1⟩
    · exact ⟨m2, Nat.le_refl _, h5, hx⟩
  have hend : ∀ v m rest, (e.run m).inv = .run rest → rest.length ≤ v → ∃ m, (e.run m).inv = .done ∨ (e.run m).inv = .crashed := by
    intro v
    induction v with
    | zero =>
      intro m rest hr hv
      have : rest = [] := by simpa using hv
      subst this
      obtain ⟨m', _, hm'⟩ := e.leads_weak hf (P := fun s => s.inv = .run [] ∧ s.closing = true) (Q := fun s => s.inv = .done) (fun s l t hp hs => by cases hs <;> simp_all)
        (fun s l t hp hs hl => by cases hs <;> simp_all [isCloser]) (fun s hp => ⟨_, _, by trivial, .done s hp.1⟩) ⟨hr, hcl _ (by simp [hr])⟩
      exact ⟨m', .inl hm'⟩
    | succ v ih =>
      intro m rest hr hv
      cases rest with
      | nil => exact ih m [] hr (by simp)
      | cons x rest =>
        obtain ⟨m', _, hm' | hm'⟩ := e.leads_weak hf (P := fun s => s.inv = .run (x :: rest) ∧ s.closing = true) (Q := fun s => s.inv = .run rest ∨ s.inv = .crashed) (fun s l t hp hs => by cases hs <;> simp_all)
          (fun s l t hp hs hl => by cases hs <;> simp_all [isCloser]) (fun s hp => ⟨_, _, by trivial, .ran s x rest hp.1⟩) ⟨hr, hcl _ (by simp [hr])⟩
        · exact ih m' rest hm' (by simp at hv; omega)
        · exact ⟨m', .inr hm'⟩
  obtain ⟨m4, h9⟩ : ∃ m, (e.run m).inv = .done ∨ (e.run m).inv = .crashed := by
    cases hx : (e.run m3).inv with
    | none => exact absurd hx h7.1
    | lock => exact absurd hx h7.2
    | run rest => exact hend _ m3 rest hx (Nat.le_refl _)
    | done => exact ⟨m3, .inl hx⟩
    | crashed => exact ⟨m3, .inr hx⟩
  have hlab : ((e.run m4).inv = .done → .done ∈ e.trace m4) ∧ ((e.run m4).inv = .crashed → ∃ c, .raised c ∈ e.trace m4) := by
    have := e.steps m4
    rw [h0] at this
    refine this.invariant_trace (P := fun ls s => (s.inv = .done → .done ∈ ls) ∧ (s.inv = .crashed → ∃ c, .raised c ∈ ls)) (fun ls s l t hp hs => ?_) ⟨nofun, nofun⟩
    cases hs <;> simp_all
  rcases h9 with h9 | h9
  · obtain ⟨m, _, hm⟩ := e.mem_trace (hlab.1 h9)
    exact ⟨m, .inl hm⟩
  · obtain ⟨c, hc⟩ := hlab.2 h9
    obtain ⟨m, _, hm⟩ := e.mem_trace hc
    exact ⟨m, .inr ⟨c, hm⟩⟩

/-- After the end no callback runs any more. -/
theorem cb_quiet {k : Kind} {s t : CloseCb.State} {ls : List Label} (h : Steps (CloseCb.Step k) s ls t) (hc : s.closing = true) (hd : s.inv = .done ∨ s.inv = .crashed) : cbCalls ls = [] := by
  induction h with
  | nil => rfl
  | @cons s t u l ls hs _ ih =>
    have hh : t.closing = true ∧ (t.inv = .done ∨ t.inv = .crashed) ∧ cbCalls [l] = [] := by
      cases hs <;> simp_all [cbCalls]
    have := cbCalls_append [l] ls
    rw [hh.2.2, ih hh.1 hh.2.1] at this
    exact this

/-- A callback that panics keeps the later ones from running, on every kind of connection. -/
theorem C76_panic_refuted (k : Kind) : ∃ ls t, Steps (CloseCb.Step k) {} ls t ∧ ls = [.start, .call 0 (.add 0 0 (some 1)), .pass 0, .apply 0 (.add 0 0 (some 1)), .call 0 (.add 0 1 (some 2)), .pass 0,
    .apply 0 (.add 0 1 (some 2)), .cancel, .close, .spawn, .begin, .raised 1] ∧ ∀ ls' u, Steps (CloseCb.Step k) t ls' u → cbCalls ls' = [] :=
  ⟨_, _, .cons (.start _ rfl) (.cons (.call _ 0 _ rfl) (.cons (.pass _ 0 (.add 0 0 (some 1)) rfl (by cases k <;> rfl)) (.cons (.apply _ 0 _ rfl rfl) (.cons (.call _ 0 _ rfl)
    (.cons (.pass _ 0 (.add 0 1 (some 2)) rfl (by cases k <;> rfl)) (.cons (.apply _ 0 _ rfl rfl) (.cons (.cancel _ rfl) (.cons (.close _ rfl rfl) (.cons (.spawn _ rfl rfl) (.cons (.begin _ rfl)
    (.cons (.raised _ (0, 0, 1) [(0, 1, 2)] rfl) (.nil _)))))))))))), rfl, fun _ _ h => cb_quiet h rfl (.inr rfl)⟩

/-- A callback added while the connection was open, by a call that returned normally, is not run, if the connection is closed meanwhile. -/
theorem C76_race_refuted (k : Kind) : ∃ ls t, Steps (CloseCb.Step k) {} ls t ∧ ls = [.start, .call 0 (.add 0 0 (some 1)), .pass 0, .cancel, .close, .spawn, .begin, .done, .apply 0 (.add 0 0 (some 1))] ∧
    ∀ ls' u, Steps (CloseCb.Step k) t ls' u → cbCalls ls' = [] :=
  ⟨_, _, .cons (.start _ rfl) (.cons (.call _ 0 _ rfl) (.cons (.pass _ 0 (.add 0 0 (some 1)) rfl (by cases k <;> rfl)) (.cons (.cancel _ rfl) (.cons (.close _ rfl rfl) (.cons (.spawn _ rfl rfl) (.cons (.begin _ rfl)
    (.cons (.done _ rfl) (.cons (.apply _ 0 _ rfl rfl) (.nil _))))))))), rfl, fun _ _ h => cb_quiet h rfl (.inl rfl)⟩

/-- A callback added to a TCP connection that is not started yet is dropped without notice. -/
theorem C76_early_refuted : ∃ ls t, Steps (CloseCb.Step .tcp) {} ls t ∧ ls = [.call 0 (.add 0 0 (some 1)), .drop 0, .start, .cancel, .close, .spawn, .begin, .done] ∧
    ∀ ls' u, Steps (CloseCb.Step .tcp) t ls' u → cbCalls ls' = [] :=
  ⟨_, _, .cons (.call _ 0 _ rfl) (.cons (.drop _ 0 (.add 0 0 (some 1)) rfl rfl) (.cons (.start _ rfl) (.cons (.cancel _ rfl) (.cons (.close _ rfl rfl) (.cons (.spawn _ rfl rfl) (.cons (.begin _ rfl)
    (.cons (.done _ rfl) (.nil _)))))))), rfl, fun _ _ h => cb_quiet h rfl (.inl rfl)⟩

/-- The hypotheses of `C76_ends` can be met, and with them the first part of `C76_partial`: two callbacks, one of them removed. -/
example (k : Kind) : ∃ e : Exec (CloseCb.Step k), e.run 0 = {} ∧ (∃ n, e.act n = some .cancel) ∧ e.WeakFair isCloser ∧ cbCalls (e.trace 16) = [2] := by
  obtain ⟨e, h1, h2, h3, h4⟩ := Exec.ofSteps (step := CloseCb.Step k) (s := {}) (.cons (.start _ rfl) (.cons (.call _ 0 _ rfl) (.cons (.pass _ 0 (.add 0 0 (some 1)) rfl (by cases k <;> rfl))
    (.cons (.apply _ 0 _ rfl rfl) (.cons (.call _ 0 _ rfl) (.cons (.pass _ 0 (.add 0 1 (some 2)) rfl (by cases k <;> rfl)) (.cons (.apply _ 0 _ rfl rfl) (.cons (.call _ 5 _ rfl)
    (.cons (.pass _ 5 (.remove 0 0) rfl (by cases k <;> rfl)) (.cons (.apply _ 5 _ rfl rfl) (.cons (.cancel _ rfl) (.cons (.close _ rfl rfl) (.cons (.spawn _ rfl rfl) (.cons (.begin _ rfl)
    (.cons (.ran _ (0, 1, 2) [] rfl) (.cons (.done _ rfl) (.nil _)))))))))))))))))
  refine ⟨e, h1, ⟨10, by rw [h2]; rfl⟩, Exec.weakFair_of_end h4 ?_, by rw [h3]; rfl⟩
  rintro ⟨l, t, hl, hs⟩
  cases hs <;> simp [isCloser] at *

end Zinx.Props
