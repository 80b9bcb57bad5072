import Verif.Lemmas.WsLive

/-! C37, C38, C39, C40 for WebSocket connections. -/

namespace Zinx.Props

open WsSend (SPc WPc FPc Label)

/-! ## C37: after close -/

/-- Once the teardown is complete, a send begun afterwards writes nothing, queues nothing and does not return nil; no byte at all is written. Missing: sends between `Stop` and the end of the
teardown succeed (`C37_ws_refuted`). -/
theorem C37_ws_partial (cc i : Nat) (s t : WsSend.State) (ls ls' : List Label) (h : Steps (WsSend.Step cc) {} ls s) (hd : s.fin = .done) (hi : s.s i = .idle)
    (h' : Steps (WsSend.Step cc) s ls' t) : WsSend.wire ls' = [] ∧ (∀ m, .ret i m ∉ ls') ∧ (∀ m, .enq i m ∉ ls') ∧ .panic i ∉ ls' := by
  have hinv := WsSend.inv_steps h
  have hc := hinv.over hd
  have h1 : ∀ l ∈ ls', (∀ m, l ≠ .ret i m) ∧ (∀ m, l ≠ .enq i m) ∧ l ≠ .panic i := by
    have : WsSend.Late i s := ⟨hc, by rw [hi]; rfl⟩
    clear hi h hd hc hinv
    induction h' with
    | nil => nofun
    | cons hs _ ih =>
      obtain ⟨a, b, c, d, e⟩ := WsSend.late_step this hs
      intro l hl
      rcases List.mem_cons.1 hl with hl | hl
      · subst hl; exact ⟨c, d, e⟩
      · exact ih a l hl
  have h2 : WsSend.wire ls' = [] := by
    have : s.broken = true := (hinv.done hc).2
    clear h1 hi h hd hc hinv
    induction h' with
    | nil => rfl
    | @cons s l t ls u hs _ ih =>
      obtain ⟨a, b, c, d, e⟩ := WsSend.broken_step this hs
      have := ih a
      cases l <;> simp [WsSend.wire, this] at *
  exact ⟨h2, fun m hm => (h1 _ hm).1 m rfl, fun m hm => (h1 _ hm).2.1 m rfl, fun hm => (h1 _ hm).2.2 rfl⟩

/-- A direct and a buffered send begun after `Stop` return nil, and bytes are written: the connection counts as open until the finalizer has run, and the stop hook of the user comes first. -/
theorem C37_ws_refuted : ∃ ls t, Steps (WsSend.Step 1024) {} (.stop :: ls) t ∧ .call 0 [1] false ∈ ls ∧ .ret 0 [1] ∈ ls ∧ .call 1 [2] true ∈ ls ∧ .enq 1 [2] ∈ ls ∧
    WsSend.wire ls = [1] := by
  refine ⟨[.call 0 [1] false, .lock 0, .write 0 [1], .ret 0 [1], .call 1 [2] true, .lock 1, .enq 1 [2]], _, .cons (.stop _) (.cons (.call _ 0 [1] false rfl) (.cons (.directOpen _ 0 [1] rfl rfl rfl)
    (.cons (.write _ 0 [] [1] [] rfl nofun rfl) (.cons (.writeEnd _ 0 [1] rfl rfl) (.cons (.call _ 1 [2] true rfl) (.cons (.buffOpen _ 1 [2] rfl rfl rfl)
    (.cons (.enq _ 1 [2] ⟨[], false⟩ rfl rfl rfl (by decide)) (.nil _)))))))), by simp, by simp, by simp, by simp, rfl⟩

/-- The connection is torn down, and a send begun afterwards gets an error. -/
example : ∃ ls s ls' t, Steps (WsSend.Step 1024) {} ls s ∧ s.fin = .done ∧ s.s 0 = .idle ∧ Steps (WsSend.Step 1024) s ls' t ∧ .call 0 [1] true ∈ ls' ∧ .refuse 0 ∈ ls' :=
  ⟨[.stop, .fin, .fin, .fin, .fin, .fin], _, [.call 0 [1] true, .refuse 0], _, .cons (.stop _) (.cons (.finStart _ rfl rfl) (.cons (.hookDone _ rfl) (.cons (.finLock _ rfl rfl rfl)
    (.cons (.finSock _ rfl) (.cons (.finNoChan _ rfl rfl) (.nil _)))))), rfl, rfl, .cons (.call _ 0 [1] true rfl) (.cons (.buffClosed _ 0 [1] rfl rfl rfl) (.nil _)), by simp, by simp⟩

/-! ## C38: whole messages -/

/-- No two goroutines are in `WriteMessage` at the same time (the library panics if they are). -/
theorem C38_ws_exclusive (cc : Nat) (t : WsSend.State) (ls : List Label) (h : Steps (WsSend.Step cc) {} ls t) (i : Nat) (o r : WsSend.Bytes) (hi : t.s i = .write o r) :
    (∀ j o' r', t.s j = .write o' r' → j = i) ∧ ∀ o' r', t.writer ≠ .write o' r' := by
  have hinv := WsSend.inv_steps h
  have h1 := hinv.sender i (by rw [hi]; rfl)
  refine ⟨fun j o' r' hj => ?_, fun o' r' hw => ?_⟩
  · have h2 := hinv.sender j (by rw [hj]; rfl)
    rw [h1] at h2
    injection h2 with h2
    injection h2 with h2
    exact h2.symm
  · have h2 := hinv.writer (by rw [hw]; rfl)
    rw [h1] at h2; cases h2

/-- The wire carries whole messages that were given to a send, one after the other, followed by a piece of one more: nothing, if the network has not failed and nobody is writing. The messages of the
writer are, in order, the first of the queued ones. -/
theorem C38_ws (cc : Nat) (t : WsSend.State) (ls : List Label) (h : Steps (WsSend.Step cc) {} ls t) :
    (∃ p, WsSend.wire ls = (WsSend.sent ls).flatten ++ p ∧ (p ≠ [] → ∃ i m b, .call i m b ∈ ls ∧ p <+: m) ∧
      (t.broken = false → (∀ i o r, t.s i ≠ .write o r) → (∀ o r, t.writer ≠ .write o r) → p = [])) ∧
    (∀ m ∈ WsSend.sent ls, ∃ i b, .call i m b ∈ ls) ∧ WsSend.wends ls <+: WsSend.enqOf ls := by
  have hw := WsSend.wire_steps h
  refine ⟨?_, fun m hm => WsSend.mem_called.1 (hw.org.sent m hm), (WsSend.order_steps h).pre⟩
  obtain ⟨p, h1, h2⟩ := hw.wire
  refine ⟨p ++ t.cur, by rw [h1, List.append_assoc], fun hne => ?_, fun hb hi hwr => ?_⟩
  · by_cases hp : p = []
    · subst hp
      have hcur : ∃ m, m ∈ WsSend.called ls ∧ t.cur <+: m := by
        unfold WsSend.State.cur at hne ⊢
        cases hl : t.lock with
        | none => rw [hl] at hne; exact absurd rfl hne
        | some o =>
          rw [hl] at hne
          cases o with
          | fin => exact absurd rfl hne
          | sender i =>
            cases hi : t.s i with
            | write o r => exact ⟨o ++ r, hw.org.snd i _ (by rw [hi]; rfl), by simp [hi]⟩
            | _ => simp [hi] at hne
          | writer =>
            cases hi : t.writer with
            | write o r => exact ⟨o ++ r, hw.org.wr _ (by rw [hi]; rfl), by simp⟩
            | _ => simp [hi] at hne
      obtain ⟨m, hm, hpre⟩ := hcur
      obtain ⟨i, b, hc⟩ := WsSend.mem_called.1 hm
      exact ⟨i, m, b, hc, hpre⟩
    · obtain ⟨_, hc, m, hm, hpre⟩ := h2 hp
      obtain ⟨i, b, hcl⟩ := WsSend.mem_called.1 hm
      exact ⟨i, m, b, hcl, by rw [hc, List.append_nil]; exact hpre⟩
  · have hp : p = [] := by
      apply Classical.byContradiction
      intro hp; have := (h2 hp).1; rw [hb] at this; cases this
    have hc : t.cur = [] := by
      unfold WsSend.State.cur
      cases hl : t.lock with
      | none => rfl
      | some o =>
        cases o with
        | fin => rfl
        | sender i =>
          cases hi' : t.s i with
          | write o r => exact absurd hi' (hi i o r)
          | _ => simp [hi']
        | writer =>
          cases hi' : t.writer with
          | write o r => exact absurd hi' (hwr o r)
          | _ => rfl
    rw [hp, hc]; rfl

/-- Direct and buffered sends in turns; the buffered ones are received while a direct one is being written. -/
example : ∃ ls t, Steps (WsSend.Step 1024) {} ls t ∧ WsSend.enqOf ls = [[1, 2], [3, 4]] ∧ WsSend.wire ls = [5, 6, 1, 2] ∧ WsSend.sent ls = [[5, 6], [1, 2]] ∧ WsSend.wends ls = [[1, 2]] := by
  refine ⟨[.call 0 [1, 2] true, .lock 0, .enq 0 [1, 2], .call 1 [3, 4] true, .lock 1, .enq 1 [3, 4], .call 2 [5, 6] false, .lock 2, .recv, .write 2 [5], .write 2 [6], .ret 2 [5, 6], .wlock,
    .wwrite [1, 2], .wend [1, 2]], _, .cons (.call _ 0 [1, 2] true rfl) (.cons (.buffOpen _ 0 [1, 2] rfl rfl rfl) (.cons (.enq _ 0 [1, 2] ⟨[], false⟩ rfl rfl rfl (by decide))
    (.cons (.call _ 1 [3, 4] true rfl) (.cons (.buffOpen _ 1 [3, 4] rfl rfl rfl) (.cons (.enq _ 1 [3, 4] ⟨[[1, 2]], false⟩ rfl rfl rfl (by decide)) (.cons (.call _ 2 [5, 6] false rfl)
    (.cons (.directOpen _ 2 [5, 6] rfl rfl rfl) (.cons (.recv _ [1, 2] [[3, 4]] false rfl rfl) (.cons (.write _ 2 [] [5] [6] rfl nofun rfl) (.cons (.write _ 2 [5] [6] [] rfl nofun rfl)
    (.cons (.writeEnd _ 2 [5, 6] rfl rfl) (.cons (.wOpen _ [1, 2] rfl rfl rfl) (.cons (.wwrite _ [] [1, 2] [] rfl nofun rfl) (.cons (.wend _ [1, 2] rfl rfl) (.nil _))))))))))))))),
    rfl, rfl, rfl, rfl⟩

/-! ## C39: buffered sends do not crash -/

/-- No send and no finalizer panics, also while the connection closes. -/
theorem C39_ws (cc : Nat) (t : WsSend.State) (ls : List Label) (h : Steps (WsSend.Step cc) {} ls t) : .finPanic ∉ ls ∧ ∀ i, .panic i ∉ ls := by
  have hl : ∀ l ∈ ls, l ≠ .finPanic ∧ ∀ i, l ≠ .panic i := by
    have h0 := WsSend.inv_init
    generalize ({} : WsSend.State) = s at h h0
    induction h with
    | nil => nofun
    | cons hs _ ih =>
      intro l hl
      rcases List.mem_cons.1 hl with hl | hl
      · subst hl; exact WsSend.no_panic h0 hs
      · exact ih (WsSend.inv_step h0 hs) l hl
  exact ⟨fun hm => (hl _ hm).1 rfl, fun i hm => (hl _ hm).2 i rfl⟩

/-- A sender waits at the lock while the finalizer closes the channel; it gets an error. -/
example : ∃ ls t, Steps (WsSend.Step 1) {} ls t ∧ .enq 0 [1] ∈ ls ∧ .refuse 1 ∈ ls ∧ t.chan = some ⟨[[1]], true⟩ :=
  ⟨[.call 0 [1] true, .lock 0, .enq 0 [1], .stop, .fin, .fin, .call 1 [2] true, .fin, .fin, .fin, .refuse 1], _, .cons (.call _ 0 [1] true rfl) (.cons (.buffOpen _ 0 [1] rfl rfl rfl)
    (.cons (.enq _ 0 [1] ⟨[], false⟩ rfl rfl rfl (by decide)) (.cons (.stop _) (.cons (.finStart _ rfl rfl) (.cons (.hookDone _ rfl) (.cons (.call _ 1 [2] true rfl) (.cons (.finLock _ rfl rfl rfl)
    (.cons (.finSock _ rfl) (.cons (.finChan _ ⟨[[1]], false⟩ rfl rfl rfl) (.cons (.buffClosed _ 1 [2] rfl rfl rfl) (.nil _))))))))))), by simp, by simp, rfl⟩

/-- Every call returns, in every execution in which whoever holds the lock goes on and the caller gets the lock if it is free again and again. -/
theorem C39_ws_returns (cc : Nat) (e : Exec (WsSend.Step cc)) (h0 : e.run 0 = {}) (hs : ∀ i, e.WeakFair (Label.inside i)) (hw : e.WeakFair Label.winside)
    (hf : e.WeakFair (fun l => l = .fin ∨ l = .finPanic)) (i : Nat) (ha : e.StrongFair (Label.acquire i)) (n : Nat) : ∃ m, n ≤ m ∧ (e.run m).s i = .idle :=
  WsSend.call_returns e h0 hs hw hf i ha n

/-! ## C40: a buffered send that returned nil is transmitted -/

/-- If the connection is not stopped and the network does not fail, everything queued is written in the end, in order. Missing: the case that the connection is stopped (`C40_ws_refuted`). -/
theorem C40_ws_partial (cc : Nat) (e : Exec (WsSend.Step cc)) (h0 : e.run 0 = {}) (hq : ∀ n, (e.run n).cancelled = false ∧ (e.run n).broken = false)
    (hs : ∀ i, e.WeakFair (Label.inside i)) (hw : e.WeakFair Label.winside) (ha : e.StrongFair (· = .wlock)) (hr : e.WeakFair (· = .recv)) (n : Nat) :
    ∃ m, n ≤ m ∧ WsSend.enqOf (e.trace n) <+: WsSend.wends (e.trace m) := by
  refine WsSend.all_written e h0 hq hs hw (fun n hn => ?_) ha hr n
  obtain ⟨l, t, hl, hs⟩ := hn n (Nat.le_refl _)
  have h1 := (WsSend.exec_inv e h0 n).running (hq n).1
  have h2 := (hq n).1
  exfalso
  generalize e.run n = s at hs h1 h2
  rcases hl with hl | hl <;> subst hl <;> cases hs <;> simp_all

/-- Stopped right after the send: the writer sees the context done and returns; the message is never written, though the network works. -/
theorem C40_ws_refuted : ∃ ls t, Steps (WsSend.Step 1024) {} ls t ∧ .enq 0 [1] ∈ ls ∧ t.broken = false ∧ (∀ x, .wwrite x ∉ ls) ∧
    ∀ ls' u, Steps (WsSend.Step 1024) t ls' u → (∀ m, .wend m ∉ ls') ∧ ∀ x, .wwrite x ∉ ls' := by
  have key : ∀ s l t, (s.writer = .gone ∧ s.chan ≠ none) → WsSend.Step 1024 s l t → (t.writer = .gone ∧ t.chan ≠ none) ∧ (∀ m, l ≠ .wend m) ∧ ∀ x, l ≠ .wwrite x := by
    intro s l t h hs
    obtain ⟨h1, h2⟩ := h
    cases hs <;> simp [WsSend.withChan_eq] at * <;> grind
  have h0 : ∀ (ls' : List Label) (u s : WsSend.State), (s.writer = .gone ∧ s.chan ≠ none) → Steps (WsSend.Step 1024) s ls' u → (∀ m, .wend m ∉ ls') ∧ ∀ x, .wwrite x ∉ ls' := by
    intro ls' u s hs h
    induction h with
    | nil => exact ⟨nofun, nofun⟩
    | cons hst _ ih =>
      obtain ⟨a, b, c⟩ := key _ _ _ hs hst
      obtain ⟨d, e⟩ := ih a
      exact ⟨fun m hm => (List.mem_cons.1 hm).elim (fun h => b m h.symm) (d m), fun x hm => (List.mem_cons.1 hm).elim (fun h => c x h.symm) (e x)⟩
  refine ⟨[.call 0 [1] true, .lock 0, .enq 0 [1], .stop, .wdone], _, .cons (.call _ 0 [1] true rfl) (.cons (.buffOpen _ 0 [1] rfl rfl rfl)
    (.cons (.enq _ 0 [1] ⟨[], false⟩ rfl rfl rfl (by decide)) (.cons (.stop _) (.cons (.ctxDone _ rfl rfl) (.nil _))))), by simp, rfl, by simp, fun ls' u h => ?_⟩
  exact h0 _ _ _ ⟨rfl, by simp⟩ h

/-! An execution that meets the assumptions of `C39_ws_returns` and `C40_ws_partial`. -/

def wsQuiet (pc : WPc) (items : List WsSend.Bytes) (lock : Option WsSend.Owner) : WsSend.State := { chan := some ⟨items, false⟩, writer := pc, lock := lock }

def wsRun : Nat → WsSend.State
  | 0 => {}
  | 1 => { s := WsSend.set (fun _ => .idle) 0 (.want [1] true) }
  | 2 => { chan := some ⟨[], false⟩, writer := .select, lock := some (.sender 0), s := WsSend.set (fun _ => .idle) 0 (.sel [1]) }
  | 3 => wsQuiet .select [[1]] none
  | 4 => wsQuiet (.want [1]) [] none
  | 5 => wsQuiet (.write [] [1]) [] (some .writer)
  | 6 => wsQuiet (.write [1] []) [] (some .writer)
  | _ + 7 => wsQuiet .select [] none

def wsAct : Nat → Option Label
  | 0 => some (.call 0 [1] true)
  | 1 => some (.lock 0)
  | 2 => some (.enq 0 [1])
  | 3 => some .recv
  | 4 => some .wlock
  | 5 => some (.wwrite [1])
  | 6 => some (.wend [1])
  | _ + 7 => none

theorem ws_step_eq {cc : Nat} {s t u : WsSend.State} {l : Label} (h : WsSend.Step cc s l t) (e : t = u) : WsSend.Step cc s l u := e ▸ h

def wsEx : Exec (WsSend.Step 1024) where
  run := wsRun
  act := wsAct
  next n := match n with
    | 0 => .call _ 0 [1] true rfl
    | 1 => ws_step_eq (.buffOpen _ 0 [1] rfl rfl rfl) (by
        simp only [wsRun, WsSend.State.withChan, WsSend.State.mk.injEq]
        refine ⟨trivial, trivial, trivial, trivial, trivial, trivial, trivial, ?_⟩; funext j; simp only [WsSend.set]; split <;> rfl)
    | 2 => ws_step_eq (.enq _ 0 [1] ⟨[], false⟩ rfl rfl rfl (by decide)) (by
        simp only [wsRun, wsQuiet, WsSend.State.mk.injEq]
        refine ⟨trivial, trivial, trivial, trivial, rfl, trivial, trivial, ?_⟩; funext j; simp [WsSend.set])
    | 3 => .recv _ [1] [] false rfl rfl
    | 4 => .wOpen _ [1] rfl rfl rfl
    | 5 => .wwrite _ [] [1] [] rfl nofun rfl
    | 6 => .wend _ [1] rfl rfl
    | _ + 7 => rfl

theorem wsEx_quiet (n : Nat) : (wsEx.run n).cancelled = false ∧ (wsEx.run n).broken = false := by
  rcases n with _ | _ | _ | _ | _ | _ | _ | n <;> exact ⟨rfl, rfl⟩

/-- At the end only new calls, a stop or a failure of the network are possible. -/
theorem wsEx_end {n : Nat} {A : Label → Prop} (h : Enabled (WsSend.Step 1024) A (wsEx.run (n + 7))) : A .stop ∨ A .netFail ∨ ∃ i m b, A (.call i m b) := by
  obtain ⟨l, t, hA, hs⟩ := h
  have h1 : wsEx.run (n + 7) = wsQuiet .select [] none := rfl
  rw [h1] at hs
  generalize hq : wsQuiet .select [] none = s at hs
  have e1 : s.writer = .select := by rw [← hq]; rfl
  have e2 : ∀ i, s.s i = .idle := by intro i; rw [← hq]; rfl
  have e3 : s.fin = .waiting := by rw [← hq]; rfl
  have e4 : s.cancelled = false := by rw [← hq]; rfl
  have e5 : s.chan = some ⟨[], false⟩ := by rw [← hq]; rfl
  cases hs
  case call i m b _ => exact .inr (.inr ⟨i, m, b, hA⟩)
  all_goals (simp_all <;> grind)

theorem wsEx_weak (A : Label → Prop) (h1 : ¬ A .stop) (h2 : ¬ A .netFail) (h3 : ∀ i m b, ¬ A (.call i m b)) : wsEx.WeakFair A := by
  intro n hn
  rcases wsEx_end (hn (n + 7) (by omega)) with h | h | ⟨i, m, b, h⟩
  · exact absurd h h1
  · exact absurd h h2
  · exact absurd h (h3 i m b)

theorem wsEx_strong (A : Label → Prop) (h1 : ¬ A .stop) (h2 : ¬ A .netFail) (h3 : ∀ i m b, ¬ A (.call i m b)) : wsEx.StrongFair A := by
  intro n hn
  obtain ⟨k, hk, hE⟩ := hn (n + 7) (by omega)
  obtain ⟨j, rfl⟩ : ∃ j, k = j + 7 := ⟨k - 7, by omega⟩
  rcases wsEx_end hE with h | h | ⟨i, m, b, h⟩
  · exact absurd h h1
  · exact absurd h h2
  · exact absurd h (h3 i m b)

example : wsEx.run 0 = {} ∧ (∀ n, (wsEx.run n).cancelled = false ∧ (wsEx.run n).broken = false) ∧ (∀ i, wsEx.WeakFair (Label.inside i)) ∧ wsEx.WeakFair Label.winside ∧
    wsEx.WeakFair (fun l => l = .fin ∨ l = .finPanic) ∧ wsEx.StrongFair (· = .wlock) ∧ wsEx.WeakFair (· = .recv) ∧ (∀ i, wsEx.StrongFair (Label.acquire i)) ∧
    WsSend.enqOf (wsEx.trace 3) = [[1]] ∧ WsSend.wends (wsEx.trace 3) = [] ∧ WsSend.wends (wsEx.trace 7) = [[1]] :=
  ⟨rfl, wsEx_quiet, fun _ => wsEx_weak _ id id (fun _ _ _ => id), wsEx_weak _ id id (fun _ _ _ => id), wsEx_weak _ (by simp) (by simp) (by simp), wsEx_strong _ (by simp) (by simp) (by simp),
    wsEx_weak _ (by simp) (by simp) (by simp), fun _ => wsEx_strong _ id id (fun _ _ _ => id), rfl, rfl, rfl⟩

end Zinx.Props
