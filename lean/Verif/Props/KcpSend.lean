import Verif.Lemmas.KcpLive

/-! C37, C38, C39, C40 for KCP connections. -/

namespace Zinx.Props

open KcpSend (SPc WPc FPc Label Kind)

/-! ## C37: after close -/

/-- Once the connection counts as closed (which is so before the stop hook of the user is called), a send begun afterwards writes nothing, queues nothing and does not return nil; after the teardown
nothing at all is written. Missing: sends between `Stop` and the moment the connection counts as closed succeed (`C37_kcp_refuted`). -/
theorem C37_kcp_partial (cc i : Nat) (s t : KcpSend.State) (ls ls' : List Label) (h : Steps (KcpSend.Step cc) {} ls s) (hc : s.closed = true) (hi : s.s i = .idle)
    (h' : Steps (KcpSend.Step cc) s ls' t) : ((∀ m, .write i m ∉ ls') ∧ (∀ m c, .enq i m c ∉ ls') ∧ .panic i ∉ ls') ∧ (s.fin = .done → KcpSend.wire ls' = []) := by
  have hinv := KcpSend.invF_steps h
  refine ⟨?_, fun hd => ?_⟩
  · have h1 : ∀ l ∈ ls', (∀ m, l ≠ .write i m) ∧ (∀ m c, l ≠ .enq i m c) ∧ l ≠ .panic i := by
      have : KcpSend.Late i s := ⟨hc, by rw [hi]; rfl⟩
      clear hi h hc hinv
      induction h' with
      | nil => nofun
      | cons hs _ ih =>
        obtain ⟨a, b⟩ := KcpSend.late_step this hs
        intro l hl
        rcases List.mem_cons.1 hl with hl | hl
        · subst hl; exact b
        · exact ih a l hl
    exact ⟨fun m hm => (h1 _ hm).1 m rfl, fun m c hm => (h1 _ hm).2.1 m c rfl, fun hm => (h1 _ hm).2.2 rfl⟩
  · have : s.broken = true := hinv.done hd
    clear hi h hc hinv hd
    induction h' with
    | nil => rfl
    | @cons _ _ _ l _ hs _ ih =>
      obtain ⟨a, b, c⟩ := KcpSend.broken_step this hs
      have := ih a
      cases l <;> simp [KcpSend.wire, this] at *

/-- A direct and a buffered send begun after `Stop` return nil, and the message is written. -/
theorem C37_kcp_refuted : ∃ ls t, Steps (KcpSend.Step 1024) {} (.stop :: ls) t ∧ .call 0 [1] .msg ∈ ls ∧ .write 0 [1] ∈ ls ∧ .call 1 [2] .buff ∈ ls ∧ .enq 1 [2] 0 ∈ ls ∧
    KcpSend.wire ls = [[1]] :=
  ⟨[.call 0 [1] .msg, .own 0, .rlock 0, .write 0 [1], .call 1 [2] .buff, .own 1, .own 1, .make 1, .own 1, .enq 1 [2] 0], _, .cons (.stop _) (.cons (.call _ 0 [1] .msg rfl)
    (.cons (.msgOpen _ 0 [1] rfl rfl) (.cons (.sendOpen _ 0 [1] rfl rfl rfl) (.cons (.write _ 0 [1] rfl rfl) (.cons (.call _ 1 [2] .buff rfl) (.cons (.buffOpen _ 1 [2] rfl rfl)
    (.cons (.isNil _ 1 [2] false rfl rfl) (.cons (.make _ 1 [2] false rfl) (.cons (.eval _ 1 [2] false 0 rfl rfl) (.cons (.enq _ 1 [2] false 0 rfl rfl (by decide)) (.nil _))))))))))),
    by simp, by simp, by simp, by simp, rfl⟩

/-- The connection is stopped; in the stop hook a direct and a queued send get errors. -/
example : ∃ ls s ls' t, Steps (KcpSend.Step 1024) {} ls s ∧ s.closed = true ∧ s.s 0 = .idle ∧ Steps (KcpSend.Step 1024) s ls' t ∧ ls' = [.call 0 [1] .msg, .retErr 0, .call 0 [1] .queue, .rlock 0,
    .own 0, .make 0, .retErr 0] :=
  ⟨[.stop, .fin], _, _, _, .cons (.stop _) (.cons (.finStart _ rfl rfl) (.nil _)), rfl, rfl, .cons (.call _ 0 [1] .msg rfl) (.cons (.msgClosed _ 0 [1] rfl rfl) (.cons (.call _ 0 [1] .queue rfl)
    (.cons (.queueLock _ 0 [1] rfl rfl) (.cons (.isNil _ 0 [1] true rfl rfl) (.cons (.make _ 0 [1] true rfl) (.cons (.queueClosed _ 0 [1] rfl rfl) (.nil _))))))), rfl⟩

/-! ## C38: whole messages, in order -/

/-- Every message written was given to a send (a `Write` of kcp-go takes a whole message). If some buffered send succeeded before a second goroutine used buffered sends, the messages of the writer are,
in order, the first of the queued ones. Missing: concurrent first uses (`C38_kcp_refuted`). -/
theorem C38_kcp_partial (cc : Nat) (t : KcpSend.State) (ls : List Label) (h : Steps (KcpSend.Step cc) {} ls t) :
    (∀ m ∈ KcpSend.wire ls, ∃ i k, .call i m k ∈ ls) ∧
    ∀ i ls₁ ls₂, ls = ls₁ ++ ls₂ → (∀ j m k, .call j m k ∈ ls₁ → k = .buff ∨ k = .queue → j = i) → (ls₂ = [] ∨ ∃ m c, .enq i m c ∈ ls₁) →
      KcpSend.written ls <+: KcpSend.queued ls := by
  refine ⟨fun m hm => KcpSend.mem_called.1 ((KcpSend.origin_steps h).wire m hm), fun i ls₁ ls₂ e h1 h2 => ?_⟩
  have hn : t.nch ≤ 1 := by
    subst e
    obtain ⟨s, ha, hb⟩ := h.split
    have hal := KcpSend.alone_steps ha h1
    rcases h2 with h2 | ⟨m, c, h2⟩
    · subst h2; cases hb; exact hal.one
    · have hp := KcpSend.queued_nch ha (by
        intro h3
        have : ∀ {ls : List Label}, .enq i m c ∈ ls → KcpSend.queued ls ≠ [] := by
          intro ls
          induction ls with
          | nil => nofun
          | cons l ls ih => intro hm; cases l <;> simp [KcpSend.queued] at * <;> exact ih hm
        exact this h2 h3)
      have := hb.invariant (P := fun s => KcpSend.Settled s) (fun _ _ _ h hs => KcpSend.settled_step h hs) (KcpSend.alone_settled (KcpSend.invC_steps ha) hal hp)
      have := this.one
      omega
  rcases (KcpSend.order_steps h).order hn with h3 | h3
  · rw [h3, List.append_assoc]; exact List.prefix_append _ _
  · exact h3.2.1

/-- Two goroutines use buffered sends for the first time at once. Each of them makes a channel and starts a writer. Afterwards one goroutine sends two messages, one after the other, and they are
written in the wrong order. The connection is open and the network works all the time. -/
theorem C38_kcp_refuted : ∃ ls t, Steps (KcpSend.Step 1024) {} ls t ∧ t.cancelled = false ∧ t.broken = false ∧ (∃ a b, ls = a ++ [.enq 0 [1] 1, .call 0 [2] .buff] ++ b) ∧
    KcpSend.queued ls = [[3], [1], [2]] ∧ KcpSend.written ls = [[3], [2], [1]] :=
  ⟨[.call 0 [3] .buff, .own 0, .own 0, .call 1 [9] .buff, .own 1, .own 1, .make 0, .make 1, .own 0, .enq 0 [3] 1, .weval 0, .weval 1, .recv 0, .wlock 0, .wwrite 0 [3],
      .call 0 [1] .buff, .own 0, .own 0, .own 0] ++ [.enq 0 [1] 1, .call 0 [2] .buff] ++ [.own 0, .own 0, .own 0, .enq 0 [2] 1, .recv 1, .weval 0, .recv 0, .wlock 0, .wwrite 0 [2], .wlock 1,
      .wwrite 1 [1]], _,
    .cons (.call _ 0 [3] .buff rfl) (.cons (.buffOpen _ 0 [3] rfl rfl) (.cons (.isNil _ 0 [3] false rfl rfl) (.cons (.call _ 1 [9] .buff rfl) (.cons (.buffOpen _ 1 [9] rfl rfl)
    (.cons (.isNil _ 1 [9] false rfl rfl) (.cons (.make _ 0 [3] false rfl) (.cons (.make _ 1 [9] false rfl) (.cons (.eval _ 0 [3] false 1 rfl rfl) (.cons (.enq _ 0 [3] false 1 rfl rfl (by decide))
    (.cons (.weval _ 0 1 rfl rfl) (.cons (.weval _ 1 1 rfl rfl) (.cons (.recv _ 0 1 [3] [] rfl rfl) (.cons (.wOpen _ 0 [3] rfl rfl rfl) (.cons (.wwrite _ 0 [3] rfl rfl)
    (.cons (.call _ 0 [1] .buff rfl) (.cons (.buffOpen _ 0 [1] rfl rfl) (.cons (.notNil _ 0 [1] false 1 rfl rfl) (.cons (.eval _ 0 [1] false 1 rfl rfl) (.cons (.enq _ 0 [1] false 1 rfl rfl (by decide))
    (.cons (.call _ 0 [2] .buff rfl) (.cons (.buffOpen _ 0 [2] rfl rfl) (.cons (.notNil _ 0 [2] false 1 rfl rfl) (.cons (.eval _ 0 [2] false 1 rfl rfl) (.cons (.enq _ 0 [2] false 1 rfl rfl (by decide))
    (.cons (.recv _ 1 1 [1] [[2]] rfl rfl) (.cons (.weval _ 0 1 rfl rfl) (.cons (.recv _ 0 1 [2] [] rfl rfl) (.cons (.wOpen _ 0 [2] rfl rfl rfl) (.cons (.wwrite _ 0 [2] rfl rfl)
    (.cons (.wOpen _ 1 [1] rfl rfl rfl) (.cons (.wwrite _ 1 [1] rfl rfl) (.nil _)))))))))))))))))))))))))))))))),
    rfl, rfl, ⟨_, _, rfl⟩, rfl, rfl⟩

/-- One goroutine queues a message, then a second one; the first is written. -/
example : ∃ ls t ls₁ ls₂, Steps (KcpSend.Step 1024) {} ls t ∧ ls = ls₁ ++ ls₂ ∧ (∀ j m k, .call j m k ∈ ls₁ → k = .buff ∨ k = .queue → j = 0) ∧ .enq 0 [1] 0 ∈ ls₁ ∧ .enq 1 [2] 0 ∈ ls₂ ∧
    KcpSend.queued ls = [[1], [2]] ∧ KcpSend.written ls = [[1]] :=
  ⟨_, _, [.call 0 [1] .buff, .own 0, .own 0, .make 0, .own 0, .enq 0 [1] 0], [.call 1 [2] .queue, .rlock 1, .own 1, .own 1, .own 1, .enq 1 [2] 0, .weval 0, .recv 0, .wlock 0, .wwrite 0 [1]],
    .cons (.call _ 0 [1] .buff rfl) (.cons (.buffOpen _ 0 [1] rfl rfl) (.cons (.isNil _ 0 [1] false rfl rfl) (.cons (.make _ 0 [1] false rfl) (.cons (.eval _ 0 [1] false 0 rfl rfl)
    (.cons (.enq _ 0 [1] false 0 rfl rfl (by decide)) (.cons (.call _ 1 [2] .queue rfl) (.cons (.queueLock _ 1 [2] rfl rfl) (.cons (.notNil _ 1 [2] true 0 rfl rfl) (.cons (.queueOpen _ 1 [2] rfl rfl)
    (.cons (.eval _ 1 [2] true 0 rfl rfl) (.cons (.enq _ 1 [2] true 0 rfl rfl (by decide)) (.cons (.weval _ 0 0 rfl rfl) (.cons (.recv _ 0 0 [1] [[2]] rfl rfl) (.cons (.wOpen _ 0 [1] rfl rfl rfl)
    (.cons (.wwrite _ 0 [1] rfl rfl) (.nil _)))))))))))))))), rfl, by simp +contextual, by simp, by simp, rfl, rfl⟩

/-! ## C39: buffered sends do not crash -/

/-- The finalizer does not panic; a goroutine that does not use `SendBuffMsg` does not panic, also while the connection closes; nobody panics unless the connection is stopped. Missing: `SendBuffMsg`
while the connection closes (`C39_kcp_refuted`). -/
theorem C39_kcp_partial (cc : Nat) (t : KcpSend.State) (ls : List Label) (h : Steps (KcpSend.Step cc) {} ls t) :
    .finPanic ∉ ls ∧ ∀ i, .panic i ∈ ls → (∃ m, .call i m .buff ∈ ls) ∧ .stop ∈ ls := by
  have key : KcpSend.InvF t ∧ (t.cancelled = true → .stop ∈ ls) ∧ .finPanic ∉ ls ∧ ∀ i, ((t.s i).loose = true → ∃ m, .call i m .buff ∈ ls) ∧
      (.panic i ∈ ls → (∃ m, .call i m .buff ∈ ls) ∧ .stop ∈ ls) := by
    refine h.invariant_trace (P := fun ls t => KcpSend.InvF t ∧ (t.cancelled = true → .stop ∈ ls) ∧ .finPanic ∉ ls ∧ ∀ i, ((t.s i).loose = true → ∃ m, .call i m .buff ∈ ls) ∧
      (.panic i ∈ ls → (∃ m, .call i m .buff ∈ ls) ∧ .stop ∈ ls)) (fun ls s l t hp hs => ?_) ⟨KcpSend.invF_init, nofun, nofun, fun _ => ⟨nofun, nofun⟩⟩
    obtain ⟨h1, h2, h3, h4⟩ := hp
    obtain ⟨g1, g2⟩ := KcpSend.panic_step h1 hs
    refine ⟨KcpSend.invF_step h1 hs, fun hc => ?_, by simp [h3, Ne.symm g1], fun i => ⟨fun hl => ?_, fun hm => ?_⟩⟩
    · by_cases hc' : s.cancelled = true
      · simp [h2 hc']
      · cases hs <;> simp_all
    · by_cases hl' : (s.s i).loose = true
      · obtain ⟨m, hm⟩ := (h4 i).1 hl'
        exact ⟨m, by simp [hm]⟩
      · apply Classical.byContradiction
        intro hno
        have := KcpSend.loose_step (i := i) (by simpa using hl') hs (fun m e => hno ⟨m, by simp [e]⟩)
        rw [this] at hl; cases hl
    · rcases List.mem_append.1 hm with hm | hm
      · obtain ⟨⟨m, h5⟩, h6⟩ := (h4 i).2 hm
        exact ⟨⟨m, by simp [h5]⟩, by simp [h6]⟩
      · obtain ⟨g3, g4⟩ := g2 i (List.mem_singleton.1 hm).symm
        obtain ⟨m, h5⟩ := (h4 i).1 g3
        refine ⟨⟨m, by simp [h5]⟩, ?_⟩
        have : s.cancelled = true := by
          cases hc : s.cancelled with
          | true => rfl
          | false => have := h1.running hc; rw [g4] at this; cases this
        simp [h2 this]
  exact ⟨key.2.2.1, fun i => (key.2.2.2 i).2⟩

/-- `SendBuffMsg` has found the connection open and waits for room in its `select` when the finalizer closes the channel: the goroutine panics. -/
theorem C39_kcp_refuted : ∃ ls t, Steps (KcpSend.Step 1024) {} ls t ∧ .call 0 [1] .buff ∈ ls ∧ .panic 0 ∈ ls :=
  ⟨[.call 0 [1] .buff, .own 0, .own 0, .make 0, .own 0, .stop, .fin, .fin, .fin, .fin, .fin, .panic 0], _, .cons (.call _ 0 [1] .buff rfl) (.cons (.buffOpen _ 0 [1] rfl rfl)
    (.cons (.isNil _ 0 [1] false rfl rfl) (.cons (.make _ 0 [1] false rfl) (.cons (.eval _ 0 [1] false 0 rfl rfl) (.cons (.stop _) (.cons (.finStart _ rfl rfl) (.cons (.hookDone _ rfl)
    (.cons (.finLock _ rfl (by intro i; simp only [KcpSend.set]; split <;> rfl) (by intro i; simp only [KcpSend.set]; split <;> rfl)) (.cons (.finSock _ rfl) (.cons (.finChan _ 0 rfl rfl rfl)
    (.cons (.enqPanic _ 0 [1] false 0 rfl rfl) (.nil _)))))))))))), by simp, by simp⟩

/-- Every call returns, in every execution in which the caller and the finalizer go on when they can. -/
theorem C39_kcp_returns (cc : Nat) (e : Exec (KcpSend.Step cc)) (h0 : e.run 0 = {}) (hf : e.WeakFair Label.isFin) (i : Nat) (hi : e.WeakFair (Label.of i)) (n : Nat) :
    ∃ m, n ≤ m ∧ (e.run m).s i = .idle := KcpSend.call_returns e h0 hf i hi n

/-! ## C40: a buffered send that returned nil is transmitted -/

/-- If the connection is not stopped, the network does not fail, and some buffered send succeeded before a second goroutine used buffered sends, then everything queued is written in the end, in order.
Missing: the connection is stopped (`C40_kcp_refuted`), concurrent first uses (`C40_kcp_refuted_open`). -/
theorem C40_kcp_partial (cc : Nat) (e : Exec (KcpSend.Step cc)) (h0 : e.run 0 = {}) (hq : ∀ n, (e.run n).cancelled = false ∧ (e.run n).broken = false)
    (i n₀ : Nat) (h1 : ∀ j m k, .call j m k ∈ e.trace n₀ → k = .buff ∨ k = .queue → j = i) (h2 : KcpSend.queued (e.trace n₀) ≠ []) (hw : e.WeakFair (Label.writer 0)) (n : Nat) :
    ∃ m, n ≤ m ∧ KcpSend.queued (e.trace n) <+: KcpSend.written (e.trace m) := by
  have ha := KcpSend.exec_steps e h0 n₀
  have hset := KcpSend.alone_settled (KcpSend.invC_steps ha) (KcpSend.alone_steps ha h1) (KcpSend.queued_nch ha h2)
  have hn : ∀ n, (e.run n).nch ≤ 1 := by
    intro n
    have after : ∀ m, n₀ ≤ m → (e.run m).nch ≤ 1 := fun m hm =>
      Nat.le_of_eq (e.invariant (P := fun s => KcpSend.Settled s) (fun _ _ _ h hs => KcpSend.settled_step h hs) hset m hm).one
    rcases Nat.le_total n₀ n with h | h
    · exact after n h
    · have mono := e.invariant (P := fun s => (e.run n).nch ≤ s.nch) (fun _ _ _ h hs => Nat.le_trans h (KcpSend.nch_step hs)) (Nat.le_refl _) n₀ h
      exact Nat.le_trans mono (after n₀ (Nat.le_refl _))
  exact KcpSend.all_written e h0 hq hn hw n

/-- Stopped right after the send: the writer sees the context done and returns; the message is never written. -/
theorem C40_kcp_refuted : ∃ ls t, Steps (KcpSend.Step 1024) {} ls t ∧ .enq 0 [1] 0 ∈ ls ∧ t.broken = false ∧ KcpSend.written ls = [] ∧
    ∀ ls' u, Steps (KcpSend.Step 1024) t ls' u → KcpSend.written ls' = [] := by
  have key : ∀ s l t, (s.field ≠ none ∧ (∀ k, s.w k = .none ∨ s.w k = .gone) ∧ ∀ i, (s.s i).making = false) → KcpSend.Step 1024 s l t →
      (t.field ≠ none ∧ (∀ k, t.w k = .none ∨ t.w k = .gone) ∧ ∀ i, (t.s i).making = false) ∧ ∀ k m, l ≠ .wwrite k m := by
    rintro s l t ⟨h1, h2, h3⟩ hs
    cases hs
    case call j m k hj =>
      refine ⟨⟨h1, h2, fun i => ?_⟩, nofun⟩
      by_cases e : i = j
      · subst e; cases k <;> simp [KcpSend.set, KcpSend.entry, KcpSend.SPc.making]
      · simp [KcpSend.set, e, h3 i]
    all_goals
      simp [KcpSend.set] at * <;> grind [KcpSend.SPc.making]
  have h0 : ∀ (ls' : List Label) (u s : KcpSend.State), (s.field ≠ none ∧ (∀ k, s.w k = .none ∨ s.w k = .gone) ∧ ∀ i, (s.s i).making = false) → Steps (KcpSend.Step 1024) s ls' u →
      KcpSend.written ls' = [] := by
    intro ls' u s hs h
    induction h with
    | nil => rfl
    | @cons _ _ _ l _ hst _ ih =>
      obtain ⟨a, b⟩ := key _ _ _ hs hst
      have := ih a
      cases l <;> simp [KcpSend.written, this] at *
  refine ⟨[.call 0 [1] .buff, .own 0, .own 0, .make 0, .own 0, .enq 0 [1] 0, .weval 0, .stop, .wdone 0], _, .cons (.call _ 0 [1] .buff rfl) (.cons (.buffOpen _ 0 [1] rfl rfl)
    (.cons (.isNil _ 0 [1] false rfl rfl) (.cons (.make _ 0 [1] false rfl) (.cons (.eval _ 0 [1] false 0 rfl rfl) (.cons (.enq _ 0 [1] false 0 rfl rfl (by decide)) (.cons (.weval _ 0 0 rfl rfl)
    (.cons (.stop _) (.cons (.ctxDone _ 0 0 rfl rfl) (.nil _))))))))), by simp, rfl, rfl, fun ls' u h => h0 _ _ _ ⟨by simp, fun k => ?_, fun i => ?_⟩ h⟩
  · simp [KcpSend.set]; grind
  · simp [KcpSend.set]; grind [KcpSend.SPc.making]

/-- A goroutine or writer has the message `x`. -/
def kcpHas (x : KcpSend.Bytes) : SPc → Bool
  | .idle => false
  | .mcheck m | .swant m | .write m | .bcheck m | .qwant m | .nil m _ | .make m _ | .qcheck m | .eval m _ | .sel m _ _ => m == x

def kcpWHas (x : KcpSend.Bytes) : WPc → Bool
  | .want m | .write m => m == x
  | _ => false

/-- Channel 0 is lost; nobody outside it has the message `x`. -/
structure KcpLost (x : KcpSend.Bytes) (s : KcpSend.State) : Prop where
  field : s.field = some 1
  making : ∀ i, (s.s i).making = false
  wr : ∀ k, s.w k ≠ .sel 0
  snd : ∀ i, kcpHas x (s.s i) = false
  has : ∀ k, kcpWHas x (s.w k) = false
  items : ∀ c, c ≠ 0 → x ∉ (s.chan c).items

theorem kcpLost_step {x cc s l t} (h : KcpLost x s) (hs : KcpSend.Step cc s l t) (hl : ∀ i k, l ≠ .call i x k) : KcpLost x t ∧ (∀ i, l ≠ .write i x) ∧ ∀ k, l ≠ .wwrite k x := by
  obtain ⟨h1, h2, h3, h4, h5, h6⟩ := h
  cases hs
  case call j m k hj =>
    have hm : m ≠ x := fun e => hl j k (by rw [e])
    refine ⟨⟨h1, fun i => ?_, h3, fun i => ?_, h5, h6⟩, nofun, nofun⟩
    · by_cases e : i = j
      · subst e; cases k <;> simp [KcpSend.set, KcpSend.entry, KcpSend.SPc.making]
      · simp [KcpSend.set, e, h2 i]
    · by_cases e : i = j
      · subst e; cases k <;> simp [KcpSend.set, KcpSend.entry, kcpHas, hm]
      · simp [KcpSend.set, e, h4 i]
  all_goals
    refine ⟨⟨?_, ?_, ?_, ?_, ?_, ?_⟩, ?_, ?_⟩ <;> simp [KcpSend.set] at * <;> grind [KcpSend.SPc.making, kcpHas, kcpWHas]

theorem kcpLost_steps {x cc s ls t} (h : KcpLost x s) (hs : Steps (KcpSend.Step cc) s ls t) (hl : ∀ i k, .call i x k ∉ ls) : x ∉ KcpSend.wire ls := by
  induction hs with
  | nil => nofun
  | @cons _ _ _ l _ hst _ ih =>
    obtain ⟨a, b, c⟩ := kcpLost_step h hst (fun i k e => hl i k (by simp [e]))
    have := ih a (fun i k hm => hl i k (by simp [hm]))
    intro hm
    cases l
    case write i m => exact (List.mem_cons.1 hm).elim (fun e => b i (by rw [e])) this
    case wwrite k m => exact (List.mem_cons.1 hm).elim (fun e => c k (by rw [e])) this
    all_goals exact this hm

/-- Two goroutines use buffered sends for the first time at once: each makes a channel, and the first message goes to the channel that is lost. -/
def kcpLosing (x y : KcpSend.Bytes) : List Label := [.call 0 x .buff, .own 0, .own 0, .call 1 y .buff, .own 1, .own 1, .make 0, .own 0, .enq 0 x 0, .make 1]

theorem kcp_lost (x y : KcpSend.Bytes) (hxy : x ≠ y) : ∃ t, Steps (KcpSend.Step 1024) {} (kcpLosing x y) t ∧ t.cancelled = false ∧ t.broken = false ∧ KcpLost x t := by
  refine ⟨_, .cons (.call _ 0 x .buff rfl) (.cons (.buffOpen _ 0 x rfl rfl)
    (.cons (.isNil _ 0 x false rfl rfl) (.cons (.call _ 1 y .buff rfl) (.cons (.buffOpen _ 1 y rfl rfl) (.cons (.isNil _ 1 y false rfl rfl) (.cons (.make _ 0 x false rfl)
    (.cons (.eval _ 0 x false 0 rfl rfl) (.cons (.enq _ 0 x false 0 rfl rfl (by simp [KcpSend.set])) (.cons (.make _ 1 y false rfl) (.nil _)))))))))), rfl, rfl,
    ⟨rfl, fun i => ?_, fun k => ?_, fun i => ?_, fun k => ?_, fun c hc => ?_⟩⟩ <;>
    simp [KcpSend.set] <;> grind [KcpSend.SPc.making, kcpHas, kcpWHas]

/-- Two goroutines use buffered sends for the first time at once: each makes a channel, the first message goes to the channel that is lost, and no writer ever receives from it. The send returned nil;
the connection is open and the network works. Whatever happens afterwards, the message is not written. -/
theorem C40_kcp_refuted_open : ∃ ls t, Steps (KcpSend.Step 1024) {} ls t ∧ .enq 0 [1] 0 ∈ ls ∧ t.cancelled = false ∧ t.broken = false ∧ KcpSend.wire ls = [] ∧
    ∀ ls' u, Steps (KcpSend.Step 1024) t ls' u → (∀ i k, .call i [1] k ∉ ls') → [1] ∉ KcpSend.wire ls' := by
  obtain ⟨t, h1, h2, h3, h4⟩ := kcp_lost [1] [2] (by decide)
  exact ⟨_, t, h1, by simp [kcpLosing], h2, h3, rfl, fun ls' u h hl => kcpLost_steps h4 h hl⟩

/-! An execution that meets the assumptions of `C39_kcp_returns` and `C40_kcp_partial`. -/

def kcpRun : Nat → KcpSend.State
  | 0 => {}
  | 1 => { s := KcpSend.set (fun _ => .idle) 0 (.bcheck [1]) }
  | 2 => { s := KcpSend.set (fun _ => .idle) 0 (.nil [1] false) }
  | 3 => { s := KcpSend.set (fun _ => .idle) 0 (.make [1] false) }
  | 4 => kcpMid .eval [] (.eval [1] false)
  | 5 => kcpMid .eval [] (.sel [1] false 0)
  | 6 => kcpMid .eval [[1]] .idle
  | 7 => kcpMid (.sel 0) [[1]] .idle
  | 8 => kcpMid (.want [1]) [] .idle
  | 9 => kcpMid (.write [1]) [] .idle
  | 10 => kcpMid .eval [] .idle
  | _ + 11 => kcpMid (.sel 0) [] .idle
where
  kcpMid (w : WPc) (items : List KcpSend.Bytes) (p : SPc) : KcpSend.State :=
    { field := some 0, nch := 1, chan := KcpSend.set (fun _ => {}) 0 ⟨items, false⟩, w := KcpSend.set (fun _ => .none) 0 w, s := KcpSend.set (fun _ => .idle) 0 p }

def kcpAct : Nat → Option Label
  | 0 => some (.call 0 [1] .buff)
  | 1 => some (.own 0)
  | 2 => some (.own 0)
  | 3 => some (.make 0)
  | 4 => some (.own 0)
  | 5 => some (.enq 0 [1] 0)
  | 6 => some (.weval 0)
  | 7 => some (.recv 0)
  | 8 => some (.wlock 0)
  | 9 => some (.wwrite 0 [1])
  | 10 => some (.weval 0)
  | _ + 11 => none

theorem kcp_step_eq {cc : Nat} {s t u : KcpSend.State} {l : Label} (h : KcpSend.Step cc s l t) (h1 : t.cancelled = u.cancelled) (h2 : t.closed = u.closed) (h3 : t.broken = u.broken)
    (h4 : t.field = u.field) (h5 : t.nch = u.nch) (h6 : ∀ c, t.chan c = u.chan c) (h7 : ∀ k, t.w k = u.w k) (h8 : t.fin = u.fin) (h9 : ∀ i, t.s i = u.s i) : KcpSend.Step cc s l u := by
  have : t = u := by
    cases t; cases u
    simp only [KcpSend.State.mk.injEq]
    exact ⟨h1, h2, h3, h4, h5, funext h6, funext h7, h8, funext h9⟩
  exact this ▸ h

theorem kcp_set_set {α : Type} (f : Nat → α) (i : Nat) (a b : α) (j : Nat) : KcpSend.set (KcpSend.set f i a) i b j = KcpSend.set f i b j := by simp only [KcpSend.set]; split <;> rfl

theorem kcp_set_self {α : Type} (f : Nat → α) (i : Nat) (a : α) (h : a = f i) (j : Nat) : f j = KcpSend.set f i a j := by simp only [KcpSend.set]; split <;> simp_all

def kcpEx : Exec (KcpSend.Step 1024) where
  run := kcpRun
  act := kcpAct
  next n := match n with
    | 0 => .call _ 0 [1] .buff rfl
    | 1 => kcp_step_eq (.buffOpen _ 0 [1] rfl rfl) rfl rfl rfl rfl rfl (fun _ => rfl) (fun _ => rfl) rfl (kcp_set_set _ _ _ _)
    | 2 => kcp_step_eq (.isNil _ 0 [1] false rfl rfl) rfl rfl rfl rfl rfl (fun _ => rfl) (fun _ => rfl) rfl (kcp_set_set _ _ _ _)
    | 3 => kcp_step_eq (.make _ 0 [1] false rfl) rfl rfl rfl rfl rfl (fun _ => rfl) (fun _ => rfl) rfl (kcp_set_set _ _ _ _)
    | 4 => kcp_step_eq (.eval _ 0 [1] false 0 rfl rfl) rfl rfl rfl rfl rfl (fun _ => rfl) (fun _ => rfl) rfl (kcp_set_set _ _ _ _)
    | 5 => kcp_step_eq (.enq _ 0 [1] false 0 rfl rfl (by decide)) rfl rfl rfl rfl rfl (kcp_set_set _ _ _ _) (fun _ => rfl) rfl (kcp_set_set _ _ _ _)
    | 6 => kcp_step_eq (.weval _ 0 0 rfl rfl) rfl rfl rfl rfl rfl (fun _ => rfl) (kcp_set_set _ _ _ _) rfl (fun _ => rfl)
    | 7 => kcp_step_eq (.recv _ 0 0 [1] [] rfl rfl) rfl rfl rfl rfl rfl (kcp_set_set _ _ _ _) (kcp_set_set _ _ _ _) rfl (fun _ => rfl)
    | 8 => kcp_step_eq (.wOpen _ 0 [1] rfl rfl rfl) rfl rfl rfl rfl rfl (fun _ => rfl) (kcp_set_set _ _ _ _) rfl (fun _ => rfl)
    | 9 => kcp_step_eq (.wwrite _ 0 [1] rfl rfl) rfl rfl rfl rfl rfl (fun _ => rfl) (kcp_set_set _ _ _ _) rfl (fun _ => rfl)
    | 10 => kcp_step_eq (.weval _ 0 0 rfl rfl) rfl rfl rfl rfl rfl (fun _ => rfl) (kcp_set_set _ _ _ _) rfl (fun _ => rfl)
    | _ + 11 => rfl

theorem kcpEx_weak (A : Label → Prop) (h1 : ¬ A .stop) (h2 : ¬ A .netFail) (h3 : ∀ i m b, ¬ A (.call i m b)) : kcpEx.WeakFair A := by
  intro n hn
  obtain ⟨l, t, hA, hs⟩ := hn (n + 11) (by omega)
  exfalso
  have h : kcpEx.run (n + 11) = kcpRun.kcpMid (.sel 0) [] .idle := rfl
  rw [h] at hs
  generalize hq : kcpRun.kcpMid (.sel 0) [] .idle = s at hs
  have e1 : ∀ k, s.w k = if k = 0 then .sel 0 else .none := by intro k; rw [← hq]; rfl
  have e2 : ∀ i, s.s i = .idle := by intro i; rw [← hq]; simp [kcpRun.kcpMid, KcpSend.set]
  have e3 : s.fin = .waiting := by rw [← hq]; rfl
  have e4 : s.cancelled = false := by rw [← hq]; rfl
  have e5 : ∀ c, s.chan c = ⟨[], false⟩ := by intro i; rw [← hq]; simp [kcpRun.kcpMid, KcpSend.set]
  cases hs
  case call i m b _ => exact h3 _ _ _ hA
  case stop => exact h1 hA
  case netFail => exact h2 hA
  all_goals (simp_all <;> grind)

example : kcpEx.run 0 = {} ∧ (∀ n, (kcpEx.run n).cancelled = false ∧ (kcpEx.run n).broken = false) ∧ kcpEx.WeakFair Label.isFin ∧ (∀ i, kcpEx.WeakFair (Label.of i)) ∧
    kcpEx.WeakFair (Label.writer 0) ∧ (∀ j m k, .call j m k ∈ kcpEx.trace 6 → k = .buff ∨ k = .queue → j = 0) ∧ KcpSend.queued (kcpEx.trace 6) = [[1]] ∧
    KcpSend.written (kcpEx.trace 6) = [] ∧ KcpSend.written (kcpEx.trace 10) = [[1]] := by
  refine ⟨rfl, fun n => ?_, kcpEx_weak _ id id (fun _ _ _ => id), fun _ => kcpEx_weak _ id id (fun _ _ _ => id), kcpEx_weak _ id id (fun _ _ _ => id), ?_, rfl, rfl, rfl⟩
  · rcases n with _ | _ | _ | _ | _ | _ | _ | _ | _ | _ | _ | n <;> exact ⟨rfl, rfl⟩
  · have : kcpEx.trace 6 = [.call 0 [1] .buff, .own 0, .own 0, .make 0, .own 0, .enq 0 [1] 0] := rfl
    rw [this]
    simp +contextual

end Zinx.Props
