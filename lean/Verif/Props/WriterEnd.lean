import Verif.Lemmas.SendLive
import Verif.Lemmas.WsLive
import Verif.Lemmas.KcpLive
import Verif.Lemmas.ExecOf

/-! # C85: the writer goroutine of a stopped connection ends -/

namespace Zinx.Props

/-! ## TCP -/

section
open Zinx.Send

/-- Actions of the writer goroutine of a TCP connection. -/
def tcpWriter : Send.Label → Prop
  | .winside | .tick | .recv | .wdone | .wwrite _ => True
  | _ => False

/-- A bound for the number of its actions, once the connection is stopped. -/
def tcpRank (s : Send.State) : Nat := match s.writer with
  | .none | .gone => 0
  | .exiting => 1
  | .flushCheck | .got _ => 2
  | .select => 3
  | .flush => 4
  | .put p => 5 + 2 * p.length + (if s.buf = [] then 0 else 1)

theorem tcpRank_step {cc bc : Nat} {s t : Send.State} {l : Send.Label} (hm : ∀ i m, s.b i ≠ .make m) (hc : s.closed = true) (hw : s.writer ≠ .none) (hs : Send.Step cc bc s l t) :
    t.closed = true ∧ t.writer ≠ .none ∧ tcpRank t ≤ tcpRank s ∧ (tcpWriter l → tcpRank t < tcpRank s) := by
  cases hs <;> simp [tcpRank, tcpWriter] at * <;> grind

theorem tcpWriter_enabled {cc bc : Nat} {s : Send.State} (hc : s.closed = true) (hw : s.writer ≠ .none) (hg : s.writer ≠ .gone) : Enabled (Send.Step cc bc) tcpWriter s := by
  cases h : s.writer with
  | none => exact absurd h hw
  | gone => exact absurd h hg
  | select => exact ⟨_, _, (by exact trivial), .ctxDone _ h hc⟩
  | flushCheck => exact ⟨_, _, (by exact trivial), .flushClosed _ h hc⟩
  | got m => exact ⟨_, _, (by exact trivial), .gotClosed _ m h hc⟩
  | exiting => exact ⟨_, _, (by exact trivial), .exit _ h (.inl hc)⟩
  | flush =>
    by_cases he : s.err = true
    · exact ⟨_, _, (by exact trivial), .flushErr _ h he⟩
    have he : s.err = false := by simpa using he
    by_cases hb : s.buf = []
    · exact ⟨_, _, (by exact trivial), .flushEmpty _ h he hb⟩
    cases hn : s.broken with
    | true => exact ⟨_, _, (by exact trivial), .flushFail _ h he hb hn⟩
    | false => exact ⟨_, _, (by exact trivial), .flushWrite _ h he hb hn⟩
  | put p =>
    by_cases he : s.err = true
    · exact ⟨_, _, (by exact trivial), .putErr _ p h he⟩
    have he : s.err = false := by simpa using he
    by_cases hl : p.length ≤ bc - s.buf.length
    · exact ⟨_, _, (by exact trivial), .putRest _ p h he hl⟩
    have hl : bc - s.buf.length < p.length := by omega
    cases hn : s.broken with
    | true => exact ⟨_, _, (by exact trivial), .putFail _ p h he hl hn⟩
    | false =>
      by_cases hb : s.buf = []
      · exact ⟨_, _, (by exact trivial), .putDirect _ p h he hl hb hn⟩
      · exact ⟨_, _, (by exact trivial), .putFill _ p h he hl hb hn⟩

/-- **C85** for TCP: once the connection is stopped, a writer that has been started returns for good, in every execution in which it goes on whenever it can (so its writes to the socket return). -/
theorem C85_tcp (cc bc : Nat) (e : Exec (Send.Step cc bc)) (h0 : e.run 0 = {}) (hf : e.WeakFair tcpWriter) (n : Nat) (hc : (e.run n).closed = true) (hw : (e.run n).writer ≠ .none) :
    ∃ m, n ≤ m ∧ ∀ k, m ≤ k → (e.run k).writer = .gone := by
  have hmake : ∀ s, (∃ ls, Steps (Send.Step cc bc) {} ls s) → s.writer ≠ .none → ∀ i m, s.b i ≠ .make m := fun s ⟨_, h⟩ hw i m hb =>
    hw ((stream_steps h).nochan ((make_steps h).flag i m hb).2).1
  have hstay : ∀ m, (e.run m).writer = .gone → ∀ k, m ≤ k → (e.run k).writer = .gone := by
    intro m hg k hk
    refine (e.invariant (P := fun s => (∃ ls, Steps (Send.Step cc bc) {} ls s) ∧ s.writer = .gone) ?_ (n := m) ⟨⟨_, h0 ▸ e.steps m⟩, hg⟩ k hk).2
    intro s l t ⟨⟨ls, h1⟩, h2⟩ hs
    have h3 := hmake s ⟨ls, h1⟩ (by rw [h2]; nofun)
    refine ⟨⟨_, h1.snoc hs⟩, ?_⟩
    cases hs <;> simp_all
  by_cases hg : (e.run n).writer = .gone
  · exact ⟨n, Nat.le_refl _, hstay n hg⟩
  suffices H : ∃ m, n ≤ m ∧ (e.run m).writer = .gone from let ⟨m, hm, h⟩ := H; ⟨m, hm, hstay m h⟩
  refine e.leads_weak_dec hf (P := fun s => (∃ ls, Steps (Send.Step cc bc) {} ls s) ∧ s.closed = true ∧ s.writer ≠ .none ∧ s.writer ≠ .gone) (Q := fun s => s.writer = .gone) tcpRank ?_ ?_ ?_ (n := n)
    ⟨⟨_, h0 ▸ e.steps n⟩, hc, hw, hg⟩
  · intro s l t ⟨⟨ls, h1⟩, h2, h3, h4⟩ hs
    obtain ⟨g1, g2, g3, g4⟩ := tcpRank_step (hmake s ⟨ls, h1⟩ h3) h2 h3 hs
    by_cases hg : t.writer = .gone
    · exact .inr hg
    · exact .inl ⟨⟨⟨_, h1.snoc hs⟩, g1, g2, hg⟩, g3⟩
  · intro s l t ⟨⟨ls, h1⟩, h2, h3, h4⟩ hs hA
    obtain ⟨g1, g2, g3, g4⟩ := tcpRank_step (hmake s ⟨ls, h1⟩ h3) h2 h3 hs
    by_cases hg : t.writer = .gone
    · exact .inr hg
    · exact .inl ⟨⟨⟨_, h1.snoc hs⟩, g1, g2, hg⟩, g4 hA⟩
  · intro s ⟨_, h2, h3, h4⟩
    exact tcpWriter_enabled h2 h3 h4

/-- The hypotheses are met: the connection is stopped when the writer has taken a message. -/
example : ∃ e : Exec (Send.Step 1 4), e.run 0 = {} ∧ e.WeakFair tcpWriter ∧ (e.run 8).closed = true ∧ (e.run 8).writer = .got [1] := by
  obtain ⟨ls, u, h, hn, hc, hw, hr⟩ : ∃ ls u, Steps (Send.Step 1 4) {} ls u ∧ ls.length = 8 ∧ u.closed = true ∧ u.writer = .got [1] ∧ u.closed = true :=
    ⟨_, _, .cons (.call _ 0 [1] rfl) (.cons (.testNil _ 0 [1] rfl rfl) (.cons (.casWin _ 0 [1] rfl rfl) (.cons (.make _ 0 [1] rfl) (.cons (.checkOpen _ 0 [1] rfl rfl)
      (.cons (.enq _ 0 [1] ⟨[], false⟩ rfl rfl rfl (by decide)) (.cons (.recv _ [1] [] false rfl rfl) (.cons (.stop _) (.nil _)))))))), rfl, rfl, rfl, rfl⟩
  obtain ⟨ks, t, k, hg⟩ : ∃ ks t, Steps (Send.Step 1 4) u ks t ∧ t.writer = .gone :=
    ⟨_, _, .cons (.gotClosed _ [1] hw hc) (.cons (.exit _ rfl (.inl hc)) (.nil _)), rfl⟩
  obtain ⟨e, h1, h2, h3⟩ := Exec.ofStepsMid h k
  rw [hn] at h2
  refine ⟨e, h1, Exec.weakFair_of_end h3 ?_, h2 ▸ hc, h2 ▸ hw⟩
  rintro ⟨l, t', hl, hs⟩
  cases hs <;> simp_all [tcpWriter]

end

/-! ## WebSocket -/

section
open Zinx.WsSend

theorem wsWriting_step {cc : Nat} {s t : WsSend.State} {l : WsSend.Label} (hi : WsSend.Inv s) (hw : s.writer.holds = true) (hs : WsSend.Step cc s l t) :
    (t.writer.holds = true ∧ t.writer.left ≤ s.writer.left ∧ (l.winside → t.writer.left < s.writer.left)) ∨ t.writer = .select := by
  have h1 := hi.nochan
  cases hs <;> simp [WsSend.withChan_eq, WsSend.WPc.holds, WsSend.WPc.left, WsSend.Label.winside] at * <;> grind [WsSend.WPc.holds, WsSend.WPc.left, List.length_eq_zero_iff]

theorem wsWant_step {cc : Nat} {s t : WsSend.State} {l : WsSend.Label} {m : WsSend.Bytes} (hi : WsSend.Inv s) (hw : s.writer = .want m) (hs : WsSend.Step cc s l t) :
    (t.writer = .want m ∧ l ≠ .wlock) ∨ t.writer.holds = true ∨ t.writer = .select := by
  have h1 := hi.nochan
  cases hs <;> simp [WsSend.withChan_eq, WsSend.WPc.holds] at * <;> grind [WsSend.WPc.holds]

theorem wsDone_step {cc : Nat} {s t : WsSend.State} {l : WsSend.Label} (hi : WsSend.Inv s) (hc : s.cancelled = true) (hw : s.writer ≠ .none) (hs : WsSend.Step cc s l t) :
    t.cancelled = true ∧ t.writer ≠ .none ∧ (l = .wdone → t.writer = .gone) ∧ (s.writer = .gone → t.writer = .gone) := by
  have h1 := hi.nochan
  cases hs <;> simp [WsSend.withChan_eq] at * <;> grind

/-- **C85** for WebSocket: once the connection is stopped, a writer that has been started returns for good, in every execution in which whoever holds the lock goes on, the writer gets the lock if it is free
again and again, and the writer's `select` does not for ever ignore the context. -/
theorem C85_ws (cc : Nat) (e : Exec (WsSend.Step cc)) (h0 : e.run 0 = {}) (hs : ∀ i, e.WeakFair (WsSend.Label.inside i)) (hw : e.WeakFair WsSend.Label.winside)
    (hf : e.WeakFair (fun l => l = .fin ∨ l = .finPanic)) (ha : e.StrongFair (· = .wlock)) (hd : e.StrongFair (· = .wdone)) (n : Nat) (hc : (e.run n).cancelled = true) (hst : (e.run n).writer ≠ .none) :
    ∃ m, n ≤ m ∧ ∀ k, m ≤ k → (e.run k).writer = .gone := by
  have hinv := WsSend.exec_inv e h0
  have hstay : ∀ m, (e.run m).cancelled = true → (e.run m).writer = .gone → ∀ k, m ≤ k → (e.run k).writer = .gone := by
    intro m hc hg k hk
    refine (e.invariant (P := fun s => WsSend.Inv s ∧ s.cancelled = true ∧ s.writer = .gone) ?_ (n := m) ⟨hinv m, hc, hg⟩ k hk).2.2
    intro s l t ⟨h1, h2, h3⟩ hs
    have h4 := wsDone_step h1 h2 (by rw [h3]; nofun) hs
    exact ⟨WsSend.inv_step h1 hs, h4.1, h4.2.2.2 h3⟩
  have hwrite : ∀ m, (e.run m).writer.holds = true → ∃ k, m ≤ k ∧ (e.run k).writer = .select := by
    intro m hm
    refine e.leads_weak_dec hw (P := fun s => WsSend.Inv s ∧ s.writer.holds = true) (Q := fun s => s.writer = .select) (fun s => s.writer.left) ?_ ?_ (fun s hp => WsSend.winside_enabled hp.2) (n := m) ⟨hinv m, hm⟩
    · intro s l t ⟨h1, h2⟩ hs
      rcases wsWriting_step h1 h2 hs with ⟨g1, g2, _⟩ | g
      · exact .inl ⟨⟨WsSend.inv_step h1 hs, g1⟩, g2⟩
      · exact .inr g
    · intro s l t ⟨h1, h2⟩ hs hA
      rcases wsWriting_step h1 h2 hs with ⟨g1, _, g2⟩ | g
      · exact .inl ⟨⟨WsSend.inv_step h1 hs, g1⟩, g2 hA⟩
      · exact .inr g
  have hsel : ∀ m, (e.run m).writer ≠ .none → (e.run m).writer ≠ .gone → ∃ k, m ≤ k ∧ (e.run k).writer = .select := by
    intro m h1 h2
    cases hp : (e.run m).writer with
    | none => exact absurd hp h1
    | gone => exact absurd hp h2
    | select => exact ⟨m, Nat.le_refl _, hp⟩
    | write o r => exact hwrite m (by rw [hp]; rfl)
    | want x =>
      obtain ⟨k, hk, hq⟩ := e.leads_strong ha (P := fun s => WsSend.Inv s ∧ s.writer = .want x) (Q := fun s => s.writer.holds = true ∨ s.writer = .select)
        (fun s l t ⟨g1, g2⟩ hs => by
          rcases wsWant_step g1 g2 hs with g | g
          · exact .inl ⟨WsSend.inv_step g1 hs, g.1⟩
          · exact .inr g)
        (fun s l t ⟨g1, g2⟩ hs hA => by
          rcases wsWant_step g1 g2 hs with g | g
          · exact absurd hA g.2
          · exact g)
        (fun j hj => by
          obtain ⟨i, hi, hl⟩ := WsSend.lock_free e h0 hs hw hf j
          refine ⟨i, hi, ?_⟩
          cases hcl : (e.run i).closed with
          | true => exact ⟨_, _, rfl, .wClosed _ x (hj i hi).2 hl hcl⟩
          | false => exact ⟨_, _, rfl, .wOpen _ x (hj i hi).2 hl hcl⟩)
        (n := m) ⟨hinv m, hp⟩
      rcases hq with hq | hq
      · obtain ⟨i, hi, h⟩ := hwrite k hq
        exact ⟨i, by omega, h⟩
      · exact ⟨k, hk, hq⟩
  by_cases hg : (e.run n).writer = .gone
  · exact ⟨n, Nat.le_refl _, hstay n hc hg⟩
  obtain ⟨m, hm, hq⟩ := e.leads_strong hd (P := fun s => WsSend.Inv s ∧ s.cancelled = true ∧ s.writer ≠ .none ∧ s.writer ≠ .gone) (Q := fun s => s.cancelled = true ∧ s.writer = .gone)
    (fun s l t ⟨g1, g2, g3, g4⟩ hs => by
      obtain ⟨k1, k2, k3, k4⟩ := wsDone_step g1 g2 g3 hs
      by_cases hg : t.writer = .gone
      · exact .inr ⟨k1, hg⟩
      · exact .inl ⟨WsSend.inv_step g1 hs, k1, k2, hg⟩)
    (fun s l t ⟨g1, g2, g3, g4⟩ hs hA => by
      obtain ⟨k1, k2, k3, k4⟩ := wsDone_step g1 g2 g3 hs
      exact ⟨k1, k3 hA⟩)
    (fun j hj => by
      obtain ⟨i, hi, hl⟩ := hsel j (hj j (Nat.le_refl _)).2.2.1 (hj j (Nat.le_refl _)).2.2.2
      exact ⟨i, hi, _, _, rfl, .ctxDone _ hl (hj i hi).2.1⟩)
    (n := n) ⟨hinv n, hc, hst, hg⟩
  exact ⟨m, hm, hstay m hq.1 hq.2⟩

/-- The hypotheses are met: the connection is stopped when the writer has taken a message. -/
example : ∃ e : Exec (WsSend.Step 1), e.run 0 = {} ∧ (∀ i, e.WeakFair (WsSend.Label.inside i)) ∧ e.WeakFair WsSend.Label.winside ∧ e.WeakFair (fun l => l = .fin ∨ l = .finPanic) ∧
    e.StrongFair (· = .wlock) ∧ e.StrongFair (· = .wdone) ∧ (e.run 5).cancelled = true ∧ (e.run 5).writer = .want [1] := by
  obtain ⟨ls, u, h, hn, hc, hw, ho, hl, hch, hf, hs⟩ : ∃ ls u, Steps (WsSend.Step 1) {} ls u ∧ ls.length = 5 ∧ u.cancelled = true ∧ u.writer = .want [1] ∧ u.closed = false ∧ u.lock = none ∧
      u.chan = some ⟨[], false⟩ ∧ u.fin = .waiting ∧ ∀ i, u.s i = .idle :=
    ⟨_, _, .cons (.call _ 0 [1] true rfl) (.cons (.buffOpen _ 0 [1] rfl rfl rfl) (.cons (.enq _ 0 [1] ⟨[], false⟩ rfl rfl rfl (by decide)) (.cons (.recv _ [1] [] false rfl rfl) (.cons (.stop _) (.nil _))))),
      rfl, rfl, rfl, rfl, rfl, rfl, rfl, fun i => by simp only [WsSend.set]; split <;> simp_all⟩
  obtain ⟨ks, t, k, hg, hd, hl', hs'⟩ : ∃ ks t, Steps (WsSend.Step 1) u ks t ∧ t.writer = .gone ∧ t.fin = .done ∧ t.lock = none ∧ ∀ i, t.s i = .idle :=
    ⟨_, _, .cons (.finStart _ hf hc) (.cons (.hookDone _ rfl) (.cons (.finLock _ rfl hl ho) (.cons (.finSock _ rfl) (.cons (.finChan _ _ rfl hch rfl)
      (.cons (.wClosed _ [1] hw rfl rfl) (.cons (.ctxDone _ rfl hc) (.nil _))))))), rfl, rfl, rfl, hs⟩
  obtain ⟨e, h1, h2, h3⟩ := Exec.ofStepsMid h k
  rw [hn] at h2
  refine ⟨e, h1, fun i => Exec.weakFair_of_end h3 ?_, Exec.weakFair_of_end h3 ?_, Exec.weakFair_of_end h3 ?_, Exec.strongFair_of_end h3 ?_, Exec.strongFair_of_end h3 ?_, h2 ▸ hc, h2 ▸ hw⟩ <;>
  · rintro ⟨l, t', hl, hs⟩
    cases hs <;> simp_all [WsSend.Label.inside, WsSend.Label.winside]

end

/-! ## KCP -/

section
open Zinx.KcpSend

/-- Distance to the `select`. -/
def kcpRank : KcpSend.WPc → Nat
  | .want _ => 3
  | .write _ => 2
  | .eval => 1
  | _ => 0

theorem kcpWriter_step {cc k : Nat} {s t : KcpSend.State} {l : KcpSend.Label} (hi : KcpSend.InvC s) (hw : s.w k ≠ .none) (_ : s.w k ≠ .gone) (hn : ∀ c, s.w k ≠ .sel c) (hs : KcpSend.Step cc s l t) :
    t.w k ≠ .none ∧ kcpRank (t.w k) ≤ kcpRank (s.w k) ∧ (l.writer k → kcpRank (t.w k) < kcpRank (s.w k)) := by
  have h1 := hi.nowr
  cases hs <;> simp [KcpSend.set, KcpSend.Label.writer, kcpRank] at * <;> grind [kcpRank]

theorem kcpDone_step {cc k : Nat} {s t : KcpSend.State} {l : KcpSend.Label} (hi : KcpSend.InvC s) (hc : s.cancelled = true) (hw : s.w k ≠ .none) (hs : KcpSend.Step cc s l t) :
    t.cancelled = true ∧ t.w k ≠ .none ∧ (l = .wdone k → t.w k = .gone) ∧ (s.w k = .gone → t.w k = .gone) := by
  have h1 := hi.nowr
  cases hs <;> simp [KcpSend.set] at * <;> grind

/-- **C85** for KCP: once the connection is stopped, every writer that has been started returns for good, in every execution in which the writer and the finalizer go on whenever they can and the writer's
`select` does not for ever ignore the context. -/
theorem C85_kcp (cc k : Nat) (e : Exec (KcpSend.Step cc)) (h0 : e.run 0 = {}) (hf : e.WeakFair KcpSend.Label.isFin) (hw : e.WeakFair (KcpSend.Label.writer k)) (hd : e.StrongFair (· = .wdone k))
    (n : Nat) (hc : (e.run n).cancelled = true) (hst : (e.run n).w k ≠ .none) : ∃ m, n ≤ m ∧ ∀ j, m ≤ j → (e.run j).w k = .gone := by
  have hinv : ∀ n, KcpSend.InvC (e.run n) := fun n => KcpSend.invC_steps (KcpSend.exec_steps e h0 n)
  have hstay : ∀ m, (e.run m).cancelled = true → (e.run m).w k = .gone → ∀ j, m ≤ j → (e.run j).w k = .gone := by
    intro m hc hg j hj
    refine (e.invariant (P := fun s => KcpSend.InvC s ∧ s.cancelled = true ∧ s.w k = .gone) ?_ (n := m) ⟨hinv m, hc, hg⟩ j hj).2.2
    intro s l t ⟨h1, h2, h3⟩ hs
    have h4 := kcpDone_step h1 h2 (by rw [h3]; nofun) hs
    exact ⟨KcpSend.invC_step h1 hs, h4.1, h4.2.2.2 h3⟩
  have go : ∀ m, (e.run m).w k ≠ .none → (e.run m).w k ≠ .gone → (e.run m).fin.locks = false → ∃ j, m ≤ j ∧ ((∃ c, (e.run j).w k = .sel c) ∨ (e.run j).w k = .gone ∨ (e.run j).fin.locks = true) := by
    intro m h1 h2 h3
    by_cases hsel : ∃ c, (e.run m).w k = .sel c
    · exact ⟨m, Nat.le_refl _, .inl hsel⟩
    refine e.leads_weak_dec hw (P := fun s => KcpSend.InvC s ∧ s.w k ≠ .none ∧ s.w k ≠ .gone ∧ (∀ c, s.w k ≠ .sel c) ∧ s.fin.locks = false)
      (Q := fun s => (∃ c, s.w k = .sel c) ∨ s.w k = .gone ∨ s.fin.locks = true) (fun s => kcpRank (s.w k)) ?_ ?_ ?_ (n := m) ⟨hinv m, h1, h2, fun c h => hsel ⟨c, h⟩, h3⟩
    · intro s l t ⟨g1, g2, g3, g4, g5⟩ hs
      by_cases hq : (∃ c, t.w k = .sel c) ∨ t.w k = .gone ∨ t.fin.locks = true
      · exact .inr hq
      · obtain ⟨k1, k2, k3⟩ := kcpWriter_step g1 g2 g3 g4 hs
        exact .inl ⟨⟨KcpSend.invC_step g1 hs, k1, fun h => hq (.inr (.inl h)), fun c h => hq (.inl ⟨c, h⟩), by simpa using fun h => hq (.inr (.inr h))⟩, k2⟩
    · intro s l t ⟨g1, g2, g3, g4, g5⟩ hs hA
      by_cases hq : (∃ c, t.w k = .sel c) ∨ t.w k = .gone ∨ t.fin.locks = true
      · exact .inr hq
      · obtain ⟨k1, k2, k3⟩ := kcpWriter_step g1 g2 g3 g4 hs
        exact .inl ⟨⟨KcpSend.invC_step g1 hs, k1, fun h => hq (.inr (.inl h)), fun c h => hq (.inl ⟨c, h⟩), by simpa using fun h => hq (.inr (.inr h))⟩, k3 hA⟩
    · intro s ⟨g1, g2, g3, g4, g5⟩
      cases hp : s.w k with
      | none => exact absurd hp g2
      | gone => exact absurd hp g3
      | sel c => exact absurd hp (g4 c)
      | eval =>
        cases hfl : s.field with
        | none =>
          have := g1.nofield hfl
          exact absurd (g1.nowr k (by omega)) g2
        | some c => exact ⟨.weval k, _, rfl, .weval _ k c hp hfl⟩
      | want x =>
        cases hcl : s.closed with
        | true => exact ⟨.wfail k, _, rfl, .wClosed _ k x hp g5 hcl⟩
        | false => exact ⟨.wlock k, _, rfl, .wOpen _ k x hp g5 hcl⟩
      | write x =>
        cases hb : s.broken with
        | true => exact ⟨.wfail k, _, rfl, .wfail _ k x hp hb⟩
        | false => exact ⟨.wwrite k x, _, rfl, .wwrite _ k x hp hb⟩
  have unlock : ∀ m, (e.run m).fin.locks = true → ∃ j, m ≤ j ∧ (e.run j).fin = .done := by
    intro m hm
    exact e.leads_weak_dec hf (P := fun s => s.fin.locks = true) (Q := fun s => s.fin = .done) (fun s => s.fin.todo) (fun s l t hp hs => (KcpSend.fin_steps hs).1 hp)
      (fun s l t hp hs hA => (KcpSend.fin_steps hs).2.1 hp hA) (fun s hp => KcpSend.fin_enabled hp) (n := m) hm
  have hsel : ∀ m, (∀ j, m ≤ j → (e.run j).w k ≠ .none ∧ (e.run j).w k ≠ .gone) → ∃ j, m ≤ j ∧ ∃ c, (e.run j).w k = .sel c := by
    intro m hm
    have locked : ∀ i, m ≤ i → (e.run i).fin.locks = true → ∃ j, m ≤ j ∧ ∃ c, (e.run j).w k = .sel c := by
      intro i hi hl
      obtain ⟨j, hj, hdn⟩ := unlock i hl
      obtain ⟨x, hx, h | h | h⟩ := go j (hm j (by omega)).1 (hm j (by omega)).2 (by rw [hdn]; rfl)
      · exact ⟨x, by omega, h⟩
      · exact absurd h (hm x (by omega)).2
      · have := e.invariant (P := fun s => s.fin = .done) (fun s l t hp hs => (KcpSend.fin_steps hs).2.2 hp) hdn x hx
        rw [this] at h; cases h
    cases hl : (e.run m).fin.locks with
    | true => exact locked m (Nat.le_refl _) hl
    | false =>
      obtain ⟨x, hx, h | h | h⟩ := go m (hm m (Nat.le_refl _)).1 (hm m (Nat.le_refl _)).2 hl
      · exact ⟨x, hx, h⟩
      · exact absurd h (hm x (by omega)).2
      · exact locked x hx h
  by_cases hg : (e.run n).w k = .gone
  · exact ⟨n, Nat.le_refl _, hstay n hc hg⟩
  obtain ⟨m, hm, hq⟩ := e.leads_strong hd (P := fun s => KcpSend.InvC s ∧ s.cancelled = true ∧ s.w k ≠ .none ∧ s.w k ≠ .gone) (Q := fun s => s.cancelled = true ∧ s.w k = .gone)
    (fun s l t ⟨g1, g2, g3, g4⟩ hs => by
      obtain ⟨k1, k2, k3, k4⟩ := kcpDone_step g1 g2 g3 hs
      by_cases hg : t.w k = .gone
      · exact .inr ⟨k1, hg⟩
      · exact .inl ⟨KcpSend.invC_step g1 hs, k1, k2, hg⟩)
    (fun s l t ⟨g1, g2, g3, g4⟩ hs hA => by
      obtain ⟨k1, k2, k3, k4⟩ := kcpDone_step g1 g2 g3 hs
      exact ⟨k1, k3 hA⟩)
    (fun j hj => by
      obtain ⟨i, hi, c, hl⟩ := hsel j (fun x hx => (hj x hx).2.2)
      exact ⟨i, hi, _, _, rfl, .ctxDone _ k c hl (hj i hi).2.1⟩)
    (n := n) ⟨hinv n, hc, hst, hg⟩
  exact ⟨m, hm, hstay m hq.1 hq.2⟩

/-- The hypotheses are met: the connection is stopped when the writer has taken a message. -/
example : ∃ e : Exec (KcpSend.Step 1), e.run 0 = {} ∧ e.WeakFair KcpSend.Label.isFin ∧ e.WeakFair (KcpSend.Label.writer 0) ∧ e.StrongFair (· = .wdone 0) ∧
    (e.run 9).cancelled = true ∧ (e.run 9).w 0 = .want [1] := by
  obtain ⟨ls, u, h, hn, hc, hw, ho, hfl, hch, hf, hs, hw'⟩ : ∃ ls u, Steps (KcpSend.Step 1) {} ls u ∧ ls.length = 9 ∧ u.cancelled = true ∧ u.w 0 = .want [1] ∧ u.closed = false ∧ u.field = some 0 ∧
      (u.chan 0).closed = false ∧ u.fin = .waiting ∧ (∀ i, u.s i = .idle) ∧ ∀ k, (u.w k).reads = false :=
    ⟨_, _, .cons (.call _ 0 [1] .buff rfl) (.cons (.buffOpen _ 0 [1] rfl rfl) (.cons (.isNil _ 0 [1] false rfl rfl) (.cons (.make _ 0 [1] false rfl) (.cons (.eval _ 0 [1] false 0 rfl rfl)
      (.cons (.enq _ 0 [1] false 0 rfl rfl (by decide)) (.cons (.weval _ 0 0 rfl rfl) (.cons (.recv _ 0 0 [1] [] rfl rfl) (.cons (.stop _) (.nil _))))))))),
      rfl, rfl, rfl, rfl, rfl, rfl, rfl, fun i => by simp only [KcpSend.set]; split <;> simp_all, fun k => by simp only [KcpSend.set]; split <;> rfl⟩
  obtain ⟨ks, t, k, hg, hd⟩ : ∃ ks t, Steps (KcpSend.Step 1) u ks t ∧ t.w 0 = .gone ∧ t.fin = .done :=
    ⟨_, _, .cons (.finStart _ hf hc) (.cons (.hookDone _ rfl) (.cons (.finLock _ rfl (fun i => by simp [hs, KcpSend.SPc.reads]) hw') (.cons (.finSock _ rfl) (.cons (.finChan _ 0 rfl hfl hch)
      (.cons (.wClosed _ 0 [1] hw rfl rfl) (.cons (.weval _ 0 0 rfl hfl) (.cons (.ctxDone _ 0 0 rfl hc) (.nil _)))))))), rfl, rfl⟩
  obtain ⟨e, h1, h2, h3⟩ := Exec.ofStepsMid h k
  rw [hn] at h2
  refine ⟨e, h1, Exec.weakFair_of_end h3 ?_, Exec.weakFair_of_end h3 ?_, Exec.strongFair_of_end h3 ?_, h2 ▸ hc, h2 ▸ hw⟩ <;>
  · rintro ⟨l, t', hl, hs⟩
    cases hs <;> simp_all [KcpSend.Label.isFin, KcpSend.Label.writer]

end

end Zinx.Props
