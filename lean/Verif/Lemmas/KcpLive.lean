import Verif.Lemmas.KcpSend

/-! Lemmas about sending on a KCP connection: order of the queue, and progress. -/

namespace Zinx.KcpSend

/-! ## Order -/

def WPc.writing : WPc → Bool
  | .write _ => true
  | _ => false

structure Order (ls : List Label) (s : State) : Prop where
  inv : InvC s
  order : s.nch ≤ 1 → queued ls = written ls ++ (s.w 0).pend ++ (s.chan 0).items ∨
    (s.closed = true ∨ s.broken = true) ∧ written ls <+: queued ls ∧ (s.broken = true ∨ (s.w 0).writing = false)

theorem order_step {cc ls s l t} (h : Order ls s) (hs : Step cc s l t) : Order (ls ++ [l]) t := by
  refine ⟨invC_step h.inv hs, fun hn => ?_⟩
  have h0 := h.order (Nat.le_trans (nch_step hs) hn)
  obtain ⟨⟨h1, h2, h3, h4, h5, h6, h7, h8, h9⟩, -⟩ := h
  cases hs
  case enq i m r c h1' h2' h3' =>
    have hc := h3 i m r c h1'
    have : c = 0 := by simp at hn; omega
    subst this
    rcases h0 with h0 | ⟨h0, h10, h11⟩
    · left; simp [set, queued_append, written_append, queued, written, h0]
    · right
      refine ⟨h0, ?_, h11⟩
      simp only [queued_append, written_append, queued, written, List.append_nil]
      exact h10.trans (List.prefix_append _ _)
  case recv k c m ms h1' h2' =>
    have hc := h8 k c h1'
    have hk : k = 0 := by
      apply Classical.byContradiction; intro hk
      have := h7 k (by simp at hn; omega)
      rw [this] at h1'; cases h1'
    have : c = 0 := by simp at hn; omega
    subst this; subst hk
    rcases h0 with h0 | ⟨h0, h10, h11⟩
    · left; simp [set, queued_append, written_append, queued, written, h0, h1', h2', WPc.pend]
    · right
      refine ⟨h0, ?_, .inr rfl⟩
      simp only [queued_append, written_append, queued, written, List.append_nil]
      exact h10
  all_goals
    clear h3 h4 h5
    rcases h0 with h0 | h0 <;> simp [set, queued_append, written_append, queued, written] at * <;> grind [WPc.pend, WPc.writing]

theorem order_steps {cc ls t} (h : Steps (Step cc) {} ls t) : Order ls t :=
  h.invariant_trace (P := Order) (fun _ _ _ _ h hs => order_step h hs) ⟨invC_init, fun _ => .inl rfl⟩

/-! ## Panics -/

/-- In `SendBuffMsg`, which takes no lock. -/
def SPc.loose : SPc → Bool
  | .bcheck _ => true
  | .nil _ r | .make _ r | .eval _ r | .sel _ r _ => !r
  | _ => false

theorem loose_step {cc s l t i} (h : (s.s i).loose = false) (hs : Step cc s l t) (hl : ∀ m, l ≠ .call i m .buff) : (t.s i).loose = false := by
  cases hs
  case call j m k hj =>
    by_cases e : i = j
    · subst e; cases k <;> simp [set, entry, SPc.loose] at *
    · simp [set, e, h]
  all_goals
    simp [set] at * <;> grind [SPc.loose]

theorem panic_step {cc s l t} (h : InvF s) (hs : Step cc s l t) : l ≠ .finPanic ∧ ∀ i, l = .panic i → (s.s i).loose = true ∧ s.fin = .done := by
  obtain ⟨h1, h2, h3, h4, h5, h6, h7, h8, h9, h10⟩ := h
  cases hs <;> simp at * <;> grind [SPc.loose, SPc.passed, FPc.early]

/-! ## Calls return -/

/-- The steps of goroutine `i` in a call. -/
def Label.of (i : Nat) : Label → Prop
  | .own j | .rlock j | .make j | .retErr j | .enq j _ _ | .panic j | .write j _ => j = i
  | _ => False

def SPc.left : SPc → Nat
  | .idle => 0
  | .mcheck _ | .bcheck _ | .qwant _ => 7
  | .swant _ => 6
  | .nil _ _ => 5
  | .make _ _ => 4
  | .qcheck _ => 3
  | .eval _ _ => 2
  | .sel _ _ _ | .write _ => 1

theorem left_other {cc s l t i} (hs : Step cc s l t) (hi : s.s i ≠ .idle) : (t.s i).left ≤ (s.s i).left := by
  cases hs <;> simp [set] at * <;> grind [SPc.left]

theorem left_of {cc s l t i} (hs : Step cc s l t) (hl : l.of i) : (t.s i).left < (s.s i).left := by
  cases hs <;> simp [Label.of] at hl <;> subst hl <;> simp [set] <;> grind [SPc.left]

theorem of_enabled {cc s i} (hc : InvC s) (hi : s.s i ≠ .idle) (hf : s.fin.locks = false) : Enabled (Step cc) (Label.of i) s := by
  have e := hc.eval
  have field : s.field ≠ none → ∃ c, s.field = some c := fun h => by
    cases hf : s.field with
    | none => exact absurd hf h
    | some c => exact ⟨c, rfl⟩
  cases hp : s.s i with
  | idle => exact absurd hp hi
  | mcheck m =>
    cases hcl : s.closed with
    | true => exact ⟨.retErr i, _, rfl, .msgClosed _ i m hp hcl⟩
    | false => exact ⟨.own i, _, rfl, .msgOpen _ i m hp hcl⟩
  | swant m =>
    cases hcl : s.closed with
    | true => exact ⟨.retErr i, _, rfl, .sendClosed _ i m hp hf hcl⟩
    | false => exact ⟨.rlock i, _, rfl, .sendOpen _ i m hp hf hcl⟩
  | write m =>
    cases hb : s.broken with
    | true => exact ⟨.retErr i, _, rfl, .writeFail _ i m hp hb⟩
    | false => exact ⟨.write i m, _, rfl, .write _ i m hp hb⟩
  | bcheck m =>
    cases hcl : s.closed with
    | true => exact ⟨.retErr i, _, rfl, .buffClosed _ i m hp hcl⟩
    | false => exact ⟨.own i, _, rfl, .buffOpen _ i m hp hcl⟩
  | qwant m => exact ⟨.rlock i, _, rfl, .queueLock _ i m hp hf⟩
  | nil m r =>
    cases hfl : s.field with
    | none => exact ⟨.own i, _, rfl, .isNil _ i m r hp hfl⟩
    | some c => exact ⟨.own i, _, rfl, .notNil _ i m r c hp hfl⟩
  | make m r => exact ⟨.make i, _, rfl, .make _ i m r hp⟩
  | qcheck m =>
    cases hcl : s.closed with
    | true => exact ⟨.retErr i, _, rfl, .queueClosed _ i m hp hcl⟩
    | false => exact ⟨.own i, _, rfl, .queueOpen _ i m hp hcl⟩
  | eval m r =>
    obtain ⟨c, h⟩ := field (e i m r hp)
    exact ⟨.own i, _, rfl, .eval _ i m r c hp h⟩
  | sel m r c => exact ⟨.retErr i, _, rfl, .timeout _ i m r c hp⟩

/-- Steps of the finalizer. -/
def Label.isFin : Label → Prop
  | .fin | .finPanic => True
  | _ => False

def FPc.todo : FPc → Nat
  | .sock => 2
  | .close => 1
  | _ => 0

theorem fin_steps {cc s l t} (hs : Step cc s l t) : (s.fin.locks = true → t.fin.locks = true ∧ t.fin.todo ≤ s.fin.todo ∨ t.fin = .done) ∧
    (s.fin.locks = true → l.isFin → t.fin.locks = true ∧ t.fin.todo < s.fin.todo ∨ t.fin = .done) ∧ (s.fin = .done → t.fin = .done) := by
  cases hs <;> simp [Label.isFin, FPc.locks, FPc.todo] at * <;> grind [FPc.locks, FPc.todo]

theorem fin_enabled {cc s} (h : s.fin.locks = true) : Enabled (Step cc) Label.isFin s := by
  cases hf : s.fin with
  | sock => exact ⟨.fin, _, trivial, .finSock _ hf⟩
  | close =>
    cases hfl : s.field with
    | none => exact ⟨.fin, _, trivial, .finNoChan _ hf hfl⟩
    | some c =>
      cases hcl : (s.chan c).closed with
      | true => exact ⟨.finPanic, _, trivial, .finPanic _ c hf hfl hcl⟩
      | false => exact ⟨.fin, _, trivial, .finChan _ c hf hfl hcl⟩
  | _ => rw [hf] at h; cases h

section
variable {cc : Nat} (e : Exec (Step cc)) (h0 : e.run 0 = {})
include h0

theorem exec_steps (n : Nat) : Steps (Step cc) {} (e.trace n) (e.run n) := h0 ▸ e.steps n

theorem call_returns (hf : e.WeakFair Label.isFin) (i : Nat) (hi : e.WeakFair (Label.of i)) (n : Nat) : ∃ m, n ≤ m ∧ (e.run m).s i = .idle := by
  have invc := fun n => invC_steps (exec_steps e h0 n)
  have go : ∀ k, (e.run k).s i ≠ .idle → (e.run k).fin.locks = false → ∃ m, k ≤ m ∧ ((e.run m).s i = .idle ∨ (e.run m).fin.locks = true) := by
    intro k hk hl
    exact e.leads_weak_dec hi (P := fun s => InvC s ∧ s.s i ≠ .idle ∧ s.fin.locks = false) (Q := fun s => s.s i = .idle ∨ s.fin.locks = true) (fun s => (s.s i).left)
      (fun s l t hp hs => by
        by_cases h1 : t.s i = .idle
        · exact .inr (.inl h1)
        · by_cases h2 : t.fin.locks = true
          · exact .inr (.inr h2)
          · rw [Bool.not_eq_true] at h2
            exact .inl ⟨⟨invC_step hp.1 hs, h1, h2⟩, left_other hs hp.2.1⟩)
      (fun s l t hp hs hA => by
        by_cases h1 : t.s i = .idle
        · exact .inr (.inl h1)
        · by_cases h2 : t.fin.locks = true
          · exact .inr (.inr h2)
          · rw [Bool.not_eq_true] at h2
            exact .inl ⟨⟨invC_step hp.1 hs, h1, h2⟩, left_of hs hA⟩)
      (fun s hp => of_enabled hp.1 hp.2.1 hp.2.2) (n := k) ⟨invc k, hk, hl⟩
  have unlock : ∀ k, (e.run k).fin.locks = true → ∃ m, k ≤ m ∧ (e.run m).fin = .done := by
    intro k hk
    exact e.leads_weak_dec hf (P := fun s => s.fin.locks = true) (Q := fun s => s.fin = .done) (fun s => s.fin.todo) (fun s l t hp hs => (fin_steps hs).1 hp)
      (fun s l t hp hs hA => (fin_steps hs).2.1 hp hA) (fun s hp => fin_enabled hp) (n := k) hk
  have after : ∀ k, (e.run k).fin = .done → ∃ m, k ≤ m ∧ (e.run m).s i = .idle := by
    intro k hk
    by_cases hd : (e.run k).s i = .idle
    · exact ⟨k, Nat.le_refl _, hd⟩
    · obtain ⟨m, hm, h | h⟩ := go k hd (by rw [hk]; rfl)
      · exact ⟨m, hm, h⟩
      · have := e.invariant (P := fun s => s.fin = .done) (fun s l t hp hs => (fin_steps hs).2.2 hp) hk m hm
        rw [this] at h; cases h
  have locked : ∀ k, (e.run k).fin.locks = true → ∃ m, k ≤ m ∧ (e.run m).s i = .idle := by
    intro k hk
    obtain ⟨m, hm, h⟩ := unlock k hk
    obtain ⟨j, hj, h2⟩ := after m h
    exact ⟨j, by omega, h2⟩
  by_cases hd : (e.run n).s i = .idle
  · exact ⟨n, Nat.le_refl _, hd⟩
  · cases hl : (e.run n).fin.locks with
    | true => exact locked n hl
    | false =>
      obtain ⟨m, hm, h | h⟩ := go n hd hl
      · exact ⟨m, hm, h⟩
      · obtain ⟨j, hj, h2⟩ := locked m h
        exact ⟨j, by omega, h2⟩

end

/-! ## Everything queued is written -/

/-- The steps of writer `k`. -/
def Label.writer (k : Nat) : Label → Prop
  | .weval j | .recv j | .wlock j | .wspin j | .wdone j | .wwrite j _ | .wfail j => j = k
  | _ => False

def WPc.left : WPc → Nat
  | .eval => 4
  | .sel _ => 3
  | .want _ => 2
  | .write _ => 1
  | _ => 0

/-- Running with one channel, and something is queued or about to be written. -/
structure Busy (s : State) : Prop where
  inv : InvC s
  invF : InvF s
  one : s.nch = 1
  live : s.cancelled = false
  works : s.broken = false
  some : (s.w 0).pend ++ (s.chan 0).items ≠ []

def State.bad (s : State) : Prop := s.cancelled = true ∨ s.broken = true ∨ 1 < s.nch

theorem busy_step {cc s l t} (ls : List Label) (h : Busy s) (hs : Step cc s l t) :
    (Busy t ∧ (written (ls ++ [l])).length = (written ls).length ∧ (t.w 0).left ≤ (s.w 0).left ∧ (l.writer 0 → (t.w 0).left < (s.w 0).left)) ∨
      (written ls).length < (written (ls ++ [l])).length ∨ t.bad := by
  by_cases hb : t.bad
  · exact .inr (.inr hb)
  have hc : t.cancelled = false := by cases h : t.cancelled <;> simp_all [State.bad]
  have hw : t.broken = false := by cases h : t.broken <;> simp_all [State.bad]
  have hn : t.nch = 1 := by
    have h1 := nch_step hs
    have h2 := h.one
    have h3 : ¬ 1 < t.nch := fun h => hb (.inr (.inr h))
    omega
  have g1 := invC_step h.inv hs
  have g2 := invF_step h.invF hs
  obtain ⟨⟨h1, h2, h3, h4, h5, h6, h7, h8, h9⟩, hF, h10, h11, h12, h13⟩ := h
  have hcl := hF.waiting (hF.running h11)
  clear h3 h4 h5 hF hb
  have k0 : ∀ k, s.w k ≠ .none → k = 0 := fun k hk => by
    apply Classical.byContradiction; intro e; exact hk (h7 k (by omega))
  have key : (written (ls ++ [l])).length = (written ls).length ∧ ((t.w 0).pend ++ (t.chan 0).items ≠ [] ∧ (t.w 0).left ≤ (s.w 0).left ∧ (l.writer 0 → (t.w 0).left < (s.w 0).left)) ∨
      (written ls).length < (written (ls ++ [l])).length := by
    have h80 := h8 0
    cases hs
    case enq i m r c _ _ _ =>
      refine .inl ⟨by simp [written_append, written], ?_, Nat.le_refl _, nofun⟩
      by_cases e : 0 = c
      · simp [set, e]
      · simp only [set, if_neg e]; exact h13
    all_goals
      simp [set, written_append, written, Label.writer] at * <;> grind [WPc.pend, WPc.left]
  rcases key with ⟨k1, k2, k3⟩ | k1
  · exact .inl ⟨⟨g1, g2, hn, hc, hw, k2⟩, k1, k3⟩
  · exact .inr (.inl k1)

theorem writer_enabled {cc s} (h : Busy s) : Enabled (Step cc) (Label.writer 0) s := by
  obtain ⟨hC, hF, h10, h11, h12, h13⟩ := h
  have hfin := hF.running h11
  have hcl := hF.waiting hfin
  cases hw : s.w 0 with
  | none => exact absurd hw (hC.wr 0 (by omega))
  | eval =>
    cases hf : s.field with
    | none => have := hC.nofield hf; omega
    | some c => exact ⟨.weval 0, _, rfl, .weval _ 0 c hw hf⟩
  | sel c =>
    have : c = 0 := by have := hC.wsel 0 c hw; omega
    subst this
    rw [hw] at h13
    cases hi : (s.chan 0).items with
    | nil => rw [hi] at h13; exact absurd rfl h13
    | cons m ms => exact ⟨.recv 0, _, rfl, .recv _ 0 0 m ms hw hi⟩
  | want m => exact ⟨.wlock 0, _, rfl, .wOpen _ 0 m hw (by rw [hfin]; rfl) hcl⟩
  | write m => exact ⟨.wwrite 0 m, _, rfl, .wwrite _ 0 m hw h12⟩
  | gone => have := hF.gone 0 hw; rw [h11] at this; cases this

section
variable {cc : Nat} (e : Exec (Step cc)) (h0 : e.run 0 = {}) (hq : ∀ n, (e.run n).cancelled = false ∧ (e.run n).broken = false) (h1 : ∀ n, (e.run n).nch ≤ 1)
include h0 hq h1

theorem another (hw : e.WeakFair (Label.writer 0)) (n : Nat) (hn : (e.run n).nch = 1) (hne : ((e.run n).w 0).pend ++ ((e.run n).chan 0).items ≠ []) :
    ∃ m, n ≤ m ∧ (written (e.trace n)).length < (written (e.trace m)).length := by
  obtain ⟨m, hm, h⟩ := e.recorded.leads_weak_dec hw.recorded (P := fun p => Busy p.1 ∧ (written p.2).length = (written (e.trace n)).length)
    (Q := fun p => (written (e.trace n)).length < (written p.2).length ∨ p.1.bad) (fun p => (p.1.w 0).left)
    (fun p l q hp hs => by
      rw [hs.2]
      rcases busy_step p.2 hp.1 hs.1 with h | h | h
      · exact .inl ⟨⟨h.1, by rw [h.2.1, hp.2]⟩, h.2.2.1⟩
      · exact .inr (.inl (by omega))
      · exact .inr (.inr h))
    (fun p l q hp hs hA => by
      rw [hs.2]
      rcases busy_step p.2 hp.1 hs.1 with h | h | h
      · exact .inl ⟨⟨h.1, by rw [h.2.1, hp.2]⟩, h.2.2.2 hA⟩
      · exact .inr (.inl (by omega))
      · exact .inr (.inr h))
    (fun p hp => enabled_recorded.2 (writer_enabled hp.1)) (n := n) ⟨⟨invC_steps (exec_steps e h0 n), invF_steps (exec_steps e h0 n), hn, (hq n).1, (hq n).2, hne⟩, rfl⟩
  rcases h with h | h
  · exact ⟨m, hm, h⟩
  · rcases h with h | h | h
    · have := (hq m).1; have h : (e.run m).cancelled = true := h; rw [this] at h; cases h
    · have := (hq m).2; have h : (e.run m).broken = true := h; rw [this] at h; cases h
    · have := h1 m; have h : 1 < (e.run m).nch := h; omega

theorem all_written (hw : e.WeakFair (Label.writer 0)) (n : Nat) : ∃ m, n ≤ m ∧ queued (e.trace n) <+: written (e.trace m) := by
  have mono : ∀ {j k}, j ≤ k → queued (e.trace j) <+: queued (e.trace k) := by
    intro j k hjk
    induction k with
    | zero => have : j = 0 := by omega
              rw [this]; exact List.prefix_refl _
    | succ k ih =>
      by_cases e1 : j = k + 1
      · rw [e1]; exact List.prefix_refl _
      · show _ <+: queued (e.trace k ++ _)
        rw [queued_append]
        exact (ih (by omega)).trans (List.prefix_append _ _)
  have hl : ∀ k, queued (e.trace k) = written (e.trace k) ++ ((e.run k).w 0).pend ++ ((e.run k).chan 0).items := by
    intro k
    rcases (order_steps (exec_steps e h0 k)).order (h1 k) with h | h
    · exact h
    · have hF := invF_steps (exec_steps e h0 k)
      have := hF.waiting (hF.running (hq k).1)
      rcases h.1 with h | h
      · rw [this] at h; cases h
      · rw [(hq k).2] at h; cases h
  have key : ∀ v k, n ≤ k → (queued (e.trace n)).length ≤ (written (e.trace k)).length + v → ∃ m, k ≤ m ∧ (queued (e.trace n)).length ≤ (written (e.trace m)).length := by
    intro v
    induction v with
    | zero => exact fun k hk h => ⟨k, Nat.le_refl _, h⟩
    | succ v ih =>
      intro k hk h
      by_cases hle : (queued (e.trace n)).length ≤ (written (e.trace k)).length
      · exact ⟨k, Nat.le_refl _, hle⟩
      have h1' := (mono hk).length_le
      have hne : ((e.run k).w 0).pend ++ ((e.run k).chan 0).items ≠ [] := by
        intro h2
        have := hl k
        rw [List.append_assoc, h2, List.append_nil] at this
        rw [this] at h1'; omega
      have hn : (e.run k).nch = 1 := by
        have h2 := queued_nch (exec_steps e h0 k) (by intro h3; rw [h3] at h1'; have : ([] : List Bytes).length = 0 := rfl; omega)
        have := h1 k
        omega
      obtain ⟨m, hm, h3⟩ := another e h0 hq h1 hw k hn hne
      obtain ⟨j, hj, h4⟩ := ih m (by omega) (by omega)
      exact ⟨j, by omega, h4⟩
  obtain ⟨m, hm, h⟩ := key _ n (Nat.le_refl _) (Nat.le_add_left _ _)
  refine ⟨m, hm, List.prefix_of_prefix_length_le (mono hm) ?_ h⟩
  rw [hl m, List.append_assoc]; exact List.prefix_append _ _

end

end Zinx.KcpSend
