import Verif.Lemmas.WsSend

/-! Progress of sends on a WebSocket connection. -/

namespace Zinx.WsSend

/-- A goroutine that holds the lock goes on. -/
def Label.inside (i : Nat) : Label → Prop
  | .write j _ | .ret j _ | .retErr j | .enq j _ | .panic j => j = i
  | _ => False

/-- A goroutine gets the lock. -/
def Label.acquire (i : Nat) : Label → Prop
  | .lock j | .refuse j => j = i
  | _ => False

/-- The writer, holding the lock, goes on. -/
def Label.winside : Label → Prop
  | .wwrite _ | .wend _ | .wfail => True
  | _ => False

/-- A bound for the number of steps until the lock is released. -/
def SPc.left : SPc → Nat
  | .write _ r => r.length + 1
  | _ => 1

def WPc.left : WPc → Nat
  | .write _ r => r.length + 1
  | _ => 1

def FPc.left : FPc → Nat
  | .sock => 2
  | _ => 1

def Owner.todo (o : Owner) (s : State) : Nat := match o with
  | .sender i => (s.s i).left
  | .writer => s.writer.left
  | .fin => s.fin.left

/-- The steps of the holder of the lock. -/
def Owner.steps : Owner → Label → Prop
  | .sender i => Label.inside i
  | .writer => Label.winside
  | .fin => fun l => l = .fin ∨ l = .finPanic

theorem todo_step {cc s l t o} (h : Inv s) (hs : Step cc s l t) (ho : s.lock = some o) : t.lock = some o ∧ o.todo t ≤ o.todo s ∨ t.lock = none := by
  obtain ⟨h1, h2, h3, h4, h5, h6, h7, h8, h9, h10, h11, h12, h13, h14, h15, h16⟩ := h
  cases o <;> cases hs <;> simp [Owner.todo, set, withChan_eq] at * <;> grind [SPc.holds, WPc.holds, FPc.holds, SPc.left, WPc.left, FPc.left, List.length_pos_iff]

theorem todo_dec {cc s l t o} (h : Inv s) (hs : Step cc s l t) (ho : s.lock = some o) (hl : o.steps l) : t.lock = some o ∧ o.todo t < o.todo s ∨ t.lock = none := by
  obtain ⟨h1, h2, h3, h4, h5, h6, h7, h8, h9, h10, h11, h12, h13, h14, h15, h16⟩ := h
  cases o <;> cases hs <;> simp [Owner.todo, set, Owner.steps, Label.inside, Label.winside] at * <;>
    grind [SPc.holds, WPc.holds, FPc.holds, SPc.left, WPc.left, FPc.left, List.length_pos_iff]

theorem inside_enabled {cc} {s : State} {i : Nat} (h : (s.s i).holds = true) : Enabled (Step cc) (Label.inside i) s := by
  cases hi : s.s i with
  | idle => rw [hi] at h; cases h
  | want m b => rw [hi] at h; cases h
  | sel m => exact ⟨.retErr i, _, rfl, .timeout _ _ _ hi⟩
  | write o r =>
    cases hb : s.broken with
    | true => exact ⟨.retErr i, _, rfl, .writeFail _ _ _ _ hi hb⟩
    | false =>
      cases r with
      | nil => exact ⟨.ret i o, _, rfl, .writeEnd _ _ _ hi hb⟩
      | cons a r => exact ⟨.write i [a], _, rfl, .write _ _ _ [a] r hi nofun hb⟩

theorem winside_enabled {cc} {s : State} (h : s.writer.holds = true) : Enabled (Step cc) Label.winside s := by
  cases hi : s.writer with
  | none => rw [hi] at h; cases h
  | select => rw [hi] at h; cases h
  | want m => rw [hi] at h; cases h
  | gone => rw [hi] at h; cases h
  | write o r =>
    cases hb : s.broken with
    | true => exact ⟨.wfail, _, trivial, .wfail _ _ _ hi hb⟩
    | false =>
      cases r with
      | nil => exact ⟨.wend o, _, trivial, .wend _ _ hi hb⟩
      | cons a r => exact ⟨.wwrite [a], _, trivial, .wwrite _ _ [a] r hi nofun hb⟩

theorem fin_enabled {cc} {s : State} (h : s.fin.holds = true) : Enabled (Step cc) (Owner.steps .fin) s := by
  cases hi : s.fin with
  | waiting => rw [hi] at h; cases h
  | hook => rw [hi] at h; cases h
  | lock => rw [hi] at h; cases h
  | done => rw [hi] at h; cases h
  | sock => exact ⟨.fin, _, .inl rfl, .finSock _ hi⟩
  | close =>
    cases hc : s.chan with
    | none => exact ⟨.fin, _, .inl rfl, .finNoChan _ hi hc⟩
    | some c =>
      cases hcc : c.closed with
      | false => exact ⟨.fin, _, .inl rfl, .finChan _ _ hi hc hcc⟩
      | true => exact ⟨.finPanic, _, .inr rfl, .finPanic _ _ hi hc hcc⟩

theorem holder_enabled {cc} {s : State} {o : Owner} (h : Inv s) (ho : s.lock = some o) : Enabled (Step cc) o.steps s := by
  cases o with
  | sender i => exact inside_enabled (h.sender' i ho)
  | writer => exact winside_enabled (h.writer' ho)
  | fin => exact fin_enabled (h.fin' ho)

theorem want_step {cc s l t i m b} (hp : s.s i = .want m b) (hs : Step cc s l t) : t.s i = .want m b ∨ t.s i = .idle ∨ (t.s i).holds = true := by
  cases hs <;> grind [SPc.holds, set]

theorem want_acquire {cc s l t i} (hs : Step cc s l t) (hA : l.acquire i) : t.s i = .idle ∨ (t.s i).holds = true := by
  cases hs <;> simp [set, Label.acquire] at * <;> grind [SPc.holds]

/-! ## Stages of the writer -/

/-- The connection is stopped, or the network has failed. -/
def State.bad (s : State) : Prop := s.broken = true ∨ s.cancelled = true

theorem write_step {cc s l t} {ls : List Label} (h : Inv s) (hw : s.writer.holds = true) (hs : Step cc s l t) :
    (t.writer.holds = true ∧ wends (ls ++ [l]) = wends ls ∧ t.writer.left ≤ s.writer.left) ∨ (wends ls).length < (wends (ls ++ [l])).length ∨ t.bad := by
  obtain ⟨h1, h2, h3, h4, h5, h6, h7, h8, h9, h10, h11, h12, h13, h14, h15, h16⟩ := h
  cases hs <;> simp [wends_append, wends, withChan_eq, State.bad] at * <;> grind [WPc.holds, WPc.left, List.length_pos_iff]

theorem write_inside {cc s l t} {ls : List Label} (hs : Step cc s l t) (hl : l.winside) :
    (t.writer.holds = true ∧ wends (ls ++ [l]) = wends ls ∧ t.writer.left < s.writer.left) ∨ (wends ls).length < (wends (ls ++ [l])).length ∨ t.bad := by
  cases hs <;> simp [wends_append, wends, State.bad, Label.winside] at * <;> grind [WPc.holds, WPc.left, List.length_pos_iff]

theorem wwant_step {cc s l t m} {ls : List Label} (h : Inv s) (hw : s.writer = .want m) (hs : Step cc s l t) :
    wends (ls ++ [l]) = wends ls ∧ (t.writer = .want m ∨ t.writer.holds = true ∨ t.bad) ∧ (l = .wlock → t.writer.holds = true ∨ t.bad) := by
  obtain ⟨h1, h2, h3, h4, h5, h6, h7, h8, h9, h10, h11, h12, h13, h14, h15, h16⟩ := h
  cases hs <;> simp [wends_append, wends, withChan_eq, State.bad] at * <;> grind [WPc.holds]

theorem select_step {cc s l t} {ls : List Label} (h : Inv s) (hw : s.writer = .select) (hi : s.items ≠ []) (hs : Step cc s l t) :
    wends (ls ++ [l]) = wends ls ∧ (t.writer = .select ∧ t.items ≠ [] ∨ (∃ m, t.writer = .want m) ∨ t.bad) ∧ (l = .recv → ∃ m, t.writer = .want m) := by
  obtain ⟨h1, h2, h3, h4, h5, h6, h7, h8, h9, h10, h11, h12, h13, h14, h15, h16⟩ := h
  cases hs <;> simp [wends_append, wends, withChan_eq, State.bad, State.items] at * <;> grind [WPc.holds]

section
variable {cc : Nat} (e : Exec (Step cc)) (h0 : e.run 0 = {})
include h0

theorem exec_steps (n : Nat) : Steps (Step cc) {} (e.trace n) (e.run n) := h0 ▸ e.steps n

theorem exec_inv (n : Nat) : Inv (e.run n) := inv_steps (exec_steps e h0 n)

/-- The lock is free again and again. -/
theorem lock_free (hs : ∀ i, e.WeakFair (Label.inside i)) (hw : e.WeakFair Label.winside) (hf : e.WeakFair (Owner.steps .fin)) (n : Nat) : ∃ m, n ≤ m ∧ (e.run m).lock = none := by
  cases ho : (e.run n).lock with
  | none => exact ⟨n, Nat.le_refl _, ho⟩
  | some o =>
    have hfair : e.WeakFair o.steps := by
      cases o with
      | sender i => exact hs i
      | writer => exact hw
      | fin => exact hf
    refine e.leads_weak_dec hfair (P := fun s => Inv s ∧ s.lock = some o) (Q := fun s => s.lock = none) o.todo ?_ ?_ ?_ ⟨exec_inv e h0 n, ho⟩
    · intro s l t hp hs
      rcases todo_step hp.1 hs hp.2 with h | h
      · exact .inl ⟨⟨inv_step hp.1 hs, h.1⟩, h.2⟩
      · exact .inr h
    · intro s l t hp hs hA
      rcases todo_dec hp.1 hs hp.2 hA with h | h
      · exact .inl ⟨⟨inv_step hp.1 hs, h.1⟩, h.2⟩
      · exact .inr h
    · exact fun s hp => holder_enabled hp.1 hp.2

theorem call_returns (hs : ∀ i, e.WeakFair (Label.inside i)) (hw : e.WeakFair Label.winside) (hf : e.WeakFair (Owner.steps .fin)) (i : Nat) (ha : e.StrongFair (Label.acquire i)) (n : Nat) :
    ∃ m, n ≤ m ∧ (e.run m).s i = .idle := by
  have held : ∀ n, (e.run n).s i |>.holds → ∃ m, n ≤ m ∧ (e.run m).s i = .idle := by
    intro n hn
    refine e.leads_weak_dec (hs i) (P := fun s => Inv s ∧ (s.s i).holds = true) (Q := fun s => s.s i = .idle) (Owner.todo (.sender i)) ?_ ?_ ?_ ⟨exec_inv e h0 n, hn⟩
    · intro s l t hp hs
      obtain ⟨h1, h2⟩ := hp
      have ht := inv_step h1 hs
      refine Classical.byCases (p := (t.s i).holds = true) (fun h => .inl ⟨⟨ht, h⟩, ?_⟩) (fun h => .inr ?_)
      · rcases todo_step h1 hs (h1.sender i h2) with h3 | h3
        · exact h3.2
        · rw [ht.sender i h] at h3; cases h3
      · cases hs <;> simp [set, withChan_eq] at * <;> grind [SPc.holds]
    · intro s l t hp hs hA
      obtain ⟨h1, h2⟩ := hp
      have ht := inv_step h1 hs
      refine Classical.byCases (p := (t.s i).holds = true) (fun h => .inl ⟨⟨ht, h⟩, ?_⟩) (fun h => .inr ?_)
      · rcases todo_dec h1 hs (h1.sender i h2) hA with h3 | h3
        · exact h3.2
        · rw [ht.sender i h] at h3; cases h3
      · cases hs <;> simp [set, withChan_eq] at * <;> grind [SPc.holds]
    · exact fun s hp => inside_enabled hp.2
  cases hi : (e.run n).s i with
  | idle => exact ⟨n, Nat.le_refl _, hi⟩
  | write o r => exact held n (by rw [hi]; rfl)
  | sel m => exact held n (by rw [hi]; rfl)
  | want m b =>
    obtain ⟨k, hk, h⟩ := e.leads_strong ha (P := fun s => s.s i = .want m b) (Q := fun s => s.s i = .idle ∨ (s.s i).holds = true)
      (fun s l t hp hs => want_step hp hs)
      (fun s l t hp hs hA => want_acquire hs hA)
      (fun n hn => by
        obtain ⟨k, hk, hl⟩ := lock_free e h0 hs hw hf n
        refine ⟨k, hk, ?_⟩
        have hp := hn k hk
        cases hc : (e.run k).closed <;> cases b
        · exact ⟨.lock i, _, rfl, .directOpen _ _ _ hp hl hc⟩
        · exact ⟨.lock i, _, rfl, .buffOpen _ _ _ hp hl hc⟩
        · exact ⟨.refuse i, _, rfl, .directClosed _ _ _ hp hl hc⟩
        · exact ⟨.refuse i, _, rfl, .buffClosed _ _ _ hp hl hc⟩) hi
    rcases h with h | h
    · exact ⟨k, hk, h⟩
    · obtain ⟨j, hj, h2⟩ := held k h
      exact ⟨j, by omega, h2⟩

/-! ## The writer -/

variable (hq : ∀ n, (e.run n).cancelled = false ∧ (e.run n).broken = false)
include hq

/-- As long as something is queued, the writer completes another message. -/
theorem another (hs : ∀ i, e.WeakFair (Label.inside i)) (hw : e.WeakFair Label.winside) (hf : e.WeakFair (Owner.steps .fin)) (ha : e.StrongFair (· = .wlock)) (hr : e.WeakFair (· = .recv))
    (n : Nat) (hne : (e.run n).writer.pend ++ (e.run n).items ≠ []) : ∃ m, n ≤ m ∧ (wends (e.trace n)).length < (wends (e.trace m)).length := by
  have hnb : ∀ k, ¬ (e.run k).bad := by
    rintro k (h | h)
    · rw [(hq k).2] at h; cases h
    · rw [(hq k).1] at h; cases h
  generalize hv : (wends (e.trace n)).length = v
  -- in `WriteMessage`
  have write : ∀ k, (e.run k).writer.holds = true → (wends (e.trace k)).length = v → ∃ m, k ≤ m ∧ v < (wends (e.trace m)).length := by
    intro k hk hv
    obtain ⟨m, hm, h⟩ := e.recorded.leads_weak_dec hw.recorded (P := fun p => Inv p.1 ∧ p.1.writer.holds = true ∧ (wends p.2).length = v)
      (Q := fun p => v < (wends p.2).length ∨ p.1.bad) (fun p => p.1.writer.left)
      (fun p l q hp hs => by
        obtain ⟨h1, h2, h3⟩ := hp
        rcases write_step (ls := p.2) h1 h2 hs.1 with h | h | h
        · exact .inl ⟨⟨inv_step h1 hs.1, h.1, by rw [hs.2, h.2.1, h3]⟩, h.2.2⟩
        · exact .inr (.inl (by rw [hs.2]; omega))
        · exact .inr (.inr h))
      (fun p l q hp hs hA => by
        obtain ⟨h1, h2, h3⟩ := hp
        rcases write_inside (ls := p.2) hs.1 hA with h | h | h
        · exact .inl ⟨⟨inv_step h1 hs.1, h.1, by rw [hs.2, h.2.1, h3]⟩, h.2.2⟩
        · exact .inr (.inl (by rw [hs.2]; omega))
        · exact .inr (.inr h))
      (fun p hp => enabled_recorded.2 (winside_enabled hp.2.1)) (n := k) ⟨exec_inv e h0 k, hk, hv⟩
    rcases h with h | h
    · exact ⟨m, hm, h⟩
    · exact absurd h (hnb m)
  -- at the lock
  have want : ∀ k x, (e.run k).writer = .want x → (wends (e.trace k)).length = v → ∃ m, k ≤ m ∧ v < (wends (e.trace m)).length := by
    intro k x hk hv
    obtain ⟨m, hm, h⟩ := e.recorded.leads_strong ha.recorded (P := fun p => Inv p.1 ∧ p.1.writer = .want x ∧ (wends p.2).length = v)
      (Q := fun p => p.1.writer.holds = true ∧ (wends p.2).length = v ∨ p.1.bad)
      (fun p l q hp hs => by
        obtain ⟨h1, h2, h3⟩ := hp
        obtain ⟨g1, g2, -⟩ := wwant_step (ls := p.2) h1 h2 hs.1
        rcases g2 with h | h | h
        · exact .inl ⟨inv_step h1 hs.1, h, by rw [hs.2, g1, h3]⟩
        · exact .inr (.inl ⟨h, by rw [hs.2, g1, h3]⟩)
        · exact .inr (.inr h))
      (fun p l q hp hs hA => by
        obtain ⟨h1, h2, h3⟩ := hp
        obtain ⟨g1, -, g2⟩ := wwant_step (ls := p.2) h1 h2 hs.1
        rcases g2 hA with h | h
        · exact .inl ⟨h, by rw [hs.2, g1, h3]⟩
        · exact .inr h)
      (fun j hj => by
        obtain ⟨i, hi, hl⟩ := lock_free e h0 hs hw hf j
        have hp := hj i hi
        refine ⟨i, hi, enabled_recorded.2 ⟨.wlock, _, rfl, .wOpen _ x hp.2.1 hl ?_⟩⟩
        exact ((exec_inv e h0 i).running (hq i).1).2) (n := k) ⟨exec_inv e h0 k, hk, hv⟩
    rcases h with h | h
    · obtain ⟨j, hj, h2⟩ := write m h.1 h.2
      exact ⟨j, by omega, h2⟩
    · exact absurd h (hnb m)
  cases hwr : (e.run n).writer with
  | write o r => exact write n (by rw [hwr]; rfl) hv
  | want x => exact want n x hwr hv
  | none =>
    rw [hwr] at hne
    have hc := (exec_inv e h0 n).made hwr
    exact absurd (by simp [WPc.pend, State.items, hc]) hne
  | gone => exact absurd (.inr ((exec_inv e h0 n).gone hwr)) (hnb n)
  | select =>
    have hi : (e.run n).items ≠ [] := by rw [hwr] at hne; exact hne
    obtain ⟨m, hm, h⟩ := e.recorded.leads_weak hr.recorded (P := fun p => Inv p.1 ∧ p.1.writer = .select ∧ p.1.items ≠ [] ∧ (wends p.2).length = v)
      (Q := fun p => (∃ x, p.1.writer = .want x) ∧ (wends p.2).length = v ∨ p.1.bad)
      (fun p l q hp hs => by
        obtain ⟨h1, h2, h3, h4⟩ := hp
        obtain ⟨g1, g2, -⟩ := select_step (ls := p.2) h1 h2 h3 hs.1
        rcases g2 with h | h | h
        · exact .inl ⟨inv_step h1 hs.1, h.1, h.2, by rw [hs.2, g1, h4]⟩
        · exact .inr (.inl ⟨h, by rw [hs.2, g1, h4]⟩)
        · exact .inr (.inr h))
      (fun p l q hp hs hA => by
        obtain ⟨h1, h2, h3, h4⟩ := hp
        obtain ⟨g1, -, g2⟩ := select_step (ls := p.2) h1 h2 h3 hs.1
        exact .inl ⟨g2 hA, by rw [hs.2, g1, h4]⟩)
      (fun p hp => by
        obtain ⟨h1, h2, h3, h4⟩ := hp
        apply enabled_recorded.2
        cases hc : p.1.chan with
        | none => exact absurd (by simp [State.items, hc]) h3
        | some c =>
          obtain ⟨items, cl⟩ := c
          cases items with
          | nil => exact absurd (by simp [State.items, hc]) h3
          | cons a as => exact ⟨_, _, rfl, .recv _ a as cl h2 hc⟩) (n := n) ⟨exec_inv e h0 n, hwr, hi, hv⟩
    rcases h with ⟨⟨x, hx⟩, h⟩ | h
    · obtain ⟨j, hj, h2⟩ := want m x hx h
      exact ⟨j, by omega, h2⟩
    · exact absurd h (hnb m)

/-- Everything queued is written. -/
theorem all_written (hs : ∀ i, e.WeakFair (Label.inside i)) (hw : e.WeakFair Label.winside) (hf : e.WeakFair (Owner.steps .fin)) (ha : e.StrongFair (· = .wlock)) (hr : e.WeakFair (· = .recv))
    (n : Nat) : ∃ m, n ≤ m ∧ enqOf (e.trace n) <+: wends (e.trace m) := by
  have mono : ∀ {j k}, j ≤ k → enqOf (e.trace j) <+: enqOf (e.trace k) := by
    intro j k hjk
    induction k with
    | zero => have : j = 0 := by omega
              rw [this]; exact List.prefix_refl _
    | succ k ih =>
      by_cases e1 : j = k + 1
      · rw [e1]; exact List.prefix_refl _
      · show _ <+: enqOf (e.trace k ++ _)
        rw [enqOf_append]
        exact (ih (by omega)).trans (List.prefix_append _ _)
  have key : ∀ v k, n ≤ k → (enqOf (e.trace n)).length ≤ (wends (e.trace k)).length + v → ∃ m, k ≤ m ∧ (enqOf (e.trace n)).length ≤ (wends (e.trace m)).length := by
    intro v
    induction v with
    | zero => exact fun k hk h => ⟨k, Nat.le_refl _, h⟩
    | succ v ih =>
      intro k hk h
      by_cases hle : (enqOf (e.trace n)).length ≤ (wends (e.trace k)).length
      · exact ⟨k, Nat.le_refl _, hle⟩
      have hl := (order_steps (exec_steps e h0 k)).live (hq k).2
      have h1 := (mono hk).length_le
      have hne : (e.run k).writer.pend ++ (e.run k).items ≠ [] := by
        intro h2
        rw [List.append_assoc, h2, List.append_nil] at hl
        rw [hl] at h1; omega
      obtain ⟨m, hm, h3⟩ := another e h0 hq hs hw hf ha hr k hne
      obtain ⟨j, hj, h4⟩ := ih m (by omega) (by omega)
      exact ⟨j, by omega, h4⟩
  obtain ⟨m, hm, h⟩ := key _ n (Nat.le_refl _) (Nat.le_add_left _ _)
  exact ⟨m, hm, List.prefix_of_prefix_length_le (mono hm) (order_steps (exec_steps e h0 m)).pre h⟩

end

end Zinx.WsSend
