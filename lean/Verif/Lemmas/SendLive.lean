import Verif.Lemmas.Send

/-! The writer of a TCP connection keeps going. -/

namespace Zinx.Send

/-- A step of the writer other than a choice of its `select`. -/
def Inner (l : Label) : Prop := l = .winside ∨ ∃ x, l = .wwrite x

/-- The writer is not at its `select`. -/
def WPc.busy : WPc → Bool
  | .flushCheck | .flush | .got _ | .put _ => true
  | _ => false

/-- How far it is from it. -/
def dist (s : State) : Nat := match s.writer with
  | .flushCheck => 2
  | .flush => 1
  | .got m => 2 * m.length + 4
  | .put p => 2 * p.length + (if s.buf = [] then 0 else 1) + 1
  | _ => 0

theorem dist_step {cc bc s l t} (h : s.writer.busy = true) (he : s.err = false) (hc : s.closed = false) (hn : s.broken = false) (hm : ∀ i m, s.b i ≠ .make m)
    (hs : Step cc bc s l t) :
    ((t.writer = s.writer ∧ t.buf = s.buf) ∧ ¬ Inner l) ∨ (Inner l ∧ (t.writer = .select ∨ (t.writer.busy = true ∧ dist t < dist s) ∨ t.broken = true)) := by
  cases hs
  case putFill p h1 h2 h3 h4 h5 =>
    refine .inr ⟨.inr ⟨_, rfl⟩, .inr (.inl ⟨rfl, ?_⟩)⟩
    simp only [dist, h1, List.length_drop, if_true, h4, if_false]
    omega
  case putDirect p h1 h2 h3 h4 h5 =>
    refine .inr ⟨.inr ⟨_, rfl⟩, .inr (.inl ⟨rfl, ?_⟩)⟩
    simp only [dist, h1, if_true, h4, List.length_nil] at *
    omega
  all_goals simp_all [Inner, WPc.busy, dist]
  all_goals split <;> omega

theorem busy_enabled {cc bc s} (h : s.writer.busy = true) (he : s.err = false) (hc : s.closed = false) (hn : s.broken = false) : Enabled (Step cc bc) Inner s := by
  cases hw : s.writer with
  | none => rw [hw] at h; cases h
  | select => rw [hw] at h; cases h
  | exiting => rw [hw] at h; cases h
  | gone => rw [hw] at h; cases h
  | flushCheck => exact ⟨_, _, .inl rfl, .flushOpen s hw hc⟩
  | flush =>
    by_cases hb : s.buf = []
    · exact ⟨_, _, .inl rfl, .flushEmpty s hw he hb⟩
    · exact ⟨_, _, .inr ⟨_, rfl⟩, .flushWrite s hw he hb hn⟩
  | got m => exact ⟨_, _, .inl rfl, .gotOpen s m hw hc⟩
  | put p =>
    by_cases hp : p.length ≤ bc - s.buf.length
    · exact ⟨_, _, .inl rfl, .putRest s p hw he hp⟩
    · by_cases hb : s.buf = []
      · exact ⟨_, _, .inr ⟨_, rfl⟩, .putDirect s p hw he (by omega) hb hn⟩
      · exact ⟨_, _, .inr ⟨_, rfl⟩, .putFill s p hw he (by omega) hb hn⟩

section
variable {cc bc : Nat} (e : Exec (Step cc bc)) (h0 : e.run 0 = {}) (hq : ∀ n, (e.run n).closed = false ∧ (e.run n).broken = false)
include h0

theorem exec_steps (n : Nat) : Steps (Step cc bc) {} (e.trace n) (e.run n) := by
  have := e.steps n
  rwa [h0] at this

include hq in
theorem exec_quiet (n : Nat) : (e.run n).err = false ∧ (e.run n).writer.alive = true :=
  (quiet_steps (exec_steps e h0 n)).writer (hq n).1 (hq n).2

theorem exec_nomake {n : Nat} (h : (e.run n).writer.busy = true) : ∀ i m, (e.run n).b i ≠ .make m := by
  intro i m hm
  have h1 := ((make_steps (exec_steps e h0 n)).flag i m hm).2
  rw [((stream_steps (exec_steps e h0 n)).nochan h1).1] at h
  cases h

include hq in
theorem busy_step {n : Nat} (h : (e.run n).writer.busy = true) :
    (((e.run (n + 1)).writer = (e.run n).writer ∧ (e.run (n + 1)).buf = (e.run n).buf) ∧ ∀ l, e.act n = some l → ¬ Inner l) ∨
      ((∃ l, e.act n = some l ∧ Inner l) ∧ ((e.run (n + 1)).writer = .select ∨ ((e.run (n + 1)).writer.busy = true ∧ dist (e.run (n + 1)) < dist (e.run n)))) := by
  have hn := e.next n
  cases ha : e.act n with
  | none => rw [ha] at hn; rw [hn]; exact .inl ⟨⟨rfl, rfl⟩, nofun⟩
  | some l =>
    rw [ha] at hn
    rcases dist_step h (exec_quiet e h0 hq n).1 (hq n).1 (hq n).2 (exec_nomake e h0 h) hn with h1 | ⟨h1, h2⟩
    · exact .inl ⟨h1.1, fun l' hl => by cases hl; exact h1.2⟩
    · refine .inr ⟨⟨l, rfl, h1⟩, ?_⟩
      rcases h2 with h2 | h2 | h2
      · exact .inl h2
      · exact .inr h2
      · rw [(hq (n + 1)).2] at h2; cases h2

omit h0 in
theorem dist_congr {s t : State} (h : t.writer = s.writer ∧ t.buf = s.buf) : dist t = dist s := by
  unfold dist
  rw [h.1, h.2]

include hq in
theorem busy_select (hf : e.WeakFair Inner) : ∀ (v n : Nat), (e.run n).writer.busy = true → dist (e.run n) ≤ v → ∃ m, n ≤ m ∧ (e.run m).writer = .select := by
  intro v
  induction v with
  | zero =>
    intro n h hd
    exfalso
    unfold dist at hd
    cases hw : (e.run n).writer <;> rw [hw] at h hd <;> simp [WPc.busy] at h hd
  | succ v ih =>
    intro n h hd
    apply Classical.byContradiction
    intro hno
    have key : ∀ m, n ≤ m → (e.run m).writer.busy = true ∧ dist (e.run m) = dist (e.run n) := by
      intro m hm
      induction m with
      | zero =>
        have : n = 0 := by omega
        subst this
        exact ⟨h, rfl⟩
      | succ m ihm =>
        by_cases e1 : n = m + 1
        · subst e1; exact ⟨h, rfl⟩
        · obtain ⟨h1, h2⟩ := ihm (by omega)
          rcases busy_step e h0 hq h1 with h3 | ⟨_, h3 | h3⟩
          · rw [h3.1.1]
            exact ⟨h1, by rw [← h2]; exact dist_congr h3.1⟩
          · exact absurd ⟨m + 1, hm, h3⟩ hno
          · obtain ⟨k, hk, h4⟩ := ih (m + 1) h3.1 (by omega)
            exact absurd ⟨k, by omega, h4⟩ hno
    obtain ⟨m, l, hm, ha, hA⟩ := hf n (fun m hm => busy_enabled (key m hm).1 (exec_quiet e h0 hq m).1 (hq m).1 (hq m).2)
    rcases busy_step e h0 hq (key m hm).1 with h3 | ⟨_, h3 | h3⟩
    · exact h3.2 l ha hA
    · exact hno ⟨m + 1, by omega, h3⟩
    · obtain ⟨k, hk, h4⟩ := ih (m + 1) h3.1 (by have := (key m hm).2; omega)
      exact hno ⟨k, by omega, h4⟩

/-- The writer comes back to its `select`. -/
theorem to_select (hq : ∀ n, (e.run n).closed = false ∧ (e.run n).broken = false) (hf : e.WeakFair Inner) {n : Nat} (h : (e.run n).writer ≠ .none) :
    ∃ m, n ≤ m ∧ (e.run m).writer = .select := by
  have ha := (exec_quiet e h0 hq n).2
  cases hw : (e.run n).writer with
  | none => exact absurd hw h
  | select => exact ⟨n, Nat.le_refl _, hw⟩
  | exiting => rw [hw] at ha; cases ha
  | gone => rw [hw] at ha; cases ha
  | flushCheck => exact busy_select e h0 hq hf _ n (by rw [hw]; rfl) (Nat.le_refl _)
  | flush => exact busy_select e h0 hq hf _ n (by rw [hw]; rfl) (Nat.le_refl _)
  | got m => exact busy_select e h0 hq hf _ n (by rw [hw]; rfl) (Nat.le_refl _)
  | put m => exact busy_select e h0 hq hf _ n (by rw [hw]; rfl) (Nat.le_refl _)

omit h0 in
theorem started_step {s l t} (hs : Step cc bc s l t) (h : s.writer ≠ .none) : t.writer ≠ .none := by
  cases hs <;> simp_all

omit h0 in
theorem tick_step {s t} (hs : Step cc bc s .tick t) : t.writer = .flushCheck := by
  cases hs
  rfl

omit h0 in
theorem recvs_mono {n m : Nat} (h : n ≤ m) : recvs (e.trace n) ≤ recvs (e.trace m) := by
  induction m with
  | zero =>
    have : n = 0 := by omega
    rw [this]; exact Nat.le_refl _
  | succ m ih =>
    by_cases e1 : n = m + 1
    · rw [e1]; exact Nat.le_refl _
    · have := ih (by omega)
      show _ ≤ recvs (e.trace m ++ _)
      rw [recvs_append]; omega

omit h0 in
theorem enqs_mono {n m : Nat} (h : n ≤ m) : enqOf (e.trace n) <+: enqOf (e.trace m) := by
  induction m with
  | zero =>
    have : n = 0 := by omega
    rw [this]; exact List.prefix_refl _
  | succ m ih =>
    by_cases e1 : n = m + 1
    · rw [e1]; exact List.prefix_refl _
    · have := ih (by omega)
      show _ <+: enqOf (e.trace m ++ _)
      rw [enqOf_append]
      exact this.trans (List.prefix_append _ _)

include hq in
/-- Everything queued is received. -/
theorem all_received (hf : e.WeakFair Inner) (hr : e.StrongFair (fun l => l = .recv)) {n : Nat} (hw : (e.run n).writer ≠ .none) :
    ∀ (v k : Nat), n ≤ k → (enqOf (e.trace n)).length ≤ recvs (e.trace k) + v → ∃ m, k ≤ m ∧ (enqOf (e.trace n)).length ≤ recvs (e.trace m) := by
  intro v
  induction v with
  | zero => intro k hk h; exact ⟨k, Nat.le_refl _, h⟩
  | succ v ih =>
    intro k hk h
    by_cases hx : ∃ m, k ≤ m ∧ recvs (e.trace k) < recvs (e.trace m)
    · obtain ⟨m, hm, h1⟩ := hx
      obtain ⟨m', hm', h2⟩ := ih m (by omega) (by omega)
      exact ⟨m', by omega, h2⟩
    by_cases hle : (enqOf (e.trace n)).length ≤ recvs (e.trace k)
    · exact ⟨k, Nat.le_refl _, hle⟩
    exfalso
    have hen : ∀ m, k ≤ m → ∃ j, m ≤ j ∧ Enabled (Step cc bc) (fun l => l = .recv) (e.run j) := by
      intro m hm
      have hwm : (e.run m).writer ≠ .none := e.invariant (P := fun s => s.writer ≠ .none) (fun _ _ _ h hs => started_step hs h) hw m (by omega)
      obtain ⟨j, hj, hs⟩ := to_select e h0 hq hf hwm
      refine ⟨j, hj, ?_⟩
      have hrec := recv_steps (exec_steps e h0 j)
      have h1 : recvs (e.trace j) ≤ recvs (e.trace k) := by
        apply Nat.le_of_not_lt
        intro hlt
        exact hx ⟨j, by omega, hlt⟩
      have h2 := (enqs_mono e (n := n) (m := j) (by omega)).length_le
      have h3 := congrArg List.length hrec.items
      rw [List.length_drop] at h3
      cases hc : (e.run j).chan with
      | none =>
        have : (e.run j).items = [] := by simp [State.items, hc]
        rw [this, List.length_nil] at h3; omega
      | some c =>
        have hi : (e.run j).items = c.items := by simp [State.items, hc]
        rw [hi] at h3
        obtain ⟨items, cl⟩ := c
        cases items with
        | nil => simp only [List.length_nil] at h3; omega
        | cons a as => exact ⟨_, _, rfl, .recv _ a as cl hs hc⟩
    obtain ⟨m, l, hm, ha, hl⟩ := hr k hen
    refine hx ⟨m + 1, by omega, ?_⟩
    have h1 := recvs_mono e hm
    show _ < recvs (e.trace m ++ _)
    rw [recvs_append, ha, hl]
    show _ < _ + 1
    omega

include hq in
theorem flush_done (hf : e.WeakFair Inner) {n : Nat} (h : (e.run n).writer = .flushCheck) : ∃ m, n ≤ m ∧ (e.run m).writer = .select ∧ (e.run m).buf = [] := by
  have hnm : ∀ (s : State), s.writer ≠ .none → Make s → (s.chan = none → s.writer = .none) → ∀ i m, s.b i ≠ .make m :=
    fun s h1 h2 h3 i m hm => h1 (h3 (h2.flag i m hm).2)
  have step1 : ∀ s l t, Step cc bc s l t → (∀ i m, s.b i ≠ .make m) → s.closed = false → s.writer = .flushCheck →
      (t.writer = .flushCheck ∧ ¬ Inner l) ∨ t.writer = .flush := by
    intro s l t hs h1 h2 h3
    cases hs <;> simp_all [Inner]
  have step2 : ∀ s l t, Step cc bc s l t → (∀ i m, s.b i ≠ .make m) → s.closed = false → s.err = false → s.writer = .flush →
      (t.writer = .flush ∧ ¬ Inner l) ∨ (t.writer = .select ∧ t.buf = []) ∨ t.broken = true := by
    intro s l t hs h1 h2 h3 h4
    cases hs <;> simp_all [Inner]
  have inv : ∀ n, (e.run n).writer ≠ .none → ∀ i m, (e.run n).b i ≠ .make m := fun n hn =>
    hnm _ hn (make_steps (exec_steps e h0 n)) (fun h => ((stream_steps (exec_steps e h0 n)).nochan h).1)
  -- to `flush`
  have ph1 : ∃ m, n ≤ m ∧ (e.run m).writer = .flush := by
    apply Classical.byContradiction
    intro hno
    have key : ∀ m, n ≤ m → (e.run m).writer = .flushCheck := by
      intro m hm
      induction m with
      | zero =>
        have : n = 0 := by omega
        rw [← this]; exact h
      | succ m ih =>
        by_cases e1 : n = m + 1
        · rw [← e1]; exact h
        · have h1 := ih (by omega)
          have hn := e.next m
          cases ha : e.act m with
          | none => rw [ha] at hn; rw [hn]; exact h1
          | some l =>
            rw [ha] at hn
            rcases step1 _ _ _ hn (inv m (by rw [h1]; nofun)) (hq m).1 h1 with h2 | h2
            · exact h2.1
            · exact absurd ⟨m + 1, hm, h2⟩ hno
    obtain ⟨m, l, hm, ha, hA⟩ := hf n (fun m hm => busy_enabled (by rw [key m hm]; rfl) (exec_quiet e h0 hq m).1 (hq m).1 (hq m).2)
    have hn := e.next m
    rw [ha] at hn
    have h1 := key m hm
    rcases step1 _ _ _ hn (inv m (by rw [h1]; nofun)) (hq m).1 h1 with h2 | h2
    · exact h2.2 hA
    · exact hno ⟨m + 1, by omega, h2⟩
  obtain ⟨k, hk, hfl⟩ := ph1
  suffices hs : ∃ m, k ≤ m ∧ (e.run m).writer = .select ∧ (e.run m).buf = [] by
    obtain ⟨m, hm, h2⟩ := hs
    exact ⟨m, by omega, h2⟩
  apply Classical.byContradiction
  intro hno
  have one : ∀ m, k ≤ m → (e.run m).writer = .flush → ∀ l, e.act m = some l → (e.run (m + 1)).writer = .flush ∧ ¬ Inner l := by
    intro m hm h1 l ha
    have hn := e.next m
    rw [ha] at hn
    rcases step2 _ _ _ hn (inv m (by rw [h1]; nofun)) (hq m).1 (exec_quiet e h0 hq m).1 h1 with h2 | h2 | h2
    · exact h2
    · exact absurd ⟨m + 1, by omega, h2⟩ hno
    · rw [(hq (m + 1)).2] at h2; cases h2
  have key : ∀ m, k ≤ m → (e.run m).writer = .flush := by
    intro m hm
    induction m with
    | zero =>
      have : k = 0 := by omega
      rw [← this]; exact hfl
    | succ m ih =>
      by_cases e1 : k = m + 1
      · rw [← e1]; exact hfl
      · have h1 := ih (by omega)
        cases ha : e.act m with
        | none => have hn := e.next m; rw [ha] at hn; rw [hn]; exact h1
        | some l => exact (one m (by omega) h1 l ha).1
  obtain ⟨m, l, hm, ha, hA⟩ := hf k (fun m hm => busy_enabled (by rw [key m hm]; rfl) (exec_quiet e h0 hq m).1 (hq m).1 (hq m).2)
  exact (one m hm (key m hm) l ha).2 hA

include hq in
/-- Everything queued is written. -/
theorem all_written (hf : e.WeakFair Inner) (hr : e.StrongFair (fun l => l = .recv)) (ht : e.StrongFair (fun l => l = .tick)) {n : Nat} (hw : (e.run n).writer ≠ .none) :
    ∃ m, n ≤ m ∧ (enqOf (e.trace n)).flatten <+: wbytes (e.trace m) := by
  obtain ⟨k, hk, h1⟩ := all_received e h0 hq hf hr hw (enqOf (e.trace n)).length n (Nat.le_refl _) (by omega)
  have hwm : ∀ m, n ≤ m → (e.run m).writer ≠ .none := e.invariant (P := fun s => s.writer ≠ .none) (fun _ _ _ h hs => started_step hs h) hw
  obtain ⟨m, l, hm, ha, hl⟩ := ht k (fun m hm => by
    obtain ⟨j, hj, hs⟩ := to_select e h0 hq hf (hwm m (by omega))
    exact ⟨j, hj, _, _, rfl, .tick _ hs⟩)
  have hfc : (e.run (m + 1)).writer = .flushCheck := by
    have hn := e.next m
    rw [ha, hl] at hn
    exact tick_step hn
  obtain ⟨j, hj, hs, hbuf⟩ := flush_done e h0 hq hf hfc
  refine ⟨j, by omega, ?_⟩
  have hst := (stream_steps (exec_steps e h0 j)).alive (exec_quiet e h0 hq j).2
  have hrec := recv_steps (exec_steps e h0 j)
  rw [hs, hbuf, ← hrec.items] at hst
  have e2 : wbytes (e.trace j) = ((enqOf (e.trace j)).take (recvs (e.trace j))).flatten := by
    have h2 := hst.2
    rw [← List.take_append_drop (recvs (e.trace j)) (enqOf (e.trace j))] at h2
    rw [List.flatten_append] at h2
    simp only [WPc.pend, List.append_nil, List.take_append_drop] at h2
    exact (List.append_cancel_right h2).symm
  rw [e2]
  have hr2 := recvs_mono e (n := k) (m := j) (by omega)
  obtain ⟨rest, h3⟩ := enqs_mono e (n := n) (m := j) (by omega)
  refine ⟨(rest.take (recvs (e.trace j) - (enqOf (e.trace n)).length)).flatten, ?_⟩
  rw [← h3, List.take_append, List.flatten_append, List.take_of_length_le (l := enqOf (e.trace n)) (by omega)]

end

end Zinx.Send
