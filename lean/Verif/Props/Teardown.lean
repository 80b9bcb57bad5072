import Verif.Model.Teardown
import Verif.Lemmas.ExecOf

/-! # C42: stopping a connection with heartbeat on -/

namespace Zinx.Props

open Zinx.Teardown

/-- Everything the teardown is for has happened: the hook ran once, the checker has ended, the socket is closed, and the connection is out of the manager. -/
def tornDown (s : Teardown.State) : Prop := s.hooks = 1 ∧ s.hb = .exited ∧ s.sockClosed = true ∧ s.removed = true

/-- How far the finalizer is. -/
structure TearBase (k : Teardown.Kind) (s : Teardown.State) : Prop where
  start : s.fin = .waiting ∨ s.cancelled = true
  nolock : k = .tcp → s.fin ≠ .lock
  hooks0 : s.fin = .waiting ∨ s.fin = .hook → s.hooks = 0
  hooks1 : s.fin ≠ .waiting → s.fin ≠ .hook → s.hooks = 1
  exited : s.hb = .exited ↔ s.fin = .close ∨ s.fin = .remove ∨ s.fin = .finish ∨ s.fin = .done
  sock : s.fin = .remove ∨ s.fin = .finish ∨ s.fin = .done → s.sockClosed = true
  rem : s.fin = .finish ∨ s.fin = .done → s.removed = true
  flag : k = .ws → s.flag = true → s.fin = .done
  tcp : k = .tcp → s.hb ≠ .rlock
  mine : s.lock = some .hb → k = .ws ∧ s.hb = .writing
  own : s.lock = some .fin → k ≠ .tcp ∧ (s.fin = .quit ∨ s.fin = .close ∨ s.fin = .remove ∨ s.fin = .finish)
  rd : 0 < s.readers → k = .kcp
  oth : s.lock = some .other → k = .ws

/-- Who has the lock, and when the closed flag of a KCP connection is set. -/
structure TearInv (k : Teardown.Kind) (s : Teardown.State) : Prop extends TearBase k s where
  held : k ≠ .tcp → s.fin = .quit → s.lock = some .fin
  wsw : k = .ws → s.hb = .writing → s.lock = some .hb
  rl : s.hb = .rlock → k = .kcp
  marked : k = .kcp → (s.flag = true ↔ s.fin ≠ .waiting)

theorem tearBase_step {k : Teardown.Kind} {stuck : Bool} : ∀ s l t, TearBase k s → Teardown.Step k stuck s l t → TearBase k t := by
  intro s l t hi hs
  obtain ⟨i1, i2, i3, i4, i5, i6, i7, i8, i9, i10, i11, i12, i13⟩ := hi
  cases hs <;> (constructor <;> (intros; simp at * <;> grind))

theorem tearInv_step {k : Teardown.Kind} {stuck : Bool} : ∀ s l t, TearInv k s → Teardown.Step k stuck s l t → TearInv k t := by
  intro s l t hi hs
  refine ⟨tearBase_step s l t hi.1 hs, ?_, ?_, ?_, ?_⟩
  all_goals
    obtain ⟨⟨_, i2, _, _, i5, _, _, i8, _, i10, i11, _, i13⟩, i14, i15, i16, i17⟩ := hi
    cases hs <;> (intros; simp [Teardown.State.free] at * <;> grind)

theorem tearInv_init (k : Teardown.Kind) : TearInv k {} := ⟨by constructor <;> simp, by simp, by simp, by simp, by simp⟩

section
variable {k : Teardown.Kind} {e : Exec (Teardown.Step k false)} {e' : Exec (Teardown.Step .ws false)} {e'' : Exec (Teardown.Step .kcp false)}

/-- The finalizer has the lock and waits for the checker, and the checker waits for the lock. -/
def lockedOut (k : Teardown.Kind) (s : Teardown.State) : Prop := s.fin = .quit ∧ (k = .ws ∧ s.hb = .send ∨ k = .kcp ∧ s.hb = .rlock)

/-- A write of the checker returns. -/
theorem write_returns (hf : e.WeakFair (· = .hb)) (n : Nat) (h : (e.run n).hb = .writing) : ∃ m, n ≤ m ∧ (e.run m).hb = .select := by
  refine e.leads_weak hf (P := fun s => s.hb = .writing) (Q := fun s => s.hb = .select) ?_ ?_ ?_ h
  · intro s l t hp hs
    cases hs <;> simp_all
  · intro s l t hp hs hl
    cases hs <;> simp_all
  · intro s hp
    exact ⟨_, _, rfl, .written s hp (.inl rfl)⟩

/-- While the finalizer waits for it, the checker comes back to its `select` (or has ended), unless it waits for the lock. -/
theorem hb_returns (hinv : ∀ n, TearInv k (e.run n)) (hf : e.WeakFair (· = .hb)) (n : Nat) (hq : ∀ m, n ≤ m → (e.run m).fin = .quit ∧ ¬ lockedOut k (e.run m)) :
    ∃ m, n ≤ m ∧ ((e.run m).hb = .select ∨ (e.run m).hb = .exited) := by
  have hu : ∀ m, (e.run m).hb = .user → ∃ m', m ≤ m' ∧ ((e.run m').hb = .select ∨ (e.run m').hb = .exited) := by
    intro n h
    refine e.leads_weak hf (P := fun s => s.hb = .user) (Q := fun s => s.hb = .select ∨ s.hb = .exited) ?_ ?_ ?_ h
    · intro s l t hp hs
      cases hs <;> simp_all
    · intro s l t hp hs hl
      cases hs <;> simp_all
    · intro s hp
      exact ⟨_, _, rfl, .userDone s hp⟩
  have hw : ∀ m, (e.run m).hb = .writing → ∃ m', m ≤ m' ∧ ((e.run m').hb = .select ∨ (e.run m').hb = .exited) := by
    intro m h
    obtain ⟨m', hm', h1⟩ := write_returns hf m h
    exact ⟨m', hm', .inl h1⟩
  have hs : ∀ m, n ≤ m → (e.run m).hb = .send → ∃ m', m ≤ m' ∧ ((e.run m').hb = .select ∨ (e.run m').hb = .exited) := by
    intro m hm h
    obtain ⟨hfq, hlo⟩ := hq m hm
    have hws : k ≠ .ws := fun hk => hlo ⟨hfq, .inl ⟨hk, h⟩⟩
    obtain ⟨m', hm', h2⟩ := e.leads_weak hf (P := fun s => s.hb = .send ∧ TearInv k s ∧ s.fin ≠ .waiting) (Q := fun s => s.hb = .select ∨ s.hb = .writing) (by
      intro s l t hp hs
      have ht := tearInv_step s l t hp.2.1 hs
      have hmk := hp.2.1.marked
      cases hs <;> simp_all <;> grind) (by
      intro s l t hp hs hl
      have hmk := hp.2.1.marked
      cases hs <;> simp_all) (by
      intro s hp
      cases hk : k with
      | ws => exact absurd hk hws
      | kcp => exact ⟨_, _, rfl, .sendClosedKcp s rfl hp.1 ((hp.2.1.marked hk).mpr hp.2.2)⟩
      | tcp =>
        cases hc : s.cancelled with
        | true => exact ⟨_, _, rfl, .sendClosed s rfl hp.1 hc⟩
        | false => exact ⟨_, _, rfl, .sendOpen s rfl hp.1 hc⟩) ⟨h, hinv m, by rw [hfq]; nofun⟩
    rcases h2 with h2 | h2
    · exact ⟨m', hm', .inl h2⟩
    · obtain ⟨m2, hm2, h3⟩ := hw m' h2
      exact ⟨m2, by omega, h3⟩
  have hc : ∀ m, n ≤ m → (e.run m).hb = .checking → ∃ m', m ≤ m' ∧ ((e.run m').hb = .select ∨ (e.run m').hb = .exited) := by
    intro m hm h
    obtain ⟨m', hm', h2⟩ := e.leads_weak hf (P := fun s => s.hb = .checking) (Q := fun s => s.hb = .user ∨ s.hb = .send) (by
      intro s l t hp hs
      cases hs <;> simp_all) (by
      intro s l t hp hs hl
      cases hs <;> simp_all) (by
      intro s hp
      exact ⟨_, _, rfl, .beat s hp⟩) h
    rcases h2 with h2 | h2
    · obtain ⟨m2, hm2, h3⟩ := hu m' h2
      exact ⟨m2, by omega, h3⟩
    · obtain ⟨m2, hm2, h3⟩ := hs m' (by omega) h2
      exact ⟨m2, by omega, h3⟩
  cases h : (e.run n).hb with
  | select => exact ⟨n, Nat.le_refl _, .inl h⟩
  | exited => exact ⟨n, Nat.le_refl _, .inr h⟩
  | user => exact hu n h
  | writing => exact hw n h
  | send => exact hs n (Nat.le_refl _) h
  | checking => exact hc n (Nat.le_refl _) h
  | rlock =>
    obtain ⟨hfq, hlo⟩ := hq n (Nat.le_refl _)
    exact absurd ⟨hfq, .inr ⟨(hinv n).rl h, h⟩⟩ hlo

theorem cancelled_step {s t : Teardown.State} {l : Teardown.Label} (hs : Teardown.Step k false s l t) (h : s.cancelled = true) : t.cancelled = true := by
  cases hs <;> first | exact h | rfl

/-- One phase of the finalizer leads to the next. -/
theorem fin_rule (hfin : e.WeakFair (· = .fin)) {p q : FinPc}
    (hen : ∀ s : Teardown.State, s.fin = p → s.cancelled = true → Enabled (Teardown.Step k false) (· = .fin) s)
    (hst : ∀ s l t, s.fin = p → Teardown.Step k false s l t → t.fin = p ∧ l ≠ .fin ∨ t.fin = q) {m : Nat} (hc : (e.run m).cancelled = true)
    (h : (e.run m).fin = p) : ∃ m', m ≤ m' ∧ (e.run m').fin = q :=
  e.leads_weak hfin (P := fun s => s.fin = p ∧ s.cancelled = true) (Q := fun s => s.fin = q)
    (by
      intro s l t hp hs
      rcases hst s l t hp.1 hs with h1 | h1
      · exact .inl ⟨h1.1, cancelled_step hs hp.2⟩
      · exact .inr h1)
    (by
      intro s l t hp hs hl
      rcases hst s l t hp.1 hs with h1 | h1
      · exact absurd hl h1.2
      · exact h1)
    (fun s hp => hen s hp.1 hp.2) ⟨h, hc⟩

theorem fin_finish (s : Teardown.State) (l : Teardown.Label) (t : Teardown.State) (hp : s.fin = .finish) (hs : Teardown.Step k false s l t) :
    t.fin = .finish ∧ l ≠ .fin ∨ t.fin = .done := by cases hs <;> simp_all
theorem fin_remove (s : Teardown.State) (l : Teardown.Label) (t : Teardown.State) (hp : s.fin = .remove) (hs : Teardown.Step k false s l t) :
    t.fin = .remove ∧ l ≠ .fin ∨ t.fin = .finish := by cases hs <;> simp_all
theorem fin_close (s : Teardown.State) (l : Teardown.Label) (t : Teardown.State) (hp : s.fin = .close) (hs : Teardown.Step k false s l t) :
    t.fin = .close ∧ l ≠ .fin ∨ t.fin = .remove := by cases hs <;> simp_all
theorem fin_quit (s : Teardown.State) (l : Teardown.Label) (t : Teardown.State) (hp : s.fin = .quit) (hs : Teardown.Step k false s l t) :
    t.fin = .quit ∧ l ≠ .quit ∨ t.fin = .close := by cases hs <;> simp_all
theorem fin_hook (s : Teardown.State) (l : Teardown.Label) (t : Teardown.State) (hp : s.fin = .hook) (hs : Teardown.Step k false s l t) :
    t.fin = .hook ∧ l ≠ .fin ∨ t.fin = (if k = .tcp then .quit else .lock) := by cases hs <;> simp_all
theorem fin_waiting (s : Teardown.State) (l : Teardown.Label) (t : Teardown.State) (hp : s.fin = .waiting) (hs : Teardown.Step k false s l t) :
    t.fin = .waiting ∧ l ≠ .fin ∨ t.fin = .hook := by cases hs <;> simp_all

/-- At the lock the finalizer stays or gets it. -/
theorem fin_lock_step {s : Teardown.State} {l : Teardown.Label} {t : Teardown.State} (hp : s.fin = .lock) (hi : TearInv k s) (hs : Teardown.Step k false s l t) :
    t.fin = .lock ∧ l ≠ .fin ∨ t.fin = .quit := by
  have hf := hi.flag
  cases hs <;> simp_all

/-- While the finalizer waits for the lock of a WebSocket connection, it becomes free again and again. -/
theorem free_ws (hinv : ∀ n, TearInv .ws (e'.run n)) (hhb : e'.WeakFair (· = .hb)) (ho : e'.WeakFair (· = .otherDone)) (n : Nat)
    (hn : ∀ m, n ≤ m → (e'.run m).fin = .lock) : ∃ m, n ≤ m ∧ (e'.run m).free .ws := by
  have h0 : ∀ m, (e'.run m).readers = 0 := by
    intro m
    have := (hinv m).rd
    simp at this
    exact this
  suffices ∃ m, n ≤ m ∧ (e'.run m).lock = none by
    obtain ⟨m, hm, h⟩ := this
    exact ⟨m, hm, h, h0 m, nofun⟩
  cases hlock : (e'.run n).lock with
  | none => exact ⟨n, Nat.le_refl _, hlock⟩
  | some o =>
    cases o with
    | fin => have := ((hinv n).own hlock).2; rw [hn n (Nat.le_refl _)] at this; simp at this
    | hb =>
      obtain ⟨m, hm, h⟩ := e'.leads_weak hhb (P := fun s => s.lock = some .hb ∧ TearInv .ws s) (Q := fun s => s.lock = none) (by
        intro s l t hp hs
        have ht := tearInv_step s l t hp.2 hs
        obtain ⟨h1, h2⟩ := hp
        obtain ⟨⟨_, i2, _, _, _, _, _, i8, _, i10, i11, i12, i13⟩, _, _, _, _⟩ := h2
        cases hs <;> simp [h1, Teardown.State.free] at * <;> grind) (by
        intro s l t hp hs hl
        obtain ⟨h1, h2⟩ := hp
        obtain ⟨⟨_, i2, _, _, _, _, _, i8, _, i10, i11, i12, i13⟩, _, _, i16, _⟩ := h2
        cases hs <;> simp [h1] at * <;> grind) (by
        intro s hp
        exact ⟨_, _, rfl, .written s (hp.2.mine hp.1).2 (.inl rfl)⟩) ⟨hlock, hinv n⟩
      exact ⟨m, hm, h⟩
    | other =>
      obtain ⟨m, hm, h⟩ := e'.leads_weak ho (P := fun s => s.lock = some .other ∧ TearInv .ws s) (Q := fun s => s.lock = none) (by
        intro s l t hp hs
        have ht := tearInv_step s l t hp.2 hs
        obtain ⟨h1, h2⟩ := hp
        obtain ⟨⟨_, i2, _, _, _, _, _, i8, _, i10, i11, i12, i13⟩, _, i15, _, _⟩ := h2
        cases hs <;> simp [ht, h1, Teardown.State.free] at * <;> grind) (by
        intro s l t hp hs hl
        obtain ⟨h1, h2⟩ := hp
        obtain ⟨⟨_, i2, _, _, _, _, _, i8, _, i10, i11, i12, i13⟩, _, _, _, _⟩ := h2
        cases hs <;> simp [h1] at * <;> grind) (by
        intro s hp
        exact ⟨_, _, rfl, .otherUnlock s rfl hp.1 (.inl rfl)⟩) ⟨hlock, hinv n⟩
      exact ⟨m, hm, h⟩

/-- While the finalizer waits for the lock of a KCP connection, the readers leave and none comes. -/
theorem free_kcp (hinv : ∀ n, TearInv .kcp (e''.run n)) (hhb : e''.WeakFair (· = .hb)) (ho : e''.WeakFair (· = .otherDone)) (n : Nat)
    (hn : ∀ m, n ≤ m → (e''.run m).fin = .lock) : ∃ m, n ≤ m ∧ (e''.run m).free .kcp := by
  have hl : ∀ m, n ≤ m → (e''.run m).lock = none := by
    intro m hm
    cases hlock : (e''.run m).lock with
    | none => rfl
    | some o =>
      cases o with
      | fin => have := ((hinv m).own hlock).2; rw [hn m hm] at this; simp at this
      | hb => have := ((hinv m).mine hlock).1; cases this
      | other => have := (hinv m).oth hlock; cases this
  obtain ⟨m, hm, h1⟩ : ∃ m, n ≤ m ∧ ((e''.run m).readers = 0 ∨ (e''.run m).fin ≠ .lock) := by
    by_cases h0 : (e''.run n).readers = 0
    · exact ⟨n, Nat.le_refl _, .inl h0⟩
    · refine e''.leads_weak_dec ho (P := fun s => s.fin = .lock ∧ 0 < s.readers) (Q := fun s => s.readers = 0 ∨ s.fin ≠ .lock) (fun s => s.readers) ?_ ?_ ?_ ⟨hn n (Nat.le_refl _), by omega⟩
      · intro s l t hp hs
        obtain ⟨h1, h2⟩ := hp
        cases hs <;> simp [h1] at * <;> grind
      · intro s l t hp hs hl
        obtain ⟨h1, h2⟩ := hp
        cases hs <;> simp [h1] at * <;> grind
      · intro s hp
        exact ⟨_, _, rfl, .otherRUnlock s hp.2 (.inl rfl)⟩
  have h1 := h1.resolve_right (fun h => h (hn m hm))
  by_cases hw : (e''.run m).hb = .writing
  · obtain ⟨m', hm', h2⟩ := e''.leads_weak hhb (P := fun s => s.hb = .writing ∧ s.readers = 0 ∧ s.fin = .lock) (Q := fun s => s.hb ≠ .writing ∧ s.readers = 0 ∨ s.fin ≠ .lock) (by
      intro s l t hp hs
      obtain ⟨h1, h2, h3⟩ := hp
      cases hs <;> simp_all) (by
      intro s l t hp hs hl
      obtain ⟨h1, h2, h3⟩ := hp
      cases hs <;> simp_all) (by
      intro s hp
      exact ⟨_, _, rfl, .written s hp.1 (.inl rfl)⟩) ⟨hw, h1, hn m hm⟩
    have h2 := h2.resolve_right (fun h => h (hn m' (by omega)))
    exact ⟨m', by omega, hl m' (by omega), h2.2, fun _ => h2.1⟩
  · exact ⟨m, hm, hl m hm, h1, fun _ => hw⟩

/-- The finalizer gets the lock. -/
theorem fin_lock (hinv : ∀ n, TearInv k (e.run n)) (hhb : e.WeakFair (· = .hb)) (hfin : e.StrongFair (· = .fin)) (ho : e.WeakFair (· = .otherDone)) {m : Nat}
    (h : (e.run m).fin = .lock) : ∃ m', m ≤ m' ∧ (e.run m').fin = .quit := by
  refine e.leads_strong hfin (P := fun s => s.fin = .lock ∧ TearInv k s) (Q := fun s => s.fin = .quit) ?_ ?_ ?_ ⟨h, hinv m⟩
  · intro s l t hp hs
    exact (fin_lock_step hp.1 hp.2 hs).imp (fun h => ⟨h.1, tearInv_step s l t hp.2 hs⟩) id
  · intro s l t hp hs hl
    exact (fin_lock_step hp.1 hp.2 hs).resolve_left (fun h => h.2 hl)
  · intro n hn
    have free : ∃ m', n ≤ m' ∧ (e.run m').free k := by
      cases k with
      | tcp => exact absurd (hn n (Nat.le_refl _)).1 ((hinv n).nolock rfl)
      | ws => exact free_ws hinv hhb ho n (fun m hm => (hn m hm).1)
      | kcp => exact free_kcp hinv hhb ho n (fun m hm => (hn m hm).1)
    obtain ⟨m', hm', hfree⟩ := free
    refine ⟨m', hm', ?_⟩
    have hl := (hn m' hm').1
    by_cases hw : k = .kcp ∨ (e.run m').flag = false
    · exact ⟨_, _, rfl, .finLock _ hl hfree hw⟩
    · have hf := (hinv m').flag
      have hn := (hinv m').nolock
      cases k <;> simp_all

/-- Nothing gets them out of it. -/
theorem lockedOut_step {s t : Teardown.State} {l : Teardown.Label} (hi : TearInv k s) (h : lockedOut k s) (hs : Teardown.Step k false s l t) : lockedOut k t := by
  obtain ⟨h1, h2⟩ := h
  have h3 := hi.held
  unfold lockedOut
  cases hs <;> simp_all

end

/-- After a stop, if writes return, every fair execution completes the teardown exactly if it does not come to a point where the finalizer, holding the lock of a WebSocket or KCP
connection, waits for the checker, which waits for the lock to send a heartbeat. Fairness: the finalizer, the checker and other senders are scheduled, the `select` of the checker does not
ignore the quit channel for ever, and the finalizer does not lose the race for the lock for ever. -/
theorem C42_partial {k : Teardown.Kind} (e : Exec (Teardown.Step k false)) (h0 : e.run 0 = {}) (hfin : e.WeakFair (· = .fin)) (hhb : e.WeakFair (· = .hb))
    (hquit : e.StrongFair (· = .quit)) (hk : k = .tcp ∨ e.StrongFair (· = .fin) ∧ e.WeakFair (· = .otherDone))
    (n : Nat) (hstop : (e.run n).cancelled = true) : (∃ m, n ≤ m ∧ tornDown (e.run m)) ↔ ∀ m, ¬ lockedOut k (e.run m) := by
  have hinv : ∀ m, TearInv k (e.run m) := fun m => e.invariant tearInv_step (n := 0) (by rw [h0]; exact tearInv_init k) m (Nat.zero_le _)
  constructor
  · rintro ⟨m, _, ht⟩ j hj
    by_cases hjm : j ≤ m
    · have hm := e.invariant (P := fun s => TearInv k s ∧ lockedOut k s) (fun s l t hp hs => ⟨tearInv_step s l t hp.1 hs, lockedOut_step hp.1 hp.2 hs⟩) (n := j) ⟨hinv j, hj⟩ m hjm
      have h1 := (hinv m).exited.mp ht.2.1
      rw [hm.2.1] at h1
      simp at h1
    · have hm := e.invariant (P := fun s => TearInv k s ∧ s.hb = .exited) (fun s l t hp hs => ⟨tearInv_step s l t hp.1 hs, by
        have hx := hp.1.exited.mp hp.2
        have hh := hp.2
        cases hs <;> simp_all⟩) (n := m) ⟨hinv m, ht.2.1⟩ j (by omega)
      rcases hj.2 with h | h <;> (have h1 := h.2; rw [hm.2] at h1; cases h1)
  intro hlo
  have hcan : ∀ m, n ≤ m → (e.run m).cancelled = true :=
    e.invariant (P := fun s => s.cancelled = true) (fun s l t hp hs => cancelled_step hs hp) hstop
  have pd : ∀ m, n ≤ m → (e.run m).fin = .done → ∃ m', m ≤ m' ∧ tornDown (e.run m') := by
    intro m hm h
    have hi := hinv m
    exact ⟨m, Nat.le_refl _, hi.hooks1 (by rw [h]; nofun) (by rw [h]; nofun), hi.exited.mpr (.inr (.inr (.inr h))), hi.sock (.inr (.inr h)), hi.rem (.inr h)⟩
  have chain : ∀ {p q : FinPc}, (∀ m, n ≤ m → (e.run m).fin = p → ∃ m', m ≤ m' ∧ (e.run m').fin = q) →
      (∀ m, n ≤ m → (e.run m).fin = q → ∃ m', m ≤ m' ∧ tornDown (e.run m')) →
      ∀ m, n ≤ m → (e.run m).fin = p → ∃ m', m ≤ m' ∧ tornDown (e.run m') := by
    intro p q h1 h2 m hm h
    obtain ⟨m1, hm1, h3⟩ := h1 m hm h
    obtain ⟨m2, hm2, h4⟩ := h2 m1 (by omega) h3
    exact ⟨m2, by omega, h4⟩
  have p6 := chain (fun m hm h => fin_rule hfin (fun s h _ => ⟨_, _, rfl, .finish s h⟩) fin_finish (hcan m hm) h) pd
  have p5 := chain (fun m hm h => fin_rule hfin (fun s h _ => ⟨_, _, rfl, .remove s h⟩) fin_remove (hcan m hm) h) p6
  have p4 := chain (fun m hm h => fin_rule hfin (fun s h _ => ⟨_, _, rfl, .close s h⟩) fin_close (hcan m hm) h) p5
  have p3 := chain (p := .quit) (q := .close) (by
    intro m hm h
    refine e.leads_strong hquit (P := fun s => s.fin = .quit) (Q := fun s => s.fin = .close) ?_ ?_ ?_ h
    · intro s l t hp hs
      rcases fin_quit s l t hp hs with h1 | h1
      · exact .inl h1.1
      · exact .inr h1
    · intro s l t hp hs hl
      rcases fin_quit s l t hp hs with h1 | h1
      · exact absurd hl h1.2
      · exact h1
    · intro k hk
      obtain ⟨k', hk', h2⟩ := hb_returns hinv hhb k (fun m hm => ⟨hk m hm, hlo m⟩)
      refine ⟨k', hk', ?_⟩
      have hq := hk k' hk'
      rcases h2 with h2 | h2
      · exact ⟨_, _, rfl, .quit _ hq h2⟩
      · have := (hinv k').exited.mp h2
        rw [hq] at this
        rcases this with h | h | h | h <;> cases h) p4
  have p2' := chain (p := .lock) (q := .quit) (by
    intro m hm h
    have ht : k ≠ .tcp := fun ht => (hinv m).nolock ht h
    exact fin_lock hinv hhb (hk.resolve_left ht).1 (hk.resolve_left ht).2 h) p3
  have p2 := chain (p := .hook) (q := if k = .tcp then .quit else .lock)
    (fun m hm h => fin_rule hfin (fun s h _ => ⟨_, _, rfl, .hookDone s h⟩) fin_hook (hcan m hm) h) (by
    intro m hm h
    by_cases ht : k = .tcp
    · rw [if_pos ht] at h; exact p3 m hm h
    · rw [if_neg ht] at h; exact p2' m hm h)
  have p1 := chain (fun m hm h => fin_rule hfin (fun s h hc => ⟨_, _, rfl, .finStart s h hc⟩) fin_waiting (hcan m hm) h) p2
  cases h : (e.run n).fin with
  | waiting => exact p1 n (Nat.le_refl _) h
  | hook => exact p2 n (Nat.le_refl _) h
  | lock => exact p2' n (Nat.le_refl _) h
  | quit => exact p3 n (Nat.le_refl _) h
  | close => exact p4 n (Nat.le_refl _) h
  | remove => exact p5 n (Nat.le_refl _) h
  | finish => exact p6 n (Nat.le_refl _) h
  | done => exact pd n (Nat.le_refl _) h

/-- So with TCP it always completes. -/
theorem C42_tcp_partial (e : Exec (Teardown.Step .tcp false)) (h0 : e.run 0 = {}) (hfin : e.WeakFair (· = .fin)) (hhb : e.WeakFair (· = .hb)) (hquit : e.StrongFair (· = .quit))
    (n : Nat) (hstop : (e.run n).cancelled = true) : ∃ m, n ≤ m ∧ tornDown (e.run m) :=
  (C42_partial e h0 hfin hhb hquit (.inl rfl) n hstop).mpr (by rintro m ⟨_, h | h⟩ <;> cases h.1)

/-- With KCP it does if the checker is not between its two tests of the closed flag when the finalizer begins. -/
theorem C42_kcp_partial (e : Exec (Teardown.Step .kcp false)) (h0 : e.run 0 = {}) (hfin : e.WeakFair (· = .fin)) (hhb : e.WeakFair (· = .hb)) (hquit : e.StrongFair (· = .quit))
    (hlock : e.StrongFair (· = .fin)) (ho : e.WeakFair (· = .otherDone)) (n : Nat) (hstop : (e.run n).cancelled = true)
    (hb : ∀ m, (e.run m).fin = .waiting → (e.run (m + 1)).fin ≠ .waiting → (e.run m).hb ≠ .rlock) : ∃ m, n ≤ m ∧ tornDown (e.run m) := by
  refine (C42_partial e h0 hfin hhb hquit (.inr ⟨hlock, ho⟩) n hstop).mpr ?_
  have hinv : ∀ m, TearInv .kcp (e.run m) := fun m => e.invariant tearInv_step (n := 0) (by rw [h0]; exact tearInv_init _) m (Nat.zero_le _)
  have hno : ∀ m, (e.run m).fin ≠ .waiting → (e.run m).hb ≠ .rlock := by
    intro m
    induction m with
    | zero => rw [h0]; simp
    | succ m ih =>
      have hn := e.next m
      have hbm := hb m
      have hi := (hinv m).marked rfl
      cases ha : e.act m with
      | none => rw [ha] at hn; rw [hn]; exact ih
      | some l =>
        rw [ha] at hn
        revert hn hbm
        generalize e.run (m + 1) = t
        intro hbm hn
        cases hn <;> simp_all
  rintro m ⟨hq, h | h⟩
  · cases h.1
  · exact hno m (by rw [hq]; nofun) h.2

/-- Until a stop no heartbeat is left out: a checker that has made one goes on to write it. -/
theorem C42_beats {k : Teardown.Kind} {stuck : Bool} {ls : List Teardown.Label} {s t : Teardown.State} (h : Steps (Teardown.Step k stuck) {} ls s) (hc : Label.stop ∉ ls)
    (hs : Teardown.Step k stuck s .hb t) (hb : s.hb = .send ∨ s.hb = .rlock) : t.hb = .rlock ∨ t.hb = .writing := by
  have hi := h.invariant (P := TearInv k) tearInv_step (tearInv_init k)
  have hn : s.cancelled = true → Label.stop ∈ ls := by
    refine Steps.invariant_trace (P := fun ls s => s.cancelled = true → Label.stop ∈ ls) ?_ h (by simp)
    intro ls s l t hi hs
    cases hs <;> simp_all
  have h1 := hi.start
  have h2 := hi.flag
  have h3 := hi.marked
  have h4 := hi.rl
  cases hs <;> simp_all

/-- Not true for WebSocket: there is a reachable state, after a stop and with writes returning, from which the teardown can never complete: the finalizer holds the lock and
waits for the checker, which waits for the lock. -/
theorem C42_ws_refuted : ∃ s, Reaches (Teardown.Step .ws false) {} s ∧ s.cancelled = true ∧
    ∀ t, Reaches (Teardown.Step .ws false) s t → ¬ tornDown t ∧ t.sockClosed = false ∧ t.removed = false := by
  refine ⟨{ cancelled := true, fin := .quit, hb := .send, lock := some .fin, hooks := 1 }, ⟨[.tick, .hb, .stop, .fin, .fin, .fin],
    .cons (.tick _ rfl) (.cons (.beat _ rfl) (.cons (.stop _) (.cons (.finStart _ rfl rfl) (.cons (.hookDone _ rfl) (.cons (.finLock _ rfl ⟨rfl, rfl, nofun⟩ (.inr rfl)) (.nil _))))))⟩, rfl, ?_⟩
  rintro t ⟨ls, h⟩
  have : t.fin = .quit ∧ t.hb = .send ∧ t.lock = some .fin ∧ t.sockClosed = false ∧ t.removed = false := by
    refine h.invariant (P := fun t => t.fin = .quit ∧ t.hb = .send ∧ t.lock = some .fin ∧ t.sockClosed = false ∧ t.removed = false) ?_ ⟨rfl, rfl, rfl, rfl, rfl⟩
    intro s l t hp hs
    obtain ⟨h1, h2, h3, h4, h5⟩ := hp
    cases hs <;> simp_all
  refine ⟨?_, this.2.2.2.1, this.2.2.2.2⟩
  intro ht
  have h1 := ht.2.1
  rw [this.2.1] at h1
  cases h1

/-- Nor for KCP, although a heartbeat is not begun on a closed connection: the checker may have passed that check just before. -/
theorem C42_kcp_refuted : ∃ s, Reaches (Teardown.Step .kcp false) {} s ∧ s.cancelled = true ∧
    ∀ t, Reaches (Teardown.Step .kcp false) s t → ¬ tornDown t ∧ t.sockClosed = false ∧ t.removed = false := by
  refine ⟨{ cancelled := true, flag := true, fin := .quit, hb := .rlock, lock := some .fin, hooks := 1 }, ⟨[.tick, .hb, .hb, .stop, .fin, .fin, .fin],
    .cons (.tick _ rfl) (.cons (.beat _ rfl) (.cons (.sendOpenKcp _ rfl rfl rfl) (.cons (.stop _) (.cons (.finStart _ rfl rfl) (.cons (.hookDone _ rfl)
      (.cons (.finLock _ rfl ⟨rfl, rfl, nofun⟩ (.inl rfl)) (.nil _)))))))⟩, rfl, ?_⟩
  rintro t ⟨ls, h⟩
  have : t.fin = .quit ∧ t.hb = .rlock ∧ t.lock = some .fin ∧ t.sockClosed = false ∧ t.removed = false := by
    refine h.invariant (P := fun t => t.fin = .quit ∧ t.hb = .rlock ∧ t.lock = some .fin ∧ t.sockClosed = false ∧ t.removed = false) ?_ ⟨rfl, rfl, rfl, rfl, rfl⟩
    intro s l t hp hs
    obtain ⟨h1, h2, h3, h4, h5⟩ := hp
    cases hs <;> simp_all
  refine ⟨?_, this.2.2.2.1, this.2.2.2.2⟩
  intro ht
  have h1 := ht.2.1
  rw [this.2.1] at h1
  cases h1

/-- Nor for TCP, if the peer does not read: a checker that is writing a heartbeat waits for the peer or for the socket to be closed, and the finalizer waits for the checker before
it closes the socket. -/
theorem C42_tcp_stuck_refuted : ∃ s, Reaches (Teardown.Step .tcp true) {} s ∧ s.cancelled = true ∧
    ∀ t, Reaches (Teardown.Step .tcp true) s t → ¬ tornDown t ∧ t.sockClosed = false ∧ t.removed = false := by
  refine ⟨{ cancelled := true, fin := .quit, hb := .writing, hooks := 1 }, ⟨[.tick, .hb, .hb, .stop, .fin, .fin],
    .cons (.tick _ rfl) (.cons (.beat _ rfl) (.cons (.sendOpen _ rfl rfl rfl) (.cons (.stop _) (.cons (.finStart _ rfl rfl) (.cons (.hookDone _ rfl) (.nil _))))))⟩, rfl, ?_⟩
  rintro t ⟨ls, h⟩
  have : t.fin = .quit ∧ t.hb = .writing ∧ t.sockClosed = false ∧ t.removed = false := by
    refine h.invariant (P := fun t => t.fin = .quit ∧ t.hb = .writing ∧ t.sockClosed = false ∧ t.removed = false) ?_ ⟨rfl, rfl, rfl, rfl⟩
    intro s l t hp hs
    obtain ⟨h1, h2, h3, h4⟩ := hp
    cases hs <;> simp_all
  refine ⟨?_, this.2.2.1, this.2.2.2⟩
  intro ht
  have h1 := ht.2.1
  rw [this.2.1] at h1
  cases h1

/-- A fair execution: a heartbeat is under way when the connection is stopped. -/
def tearExample : Exec (Teardown.Step .tcp false) where
  run
    | 0 => {}
    | 1 => { hb := .checking }
    | 2 => { hb := .send }
    | 3 => { hb := .writing }
    | 4 => { hb := .writing, cancelled := true }
    | 5 => { hb := .writing, cancelled := true, fin := .hook }
    | 6 => { hb := .writing, cancelled := true, fin := .quit, hooks := 1 }
    | 7 => { hb := .select, cancelled := true, fin := .quit, hooks := 1 }
    | 8 => { hb := .exited, cancelled := true, fin := .close, hooks := 1 }
    | 9 => { hb := .exited, cancelled := true, fin := .remove, hooks := 1, sockClosed := true }
    | 10 => { hb := .exited, cancelled := true, fin := .finish, hooks := 1, sockClosed := true, removed := true }
    | _ => { hb := .exited, cancelled := true, fin := .done, hooks := 1, sockClosed := true, removed := true }
  act
    | 0 => some .tick
    | 1 => some .hb
    | 2 => some .hb
    | 3 => some .stop
    | 4 => some .fin
    | 5 => some .fin
    | 6 => some .hb
    | 7 => some .quit
    | 8 => some .fin
    | 9 => some .fin
    | 10 => some .fin
    | _ => none
  next
    | 0 => .tick _ rfl
    | 1 => .beat _ rfl
    | 2 => .sendOpen _ rfl rfl rfl
    | 3 => .stop _
    | 4 => .finStart _ rfl rfl
    | 5 => .hookDone _ rfl
    | 6 => .written _ rfl (.inl rfl)
    | 7 => .quit _ rfl rfl
    | 8 => .close _ rfl
    | 9 => .remove _ rfl
    | 10 => .finish _ rfl
    | _ + 11 => rfl

/-- After its end only `stop` is possible, so it meets the fairness conditions. -/
theorem tearExample_end (n : Nat) (A : Teardown.Label → Prop) (hA : ¬ A .stop) : ¬ Enabled (Teardown.Step .tcp false) A (tearExample.run (n + 11)) := by
  rintro ⟨l, t, hl, hs⟩
  have hr : tearExample.run (n + 11) = { hb := .exited, cancelled := true, fin := .done, hooks := 1, sockClosed := true, removed := true } := rfl
  rw [hr] at hs
  cases hs <;> first | exact hA hl | simp_all

example : tearExample.run 0 = {} ∧ tearExample.WeakFair (· = .fin) ∧ tearExample.WeakFair (· = .hb) ∧ tearExample.StrongFair (· = .quit) ∧
    (tearExample.run 4).cancelled = true := by
  refine ⟨rfl, ?_, ?_, ?_, rfl⟩
  · intro n h
    exact absurd (h (n + 11) (by omega)) (tearExample_end n _ nofun)
  · intro n h
    exact absurd (h (n + 11) (by omega)) (tearExample_end n _ nofun)
  · intro n h
    obtain ⟨k, hk, h2⟩ := h (n + 11) (by omega)
    obtain ⟨j, rfl⟩ : ∃ j, k = j + 11 := ⟨k - 11, by omega⟩
    exact absurd h2 (tearExample_end j _ nofun)

/-- And one of a KCP connection with a send of another goroutine and a heartbeat under way when it is stopped. -/
example : ∃ e : Exec (Teardown.Step .kcp false), e.run 0 = {} ∧ e.WeakFair (· = .fin) ∧ e.WeakFair (· = .hb) ∧ e.StrongFair (· = .quit) ∧ e.StrongFair (· = .fin) ∧
    e.WeakFair (· = .otherDone) ∧ (∃ n, (e.run n).cancelled = true) ∧ ∀ m, (e.run m).fin = .waiting → (e.run (m + 1)).fin ≠ .waiting → (e.run m).hb ≠ .rlock := by
  obtain ⟨e, h1, h2, h3, h4⟩ := Exec.ofStepsAll (step := Teardown.Step .kcp false) (Q := fun s => s.hb = .rlock → s.cancelled = false) (s := {}) (.cons nofun (.otherRLock _ rfl rfl nofun) (.cons nofun (.tick _ rfl)
    (.cons nofun (.beat _ rfl) (.cons nofun (.sendOpenKcp _ rfl rfl rfl) (.cons (fun _ => rfl) (.rlockOpen _ rfl rfl nofun rfl) (.cons nofun (.stop _)
    (.cons nofun (.finStart _ rfl rfl) (.cons nofun (.hookDone _ rfl) (.cons nofun (.otherRUnlock _ (by decide) (.inl rfl)) (.cons nofun (.written _ rfl (.inl rfl))
    (.cons nofun (.finLock _ rfl ⟨rfl, rfl, nofun⟩ (.inl rfl)) (.cons nofun (.tick _ rfl) (.cons nofun (.beat _ rfl) (.cons nofun (.sendClosedKcp _ rfl rfl rfl)
    (.cons nofun (.quit _ rfl rfl) (.cons nofun (.close _ rfl) (.cons nofun (.remove _ rfl) (.cons nofun (.finish _ rfl) (.nil nofun)))))))))))))))))))
  have hE : ∀ A : Teardown.Label → Prop, ¬ A .stop → ¬ A .other → ¬ Enabled (Teardown.Step .kcp false) A
      { hb := .exited, cancelled := true, flag := true, fin := .done, hooks := 1, sockClosed := true, removed := true } := by
    rintro A a1 a2 ⟨l, t, hl, hs⟩
    cases hs <;> first | exact a1 hl | exact a2 hl | simp_all
  refine ⟨e, h1, Exec.weakFair_of_end h4 (hE _ nofun nofun), Exec.weakFair_of_end h4 (hE _ nofun nofun), Exec.strongFair_of_end h4 (hE _ nofun nofun),
    Exec.strongFair_of_end h4 (hE _ nofun nofun), Exec.weakFair_of_end h4 (hE _ nofun nofun), ⟨18, by rw [h4 18 (by decide)]⟩, ?_⟩
  intro m hm hm1 hb
  have hc := h3 m hb
  have hn := e.next m
  revert hn hm1
  generalize e.run (m + 1) = t
  cases ha : e.act m with
  | none => intro hm1 hn; rw [hn] at hm1; exact hm1 hm
  | some l => intro hm1 hn; cases hn <;> simp_all

/-- And one of a WebSocket connection: a heartbeat has been sent, another goroutine sends when it is stopped, and no heartbeat is begun after that. -/
example : ∃ e : Exec (Teardown.Step .ws false), e.run 0 = {} ∧ e.WeakFair (· = .fin) ∧ e.WeakFair (· = .hb) ∧ e.StrongFair (· = .quit) ∧ e.StrongFair (· = .fin) ∧
    e.WeakFair (· = .otherDone) ∧ (∃ n, (e.run n).cancelled = true) ∧ ∀ m, ¬ lockedOut .ws (e.run m) := by
  obtain ⟨e, h1, h2, h3, h4⟩ := Exec.ofStepsAll (step := Teardown.Step .ws false) (Q := fun s => ¬ lockedOut .ws s) (s := {}) (.cons (by simp [lockedOut]) (.tick _ rfl)
    (.cons (by simp [lockedOut]) (.beat _ rfl) (.cons (by simp [lockedOut]) (.lockOpen _ rfl rfl rfl rfl) (.cons (by simp [lockedOut]) (.written _ rfl (.inl rfl))
    (.cons (by simp [lockedOut]) (.otherLock _ rfl rfl) (.cons (by simp [lockedOut]) (.stop _)
    (.cons (by simp [lockedOut]) (.finStart _ rfl rfl) (.cons (by simp [lockedOut]) (.hookDone _ rfl) (.cons (by simp [lockedOut]) (.otherUnlock _ rfl rfl (.inl rfl))
    (.cons (by simp [lockedOut]) (.finLock _ rfl ⟨rfl, rfl, nofun⟩ (.inr rfl)) (.cons (by simp [lockedOut]) (.quit _ rfl rfl) (.cons (by simp [lockedOut]) (.close _ rfl)
    (.cons (by simp [lockedOut]) (.remove _ rfl) (.cons (by simp [lockedOut]) (.finish _ rfl) (.nil (by simp [lockedOut]))))))))))))))))
  have hE : ∀ A : Teardown.Label → Prop, ¬ A .stop → ¬ A .other → ¬ Enabled (Teardown.Step .ws false) A
      { hb := .exited, cancelled := true, flag := true, fin := .done, hooks := 1, sockClosed := true, removed := true } := by
    rintro A a1 a2 ⟨l, t, hl, hs⟩
    cases hs <;> first | exact a1 hl | exact a2 hl | simp_all
  exact ⟨e, h1, Exec.weakFair_of_end h4 (hE _ nofun nofun), Exec.weakFair_of_end h4 (hE _ nofun nofun), Exec.strongFair_of_end h4 (hE _ nofun nofun),
    Exec.strongFair_of_end h4 (hE _ nofun nofun), Exec.weakFair_of_end h4 (hE _ nofun nofun), ⟨14, by rw [h4 14 (by decide)]⟩, h3⟩

/-- A heartbeat on a KCP connection that is not stopped. -/
example : ∃ ls s t, Steps (Teardown.Step .kcp true) {} ls s ∧ Teardown.Label.stop ∉ ls ∧ Teardown.Step .kcp true s .hb t ∧ s.hb = .rlock :=
  ⟨[.tick, .hb, .hb], _, _, .cons (.tick _ rfl) (.cons (.beat _ rfl) (.cons (.sendOpenKcp _ rfl rfl rfl) (.nil _))), by decide, .rlockOpen _ rfl rfl nofun rfl, rfl⟩

end Zinx.Props
