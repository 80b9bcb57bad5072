import Verif.Props.AsyncStart

/-! # C58: every operation that is submitted is run -/

namespace Zinx.Props
open Zinx Zinx.AsyncStart
open Zinx.Async (workerIndex)

/-- If `P` is kept by all but `A` actions, which are possible in `P`, an `A` action is done in `P`. -/
theorem exec_leads_act {S L : Type} {step : S → L → S → Prop} (e : Exec step) {A : L → Prop} (hf : e.WeakFair A) {P : S → Prop} (h1 : ∀ s l t, P s → step s l t → ¬ A l → P t) (h3 : ∀ s, P s → Enabled step A s)
    {n : Nat} (h0 : P (e.run n)) : ∃ m l, n ≤ m ∧ e.act m = some l ∧ A l ∧ P (e.run m) := by
  apply Classical.byContradiction
  intro hno
  have hP : ∀ m, n ≤ m → P (e.run m) := by
    intro m hm
    induction m with
    | zero => have : n = 0 := by omega
              subst this; exact h0
    | succ m ih =>
      by_cases e1 : n = m + 1
      · rw [← e1]; exact h0
      · have hp := ih (by omega)
        have hn := e.next m
        cases ha : e.act m with
        | none => rw [ha] at hn; rw [hn]; exact hp
        | some l =>
          rw [ha] at hn
          exact h1 _ l _ hp hn fun hA => hno ⟨m, l, by omega, ha, hA, hp⟩
  obtain ⟨m, l, hm, ha, hA⟩ := hf n fun m hm => h3 _ (hP m hm)
  exact hno ⟨m, l, hm, ha, hA, hP m hm⟩

/-- What the worker of queue `q` does. -/
def asyncWorkerActs (q : Nat) (l : AsyncStart.Label) : Prop :=
  match l with
  | .begin q' _ | .finish q' _ _ => q' = q
  | _ => False

/-- Every worker runs and its operations return; every call that can go on again and again goes on. -/
structure AsyncFair {ops : Nat → Async.Op} (e : Exec (AsyncStart.Step ops)) : Prop where
  worker : ∀ q, e.WeakFair (asyncWorkerActs q)
  call : ∀ i, e.StrongFair (· = .call i)
  submit : ∀ i, e.StrongFair fun l => ∃ q, l = .submit i q

section
variable {ops : Nat → Async.Op} {e : Exec (AsyncStart.Step ops)}

theorem strong_weak {S L : Type} {step : S → L → S → Prop} {e : Exec step} {A : L → Prop} (h : e.StrongFair A) : e.WeakFair A :=
  fun n hn => h n fun m hm => ⟨m, Nat.le_refl m, hn m hm⟩

theorem async_step {n : Nat} {l : AsyncStart.Label} (ha : e.act n = some l) : AsyncStart.Step ops (e.run n) l (e.run (n + 1)) := by
  have := e.next n
  rwa [ha] at this

/-- What is queued is begun. -/
theorem queued_begins (hf : AsyncFair e) {q : Nat} {o : Async.Op} : ∀ (v : Nat) {n : Nat} {pre post : List Async.Op}, (e.run n).running q = true → (e.run n).queue q = pre ++ o :: post →
    2 * pre.length + (if (e.run n).busy q = none then 0 else 1) ≤ v → ∃ m, n ≤ m ∧ e.act m = some (.begin q o) := by
  intro v
  induction v with
  | zero | succ v ih =>
    intro n pre post hr hq hv
    obtain ⟨m, l, hm, ha, hA, hr', more, hq', hb'⟩ := exec_leads_act e (hf.worker q) (P := fun s => s.running q = true ∧ ∃ more, s.queue q = pre ++ o :: more ∧ s.busy q = (e.run n).busy q)
      (by
        rintro s l t ⟨h1, more, h2, h3⟩ hs hA
        cases hs <;> simp [upd, asyncWorkerActs] at * <;> grind)
      (by
        rintro s ⟨h1, more, h2, h3⟩
        cases hb : s.busy q with
        | none =>
          cases pre with
          | nil => exact ⟨.begin q o, _, rfl, .begin q o _ h1 hb h2⟩
          | cons p pre => exact ⟨.begin q p, _, rfl, .begin q p _ h1 hb h2⟩
        | some o' => exact ⟨.finish q o' false, _, rfl, .finish q o' false hb⟩)
      ⟨hr, post, hq, rfl⟩
    have hs := async_step ha
    rw [← hb'] at hv
    have key : l = .begin q o ∨ (e.run (m + 1)).running q = true ∧ ∃ pre' post', (e.run (m + 1)).queue q = pre' ++ o :: post' ∧
        2 * pre'.length + (if (e.run (m + 1)).busy q = none then 0 else 1) + 1 ≤ 2 * pre.length + (if (e.run m).busy q = none then 0 else 1) := by
      generalize e.run (m + 1) = t at hs
      generalize e.run m = s at hs hr' hq' hb' hv
      cases hs with
      | begin q' o' rest h1 h2 h3 =>
        simp only [asyncWorkerActs] at hA
        subst hA
        rw [hq'] at h3
        cases pre with
        | nil => simp at h3; exact .inl (by rw [h3.1])
        | cons p pre =>
          simp at h3
          refine .inr ⟨h1, pre, more, by simp [upd, h3.2], ?_⟩
          simp [upd, h2]
          omega
      | finish q' o' p h1 =>
        simp only [asyncWorkerActs] at hA
        subst hA
        exact .inr ⟨hr', pre, more, hq', by simp [upd, h1]⟩
      | _ => exact hA.elim
    rcases key with h | ⟨h1, pre', post', h2, h3⟩
    · exact ⟨m, hm, h ▸ ha⟩
    · first
      | omega
      | obtain ⟨k, hk, h⟩ := ih h1 h2 (by omega)
        exact ⟨k, by omega, h⟩

theorem async_inv_run (h0 : e.run 0 = {}) (n : Nat) : AsyncStartInv ops (e.run n) := asyncStartInv (h0 ▸ e.steps n)

theorem async_bounded (h0 : e.run 0 = {}) (n q : Nat) : ((e.run n).queue q).length ≤ 2048 := by
  refine e.invariant (P := fun s => ∀ q, (s.queue q).length ≤ 2048) ?_ (n := 0) (by rw [h0]; simp) n (Nat.zero_le n) q
  intro s l t h hs q
  have := h q
  cases hs <;> simp [upd] at * <;> grind

/-- One move of a call that can be made at any time. -/
theorem call_moves (hf : AsyncFair e) {i : Nat} {p : Pc} (hp : p = .held ∨ p = .started ∨ p = .unlock ∨ p = .got) {n : Nat} (hn : (e.run n).pc i = p) :
    ∃ m, n ≤ m ∧ (e.run m).pc i = p ∧ AsyncStart.Step ops (e.run m) (.call i) (e.run (m + 1)) := by
  obtain ⟨m, l, hm, ha, hA, h⟩ := exec_leads_act e (strong_weak (hf.call i)) (P := fun s => s.pc i = p)
    (by
      intro s l t h hs hA
      cases hs <;> simp [upd] at * <;> grind)
    (by
      intro s h
      subst h
      rcases hp with hp | hp | hp | hp
      · exact ⟨_, _, rfl, .make i hp⟩
      · exact ⟨_, _, rfl, .setDone i hp⟩
      · exact ⟨_, _, rfl, .unlock i hp⟩
      · exact ⟨_, _, rfl, .read i hp⟩) hn
  exact ⟨m, hm, h, hA ▸ async_step ha⟩

theorem moves_unlock (hf : AsyncFair e) {i n : Nat} (hn : (e.run n).pc i = .unlock) : ∃ m, n ≤ m ∧ (e.run m).pc i = .got ∧ (e.run m).lock (workerIndex (ops i).id) = none := by
  obtain ⟨m, hm, h, hs⟩ := call_moves hf (.inr (.inr (.inl rfl))) hn
  refine ⟨m + 1, by omega, ?_⟩
  generalize e.run (m + 1) = t at hs
  generalize e.run m = s at hs h
  cases hs <;> simp_all [upd]

theorem moves_started (hf : AsyncFair e) {i n : Nat} (hn : (e.run n).pc i = .started) : ∃ m, n ≤ m ∧ (e.run m).pc i = .unlock := by
  obtain ⟨m, hm, h, hs⟩ := call_moves hf (.inr (.inl rfl)) hn
  refine ⟨m + 1, by omega, ?_⟩
  generalize e.run (m + 1) = t at hs
  generalize e.run m = s at hs h
  cases hs <;> simp_all [upd]

theorem moves_made (h0 : e.run 0 = {}) (hf : AsyncFair e) {i n : Nat} (hn : (e.run n).pc i = .made) : ∃ m, n ≤ m ∧ (e.run m).pc i = .started := by
  obtain ⟨m, l, hm, ha, hA, h⟩ := exec_leads_act e (strong_weak (hf.call i)) (P := fun s => s.pc i = .made ∧ AsyncStartInv ops s)
    (by
      rintro s l t ⟨h, hi⟩ hs hA
      refine ⟨?_, asyncStartInv_step hi hs⟩
      clear hi
      cases hs <;> simp [upd] at * <;> grind)
    (by
      rintro s ⟨h, hi⟩
      obtain ⟨q, hq⟩ := Option.ne_none_iff_exists'.1 (hi.made i (.inl h)).1
      exact ⟨_, _, rfl, .go i q h hq⟩) ⟨hn, async_inv_run h0 n⟩
  have hs := async_step ha
  refine ⟨m + 1, by omega, ?_⟩
  have h1 := h.1
  clear h
  generalize e.run (m + 1) = t at hs
  generalize e.run m = s at hs h1
  subst hA
  cases hs <;> simp_all [upd]

theorem moves_held (hf : AsyncFair e) {i n : Nat} (hn : (e.run n).pc i = .held) : ∃ m, n ≤ m ∧ (e.run m).pc i = .made := by
  obtain ⟨m, hm, h, hs⟩ := call_moves hf (.inl rfl) hn
  refine ⟨m + 1, by omega, ?_⟩
  generalize e.run (m + 1) = t at hs
  generalize e.run m = s at hs h
  cases hs <;> simp_all [upd]

/-- A call that is inside `Once` gets out of it and releases the lock. -/
theorem moves_out (h0 : e.run 0 = {}) (hf : AsyncFair e) {i n : Nat} (hn : inOnce ((e.run n).pc i) = true) : ∃ m, n ≤ m ∧ (e.run m).pc i = .got ∧ (e.run m).lock (workerIndex (ops i).id) = none := by
  have c1 : ∀ {n}, (e.run n).pc i = .started → ∃ m, n ≤ m ∧ (e.run m).pc i = .got ∧ (e.run m).lock (workerIndex (ops i).id) = none := fun hn =>
    let ⟨m, hm, h⟩ := moves_started hf hn
    let ⟨k, hk, h⟩ := moves_unlock hf h
    ⟨k, by omega, h⟩
  have c2 : ∀ {n}, (e.run n).pc i = .made → ∃ m, n ≤ m ∧ (e.run m).pc i = .got ∧ (e.run m).lock (workerIndex (ops i).id) = none := fun hn =>
    let ⟨m, hm, h⟩ := moves_made h0 hf hn
    let ⟨k, hk, h⟩ := c1 h
    ⟨k, by omega, h⟩
  cases hp : (e.run n).pc i <;> rw [hp] at hn <;> simp only [inOnce, Bool.false_eq_true] at hn
  · obtain ⟨m, hm, h⟩ := moves_held hf hp
    obtain ⟨k, hk, h⟩ := c2 h
    exact ⟨k, by omega, h⟩
  · exact c2 hp
  · exact c1 hp
  · exact moves_unlock hf hp

/-- The lock is free again and again. -/
theorem lock_free (h0 : e.run 0 = {}) (hf : AsyncFair e) (w : Int) (n : Nat) : ∃ m, n ≤ m ∧ (e.run m).lock w = none := by
  cases hl : (e.run n).lock w with
  | none => exact ⟨n, Nat.le_refl n, hl⟩
  | some j =>
    have hi := async_inv_run h0 n
    have hw := hi.owner w j hl
    obtain ⟨m, hm, _, h⟩ := moves_out h0 hf ((hi.lock j).2 (by rw [hw]; exact hl))
    exact ⟨m, hm, hw ▸ h⟩

theorem moves_wait (h0 : e.run 0 = {}) (hf : AsyncFair e) {i n : Nat} (hn : (e.run n).pc i = .wait) : ∃ m, n ≤ m ∧ inOnce ((e.run m).pc i) = true := by
  refine e.leads_strong (hf.call i) (P := fun s => s.pc i = .wait) (Q := fun s => inOnce (s.pc i) = true) ?_ ?_ ?_ hn
  · intro s l t hp hs
    cases hs <;> simp [upd] at * <;> grind [inOnce]
  · intro s l t hp hs hA
    cases hs <;> simp [upd] at * <;> grind [inOnce]
  · intro k hk
    obtain ⟨m, hm, h⟩ := lock_free h0 hf (workerIndex (ops i).id) k
    exact ⟨m, hm, _, _, rfl, .lock i (hk m hm) h⟩

/-- A call of `Process` gets to the send. -/
theorem moves_have (h0 : e.run 0 = {}) (hf : AsyncFair e) {i n : Nat} (hn : e.act n = some (.enter i)) : ∃ m q, n ≤ m ∧ (e.run m).pc i = .have_ q := by
  have c1 : ∀ {n}, (e.run n).pc i = .got → ∃ m q, n ≤ m ∧ (e.run m).pc i = .have_ q := by
    intro n hn
    obtain ⟨m, hm, h, hs⟩ := call_moves hf (.inr (.inr (.inr rfl))) hn
    have hd := (async_inv_run h0 (m + 1)).dropped i
    have : ∃ q, (e.run (m + 1)).pc i = .have_ q := by
      generalize e.run (m + 1) = t at hs hd
      generalize e.run m = s at hs h
      cases hs <;> simp [upd, h] at *
      split at hd <;> simp_all
    obtain ⟨q, hq⟩ := this
    exact ⟨m + 1, q, by omega, hq⟩
  have h1 : (e.run (n + 1)).pc i = .got ∨ (e.run (n + 1)).pc i = .wait := by
    have hs := async_step hn
    generalize e.run (n + 1) = t at hs
    generalize e.run n = s at hs
    cases hs <;> simp [upd]
  rcases h1 with h | h
  · obtain ⟨k, q, hk, h⟩ := c1 h
    exact ⟨k, q, by omega, h⟩
  · obtain ⟨k, hk, h⟩ := moves_wait h0 hf h
    obtain ⟨j, hj, h, _⟩ := moves_out h0 hf h
    obtain ⟨r, q, hr, h⟩ := c1 h
    exact ⟨r, q, by omega, h⟩

/-- A queue has room again and again. -/
theorem room_again (h0 : e.run 0 = {}) (hf : AsyncFair e) {q : Nat} {n : Nat} (hr : (e.run n).running q = true) : ∃ m, n ≤ m ∧ ((e.run m).queue q).length < 2048 := by
  by_cases hl : ((e.run n).queue q).length < 2048
  · exact ⟨n, Nat.le_refl n, hl⟩
  · cases hq : (e.run n).queue q with
    | nil => rw [hq] at hl; simp at hl
    | cons o rest =>
      obtain ⟨m, hm, h⟩ := queued_begins hf _ (pre := []) hr hq (Nat.le_refl _)
      refine ⟨m + 1, by omega, ?_⟩
      have hs := async_step h
      have hb := async_bounded h0 m q
      generalize e.run (m + 1) = t at hs
      generalize e.run m = s at hs hb
      cases hs with
      | begin _ _ rest h1 h2 h3 =>
        rw [h3] at hb
        simp [upd] at *
        omega

theorem moves_sent (h0 : e.run 0 = {}) (hf : AsyncFair e) {i q n : Nat} (hn : (e.run n).pc i = .have_ q) : ∃ m, n ≤ m ∧ e.act m = some (.submit i q) := by
  apply Classical.byContradiction
  intro hno
  have hP := fun m (hm : n ≤ m) => show (e.run m).pc i = .have_ q from by
    induction m with
    | zero => have : n = 0 := by omega
              subst this; exact hn
    | succ m ih =>
      by_cases e1 : n = m + 1
      · rw [← e1]; exact hn
      · have hp := ih (by omega)
        have hs := e.next m
        cases ha : e.act m with
        | none => rw [ha] at hs; rw [hs]; exact hp
        | some l =>
          rw [ha] at hs
          have hne : l ≠ .submit i q := fun e2 => hno ⟨m, by omega, e2 ▸ ha⟩
          generalize e.run (m + 1) = t at hs
          generalize e.run m = s at hs hp
          cases hs <;> simp [upd] at * <;> grind
  obtain ⟨m, l, hm, ha, q', hA⟩ := hf.submit i n fun m hm => by
    have hi := async_inv_run h0 m
    obtain ⟨h1, h2⟩ := hi.have_ i q (hP m hm)
    obtain ⟨q2, h3, h4⟩ := hi.done _ h2
    rw [h1] at h3
    cases h3
    obtain ⟨k, hk, h⟩ := room_again h0 hf h4
    exact ⟨k, hk, _, _, ⟨q, rfl⟩, .submit i q (hP k (by omega)) h⟩
  subst hA
  have hs := async_step ha
  have hp := hP m hm
  have : q' = q := by
    generalize e.run (m + 1) = t at hs
    generalize e.run m = s at hs hp
    cases hs
    simp_all
  exact hno ⟨m, hm, this ▸ ha⟩

/-- **C58 (every operation is run).** Every call of `Process` submits its operation and returns, and the operation begins and ends, however many goroutines call at the same time and whether or not the worker had been started;
if calls and workers run and operations return. -/
theorem C58_runs (h0 : e.run 0 = {}) (hf : AsyncFair e) (i n : Nat) (hc : e.act n = some (.enter i)) :
    ∃ q k m j p, n < k ∧ e.act k = some (.submit i q) ∧ k < m ∧ e.act m = some (.begin q (ops i)) ∧ m < j ∧ e.act j = some (.finish q (ops i) p) := by
  obtain ⟨n', q, hn', hn⟩ := moves_have h0 hf hc
  obtain ⟨k, hk, ha⟩ := moves_sent h0 hf hn
  have hs := async_step ha
  have hi := async_inv_run h0 k
  have hq : (e.run (k + 1)).running q = true ∧ (e.run (k + 1)).queue q = (e.run k).queue q ++ ops i :: [] := by
    have hh : (e.run k).pc i = .have_ q ∧ (e.run (k + 1)).running q = (e.run k).running q ∧ (e.run (k + 1)).queue q = (e.run k).queue q ++ ops i :: [] := by
      generalize e.run (k + 1) = t at hs
      generalize e.run k = s at hs
      cases hs
      simp_all [upd]
    refine ⟨?_, hh.2.2⟩
    obtain ⟨h1, h2⟩ := hi.have_ i q hh.1
    obtain ⟨q2, h3, h4⟩ := hi.done _ h2
    rw [h1] at h3
    cases h3
    rw [hh.2.1]
    exact h4
  obtain ⟨m, hm, hb⟩ := queued_begins hf _ hq.1 hq.2 (Nat.le_refl _)
  have hs2 := async_step hb
  have hbusy : (e.run (m + 1)).busy q = some (ops i) := by
    generalize e.run (m + 1) = t at hs2
    generalize e.run m = s at hs2
    cases hs2
    simp [upd]
  obtain ⟨j, l, hj, hf2, hA, hbj⟩ := exec_leads_act e (hf.worker q) (P := fun s => s.busy q = some (ops i))
    (by
      intro s l t h hs hA
      cases hs <;> simp [upd, asyncWorkerActs] at * <;> grind)
    (fun s h => ⟨.finish q (ops i) false, _, rfl, .finish q _ false h⟩) hbusy
  have hs3 := async_step hf2
  have : ∃ p, l = .finish q (ops i) p := by
    generalize e.run (j + 1) = t at hs3
    generalize e.run j = s at hs3 hbj
    cases hs3 <;> simp [asyncWorkerActs] at hA <;> simp_all
  obtain ⟨p, hp⟩ := this
  have hnk : n ≠ k := fun e1 => by
    rw [e1, ha] at hc
    cases hc
  exact ⟨q, k, m, j, p, by omega, ha, by omega, hb, by omega, hp ▸ hf2⟩

end

/-- Two calls for one index, under different IDs, race for the start of the worker; the second operation to be submitted panics. -/
theorem start_example : ∃ t, Steps (AsyncStart.Step fun i => ⟨if i = 0 then 5 else -5, i⟩) {} [.enter 0, .enter 1, .call 0, .call 0, .call 0, .call 0, .call 0, .call 1, .call 1, .call 1, .submit 1 0, .call 0, .submit 0 0,
    .begin 0 ⟨-5, 1⟩, .finish 0 ⟨-5, 1⟩ false, .begin 0 ⟨5, 0⟩, .finish 0 ⟨5, 0⟩ true] t ∧ (∀ q, t.queue q = [] ∧ t.busy q = none) ∧ ∀ i, t.pc i = .sent ∨ t.pc i = .start := by
  refine ⟨_, .cons (.slow 0 rfl rfl) (.cons (.slow 1 rfl rfl) (.cons (.lock 0 rfl rfl) (.cons (.make 0 rfl) (.cons (.go 0 0 rfl rfl) (.cons (.setDone 0 rfl) (.cons (.unlock 0 rfl) (.cons (.lock 1 rfl rfl) (.cons (.unlock 1 rfl)
    (.cons (.read 1 rfl) (.cons (.submit 1 0 rfl (by decide)) (.cons (.read 0 rfl) (.cons (.submit 0 0 rfl (by decide)) (.cons (.begin 0 _ _ rfl rfl rfl) (.cons (.finish 0 _ false rfl) (.cons (.begin 0 _ _ rfl rfl rfl)
    (.cons (.finish 0 _ true rfl) (.nil _))))))))))))))))), ?_, ?_⟩
  · intro q
    simp only [upd]
    split <;> exact ⟨rfl, rfl⟩
  · intro i
    simp only [upd]
    by_cases h0 : i = 0
    · subst h0; exact .inl rfl
    · by_cases h1 : i = 1
      · subst h1; exact .inl rfl
      · simp [h0, h1]

example : ∃ e : Exec (AsyncStart.Step fun i => ⟨if i = 0 then 5 else -5, i⟩), e.run 0 = {} ∧ AsyncFair e ∧ e.act 0 = some (.enter 0) ∧ e.act 1 = some (.enter 1) := by
  obtain ⟨t, h, ht, hp⟩ := start_example
  obtain ⟨e, h1, h2, h3, h4⟩ := Exec.ofSteps h
  refine ⟨e, h1, ⟨fun q => Exec.weakFair_of_end h4 ?_, fun i => Exec.strongFair_of_end h4 ?_, fun i => Exec.strongFair_of_end h4 ?_⟩, by rw [h2]; rfl, by rw [h2]; rfl⟩
  · rintro ⟨l, u, hA, hs⟩
    clear h h1 h2 h3 h4
    cases hs <;> simp_all [asyncWorkerActs]
  · rintro ⟨l, u, hA, hs⟩
    clear h h1 h2 h3 h4
    rcases hp i with h | h <;> cases hs <;> simp_all
  · rintro ⟨l, u, ⟨q, hA⟩, hs⟩
    clear h h1 h2 h3 h4
    rcases hp i with h | h <;> cases hs <;> simp_all

end Zinx.Props
