import Verif.Props.AsyncHome

/-! # C107, liveness: callbacks are run -/

namespace Zinx.Props

open Zinx Zinx.AsyncHome

/-- The worker of channel `g` waits for room on its own full channel. -/
def Jam (cfg : Cfg) (s : AsyncHome.State) (g : Nat) : Prop := ∃ it k, s.worker g = .busy it (.send k (some g)) ∧ ¬ s.room cfg g

/-- What is assumed of workers: they are scheduled, and user code (handlers and callbacks) returns. -/
structure WorkerFair {cfg : Cfg} (e : Exec (AsyncHome.Step cfg)) : Prop where
  goOn : ∀ g, e.WeakFair (· = .goOn g)
  push : ∀ g, e.WeakFair (fun l => ∃ k h, l = .push g k h)
  take : ∀ g, e.WeakFair (fun l => ∃ it, l = .take g it)
  finish : ∀ g, e.StrongFair (fun l => ∃ it, l = .finish g it)

/-- What is assumed of the scheduler, of operations (each ends) and of user code (handlers and callbacks return). -/
structure HomeFair {cfg : Cfg} (e : Exec (AsyncHome.Step cfg)) : Prop extends WorkerFair e where
  op : ∀ k, e.WeakFair (· = .op k)
  opPush : ∀ k, e.StrongFair (fun l => ∃ h, l = .opPush k h)

/-- The rule for weak fairness, about a given execution. -/
theorem leads_later {S L : Type} {step : S → L → S → Prop} (e : Exec step) {A : L → Prop} (hf : e.WeakFair A) {P : S → Prop} {Q : Nat → Prop} {n : Nat}
    (h1 : ∀ m l, n ≤ m → e.act m = some l → step (e.run m) l (e.run (m + 1)) → P (e.run m) → (¬ A l ∧ P (e.run (m + 1))) ∨ Q (m + 1))
    (h3 : ∀ m, n ≤ m → P (e.run m) → Enabled step A (e.run m)) (h0 : P (e.run n)) : ∃ m, n < m ∧ Q m := by
  apply Classical.byContradiction
  intro hno
  have hP : ∀ m, n ≤ m → P (e.run m) := by
    intro m hm
    induction m with
    | zero =>
      have : n = 0 := by omega
      rw [← this]; exact h0
    | succ m ih =>
      by_cases e1 : n = m + 1
      · rw [← e1]; exact h0
      · have hp := ih (by omega)
        have hn := e.next m
        cases ha : e.act m with
        | none => rw [ha] at hn; rw [hn]; exact hp
        | some l =>
          rw [ha] at hn
          rcases h1 m l (by omega) ha hn hp with h | h
          · exact h.2
          · exact absurd ⟨m + 1, by omega, h⟩ hno
  obtain ⟨m, l, hm, ha, hA⟩ := hf n (fun m hm => h3 m hm (hP m hm))
  have hn := e.next m
  rw [ha] at hn
  rcases h1 m l hm ha hn (hP m hm) with h | h
  · exact h.1 hA
  · exact hno ⟨m + 1, by omega, h⟩

theorem leads_on {S L : Type} {step : S → L → S → Prop} (e : Exec step) {A : L → Prop} (hf : e.WeakFair A) {P : S → Prop} {Q : Nat → Prop} {n : Nat}
    (h1 : ∀ m l, n ≤ m → e.act m = some l → step (e.run m) l (e.run (m + 1)) → P (e.run m) → (¬ A l ∧ P (e.run (m + 1))) ∨ Q (m + 1))
    (h3 : ∀ m, n ≤ m → P (e.run m) → Enabled step A (e.run m)) (h0 : P (e.run n)) : ∃ m, n ≤ m ∧ Q m :=
  let ⟨m, hm, h⟩ := leads_later e hf h1 h3 h0
  ⟨m, Nat.le_of_lt hm, h⟩

/-! ## Invariants -/

/-- Some worker is at `pc`. -/
def At (f : Nat → Worker) (pc : HPc) : Prop := ∃ g it, f g = .busy it pc

theorem at_new (f : Nat → Worker) (g : Nat) (it : Item) (pc : HPc) : At (upd f g (.busy it pc)) pc := ⟨g, it, if_pos rfl⟩

theorem at_other {f : Nat → Worker} {g : Nat} {pc : HPc} (X : Worker) (hn : ∀ it, f g ≠ .busy it pc) (h : At f pc) : At (upd f g X) pc := by
  obtain ⟨g', it, h⟩ := h
  refine ⟨g', it, ?_⟩
  rw [upd, if_neg (fun e => hn it (by rw [← e]; exact h))]
  exact h

/-- Who has still to see to the callback of result `k`. -/
structure DutyInv (k : Nat) (s : AsyncHome.State) : Prop where
  ret : (s.res k).op ≠ .notStarted → (s.res k).op ≠ .queued → (s.res k).op ≠ .running → (s.res k).hasRet = true
  reg : (s.res k).hasFn = true → (s.res k).fn = false → At s.worker (.won k)
  duty : (s.res k).hasRet = true → (s.res k).fn = true → (s.res k).called = false →
    (s.res k).op = .won ∨ (s.res k).op = .stored ∨ (s.res k).op = .fire ∨ At s.worker (.wrote k) ∨ At s.worker (.fire k)

theorem duty_step {cfg : Cfg} {k : Nat} {s t : AsyncHome.State} {l : AsyncHome.Label} (hs : AsyncHome.Step cfg s l t) (hh : HomeInv cfg s) (hd : FixedPool cfg) (h : DutyInv k s) :
    DutyInv k t := by
  obtain ⟨a, b, c⟩ := h
  have hc := hh.closed
  have ha : after cfg = .idle := if_neg (by have := hd.some; omega)
  have hfix := hd.fixed
  have hpos := hd.some
  have hn := fun g it => at_new s.worker g it
  have ho := fun g pc X => at_other (f := s.worker) (g := g) (pc := pc) X
  have hu : ∀ (r : Nat → Result) i x, upd r i x k = if k = i then x else r k := fun _ _ _ => rfl
  cases hs <;> refine ⟨?_, ?_, ?_⟩ <;> simp only [State.setRes, State.setWorker, State.push, hu] <;> grind

theorem len_step {cfg : Cfg} {g : Nat} {s t : AsyncHome.State} {l : AsyncHome.Label} (hs : AsyncHome.Step cfg s l t) (h : (s.queue g).length ≤ max cfg.cap 1) :
    (t.queue g).length ≤ max cfg.cap 1 := by
  cases hs <;> simp only [State.setRes, State.setWorker, State.push, upd, State.room] at * <;> grind

/-- Callback `k` is on a queue. -/
def InQ (q : Nat → List Item) (k : Nat) : Prop := ∃ g, .call k ∈ q g

theorem inq_new (q : Nat → List Item) (g k : Nat) : InQ (upd q g (q g ++ [.call k])) k := ⟨g, by rw [upd, if_pos rfl]; simp⟩

theorem inq_push {q : Nat → List Item} {k : Nat} (g : Nat) (it : Item) (h : InQ q k) : InQ (upd q g (q g ++ [it])) k := by
  obtain ⟨g', h⟩ := h
  refine ⟨g', ?_⟩
  unfold upd
  split
  · rename_i e; rw [← e]; exact List.mem_append_left _ h
  · exact h

theorem inq_take {q : Nat → List Item} {k g : Nat} {it : Item} {rest : List Item} (hq : q g = it :: rest) (h : InQ q k) : it = .call k ∨ InQ (upd q g rest) k := by
  obtain ⟨g', h⟩ := h
  by_cases e : g' = g
  · rw [e, hq] at h
    rcases List.mem_cons.1 h with h | h
    · exact .inl h.symm
    · exact .inr ⟨g, by rw [upd, if_pos rfl]; exact h⟩
  · exact .inr ⟨g', by rw [upd, if_neg e]; exact h⟩

/-- Where a callback is that has been called for. -/
def Placed (k : Nat) (ls : List AsyncHome.Label) (s : AsyncHome.State) : Prop :=
  (s.res k).called = true → (∃ h, (s.res k).op = .send h) ∨ (∃ h, At s.worker (.send k h)) ∨ InQ s.queue k ∨ ∃ g, AsyncHome.Label.take g (.call k) ∈ ls

theorem placed_step {cfg : Cfg} {k : Nat} {ls : List AsyncHome.Label} {s t : AsyncHome.State} {l : AsyncHome.Label} (hs : AsyncHome.Step cfg s l t)
    (hh : HomeInv cfg s) (hd : FixedPool cfg) (h : Placed k ls s) : Placed k (ls ++ [l]) t := by
  have ht := fun c g => target_home (c := c) (g := g) hd hh
  have hc := hh.closed
  have ha : after cfg = .idle := if_neg (by have := hd.some; omega)
  have hfix := hd.fixed
  have hpos := hd.some
  have hb := hh.busy
  have hp := hh.pcOwn
  have hf := hh.ops
  have hn := fun g it => at_new s.worker g it
  have ho := fun g pc X => at_other (f := s.worker) (g := g) (pc := pc) X
  have hu : ∀ (r : Nat → Result) i x, upd r i x k = if k = i then x else r k := fun _ _ _ => rfl
  have q1 := inq_new s.queue
  have q2 := fun g it => inq_push (q := s.queue) (k := k) g it
  have q3 := fun g it rest => inq_take (q := s.queue) (k := k) (g := g) (it := it) (rest := rest)
  unfold Placed at *
  cases hs with
  | onWin g' k' it h1 h2 =>
    have k1 := hb g' it _ h1
    have k2 := hp g' it _ k' h1 rfl
    rw [ht _ g' (by rw [k2]; exact k1.1) k1.2]
    simp only [State.setRes, State.setWorker, hu]; grind
  | opFire k' h1 h2 =>
    obtain ⟨g', k1, k2⟩ := hf k' (by rw [h1]; nofun)
    rw [ht _ g' k2 k1]
    simp only [State.setRes, hu]; grind
  | _ => simp only [State.setRes, State.setWorker, State.push, hu]; grind

/-! ## Executions -/

theorem mono_step {cfg : Cfg} {k : Nat} {s t : AsyncHome.State} {l : AsyncHome.Label} (hs : AsyncHome.Step cfg s l t) :
    ((s.res k).hasRet = true → (t.res k).hasRet = true) ∧ ((s.res k).fn = true → (t.res k).fn = true) ∧ ((s.res k).called = true → (t.res k).called = true) ∧
    ((s.res k).hasFn = true → (t.res k).hasFn = true) := by
  cases hs <;> simp only [State.setRes, State.setWorker, State.push, upd] <;> grind

theorem num_step {cfg : Cfg} {c g : Nat} {s t : AsyncHome.State} {l : AsyncHome.Label} (hs : AsyncHome.Step cfg s l t) (h : s.num c = some g) : t.num c = some g := by
  cases hs <;> simp only [State.setRes, State.setWorker, State.push, upd] <;> grind

/-- What the steps of others leave alone in a worker. -/
theorem worker_step {cfg : Cfg} (hd : FixedPool cfg) {s t : AsyncHome.State} {l : AsyncHome.Label} (hs : AsyncHome.Step cfg s l t) (hh : HomeInv cfg s) (g : Nat) :
    (t.worker g = s.worker g ∧ l ≠ .goOn g ∧ (∀ it, l ≠ .take g it) ∧ (∀ it, l ≠ .finish g it) ∧ ∀ k h, l ≠ .push g k h) ∨
    (∃ it, s.worker g = .idle ∧ l = .take g it ∧ t.worker g = .busy it .code) ∨
    (∃ it, s.worker g = .busy it .code ∧ l = .finish g it ∧ t.worker g = .idle) ∨
    (∃ it k, s.worker g = .busy it .code ∧ l = .on g k ∧ t.worker g = .busy it (.won k)) ∨
    (∃ it k, s.worker g = .busy it (.won k) ∧ l = .goOn g ∧ t.worker g = .busy it (.wrote k) ∧ (t.res k).fn = true) ∨
    (∃ it k, s.worker g = .busy it (.wrote k) ∧ l = .goOn g ∧ t.worker g = .busy it (if (s.res k).hasRet then .fire k else .code)) ∨
    (∃ it k, s.worker g = .busy it (.fire k) ∧ l = .goOn g ∧ (t.res k).called = true ∧ (t.worker g = .busy it .code ∨ t.worker g = .idle ∨ ∃ h, t.worker g = .busy it (.send k h))) ∨
    (∃ it k h, s.worker g = .busy it (.send k (some h)) ∧ l = .push g k h ∧ t.worker g = .busy it .code ∧ .call k ∈ t.queue h) := by
  have hc := hh.closed
  have ha : after cfg = .idle := if_neg (by have := hd.some; omega)
  have hfix := hd.fixed
  have hpos := hd.some
  cases hs with
  | connectExtra c' w h1 => rw [hd.fixed] at h1; cases h1
  | onWin g' k' it h1 h2 => simp only [State.setRes, State.setWorker, upd]; grind
  | _ => simp only [State.setRes, State.setWorker, State.push, upd]; grind

/-- The steps of an operation. -/
theorem op_step {cfg : Cfg} {s t : AsyncHome.State} {l : AsyncHome.Label} (hs : AsyncHome.Step cfg s l t) (hh : HomeInv cfg s) (k : Nat) :
    ((t.res k).op = (s.res k).op ∧ l ≠ .op k ∧ ∀ h, l ≠ .opPush k h) ∨
    ((s.res k).op = .notStarted) ∨
    (l = .op k ∧ (s.res k).op = .queued ∧ (t.res k).op = .running) ∨
    (l = .op k ∧ (s.res k).op = .running ∧ (t.res k).op = .won ∧ (t.res k).hasRet = true) ∨
    (l = .op k ∧ (s.res k).op = .won ∧ (t.res k).op = .stored) ∨
    (l = .op k ∧ (s.res k).op = .stored ∧ (t.res k).op = if (s.res k).fn then .fire else .done) ∨
    (l = .op k ∧ (s.res k).op = .fire ∧ (t.res k).called = true) ∨
    (∃ h, l = .opPush k h ∧ (s.res k).op = .send (some h) ∧ .call k ∈ t.queue h) := by
  have hc := hh.closed
  cases hs <;> simp only [State.setRes, State.setWorker, State.push, upd] <;> grind

/-- Queues. -/
theorem queue_step {cfg : Cfg} {s t : AsyncHome.State} {l : AsyncHome.Label} (hs : AsyncHome.Step cfg s l t) (g : Nat) :
    ((t.queue g = s.queue g ∨ ∃ it, t.queue g = s.queue g ++ [it]) ∧ ∀ it, l ≠ .take g it) ∨ ∃ it, s.queue g = it :: t.queue g ∧ l = .take g it := by
  cases hs <;> simp only [State.setRes, State.setWorker, State.push, upd] <;> grind

section
variable {cfg : Cfg} (hd : FixedPool cfg) (e : Exec (AsyncHome.Step cfg)) (h0 : e.run 0 = AsyncHome.init cfg)
include hd h0

theorem exec_home (n : Nat) : HomeInv cfg (e.run n) :=
  e.invariant (P := HomeInv cfg) (fun _ _ _ hp hs => home_step hd hs hp) (n := 0) (by rw [h0]; exact home_init cfg) n (Nat.zero_le n)

theorem exec_duty (k n : Nat) : DutyInv k (e.run n) :=
  (e.invariant (P := fun s => HomeInv cfg s ∧ DutyInv k s) (fun _ _ _ hp hs => ⟨home_step hd hs hp.1, duty_step hs hp.1 hd hp.2⟩) (n := 0)
    (by rw [h0]; exact ⟨home_init cfg, by constructor <;> simp [AsyncHome.init]⟩) n (Nat.zero_le n)).2

theorem exec_placed (k n : Nat) : Placed k (e.trace n) (e.run n) := by
  have h := (e.steps n)
  rw [h0] at h
  exact (h.invariant_trace (P := fun ls s => HomeInv cfg s ∧ Placed k ls s) (fun ls s l t hp hs => ⟨home_step hd hs hp.1, placed_step hs hp.1 hd hp.2⟩)
    ⟨home_init cfg, by simp [Placed, AsyncHome.init]⟩).2

/-- In the middle of `OnComplete` a worker goes on. -/
theorem exec_won (hf : WorkerFair e) {n g k : Nat} {it : Item} (h : (e.run n).worker g = .busy it (.won k)) :
    ∃ m, n ≤ m ∧ (e.run m).worker g = .busy it (.wrote k) ∧ ((e.run m).res k).fn = true := by
  refine leads_on e (hf.goOn g) (P := fun s => s.worker g = .busy it (.won k)) (Q := fun m => (e.run m).worker g = .busy it (.wrote k) ∧ ((e.run m).res k).fn = true) ?_ ?_ h
  · intro m l _ _ hs hp
    have := worker_step hd hs (exec_home hd e h0 m) g
    grind
  · intro m _ hp
    exact ⟨_, _, rfl, .onStore g k it hp⟩

theorem exec_wrote (hf : WorkerFair e) {n g k : Nat} {it : Item} (h : (e.run n).worker g = .busy it (.wrote k)) :
    ∃ m, n ≤ m ∧ ((e.run m).worker g = .busy it (.fire k) ∨ ((e.run n).res k).hasRet = false ∧ (e.run m).worker g = .busy it .code) := by
  refine leads_on e (hf.goOn g) (P := fun s => s.worker g = .busy it (.wrote k) ∧ (((e.run n).res k).hasRet = true → (s.res k).hasRet = true))
    (Q := fun m => (e.run m).worker g = .busy it (.fire k) ∨ ((e.run n).res k).hasRet = false ∧ (e.run m).worker g = .busy it .code) ?_ ?_ ⟨h, id⟩
  · intro m l _ _ hs hp
    have := worker_step hd hs (exec_home hd e h0 m) g
    have := (mono_step (k := k) hs).1
    grind
  · intro m _ hp
    exact ⟨_, _, rfl, .onLoad g k it hp.1⟩

theorem exec_fire (hf : WorkerFair e) {n g k : Nat} {it : Item} (h : (e.run n).worker g = .busy it (.fire k)) :
    ∃ m, n ≤ m ∧ ((e.run m).res k).called = true ∧ ((e.run m).worker g = .busy it .code ∨ (e.run m).worker g = .idle ∨ ∃ h, (e.run m).worker g = .busy it (.send k h)) := by
  refine leads_on e (hf.goOn g) (P := fun s => s.worker g = .busy it (.fire k))
    (Q := fun m => ((e.run m).res k).called = true ∧ ((e.run m).worker g = .busy it .code ∨ (e.run m).worker g = .idle ∨ ∃ h, (e.run m).worker g = .busy it (.send k h))) ?_ ?_ h
  · intro m l _ _ hs hp
    have := worker_step hd hs (exec_home hd e h0 m) g
    grind
  · intro m _ hp
    cases hc : ((e.run m).res k).called with
    | true => exact ⟨_, _, rfl, .onLose g k it hp hc⟩
    | false => exact ⟨_, _, rfl, .onWin g k it hp hc⟩

theorem exec_send (hf : WorkerFair e) {n g k : Nat} {it : Item} {h' : Option Nat} (hj : ∀ m, n ≤ m → ¬ Jam cfg (e.run m) g) (h : (e.run n).worker g = .busy it (.send k h')) :
    ∃ m, n ≤ m ∧ (e.run m).worker g = .busy it .code ∧ .call k ∈ (e.run m).queue g := by
  have e1 := (exec_home hd e h0 n).sendTo g it k h' h
  subst e1
  refine leads_on e (hf.push g) (P := fun s => s.worker g = .busy it (.send k (some g))) (Q := fun m => (e.run m).worker g = .busy it .code ∧ .call k ∈ (e.run m).queue g) ?_ ?_ h
  · intro m l _ _ hs hp
    have := worker_step hd hs (exec_home hd e h0 m) g
    grind
  · intro m hm hp
    exact ⟨_, _, ⟨k, g, rfl⟩, .onSend g k g it hp ((exec_home hd e h0 m).closed g) (Classical.byContradiction fun hn => hj m hm ⟨it, k, hp, hn⟩)⟩

/-- A worker that is not jammed comes back to the user's code or to its channel. -/
theorem exec_code (hf : WorkerFair e) {n g : Nat} {it : Item} {pc : HPc} (hj : ∀ m, n ≤ m → ¬ Jam cfg (e.run m) g) (h : (e.run n).worker g = .busy it pc) :
    ∃ m, n ≤ m ∧ ((e.run m).worker g = .busy it .code ∨ (e.run m).worker g = .idle) := by
  have hS : ∀ n' k h', n ≤ n' → (e.run n').worker g = .busy it (.send k h') → ∃ m, n ≤ m ∧ ((e.run m).worker g = .busy it .code ∨ (e.run m).worker g = .idle) := by
    intro n' k h' hn h
    obtain ⟨m, hm, h⟩ := exec_send hd e h0 hf (fun m hm => hj m (by omega)) h
    exact ⟨m, by omega, .inl h.1⟩
  have hF : ∀ n' k, n ≤ n' → (e.run n').worker g = .busy it (.fire k) → ∃ m, n ≤ m ∧ ((e.run m).worker g = .busy it .code ∨ (e.run m).worker g = .idle) := by
    intro n' k hn h
    obtain ⟨m, hm, _, h | h | ⟨h', h⟩⟩ := exec_fire hd e h0 hf h
    · exact ⟨m, by omega, .inl h⟩
    · exact ⟨m, by omega, .inr h⟩
    · exact hS m k h' (by omega) h
  have hW : ∀ n' k, n ≤ n' → (e.run n').worker g = .busy it (.wrote k) → ∃ m, n ≤ m ∧ ((e.run m).worker g = .busy it .code ∨ (e.run m).worker g = .idle) := by
    intro n' k hn h
    obtain ⟨m, hm, h | h⟩ := exec_wrote hd e h0 hf h
    · exact hF m k (by omega) h
    · exact ⟨m, by omega, .inl h.2⟩
  cases pc with
  | code => exact ⟨n, Nat.le_refl _, .inl h⟩
  | won k =>
    obtain ⟨m, hm, h⟩ := exec_won hd e h0 hf h
    exact hW m k hm h.1
  | wrote k => exact hW n k (Nat.le_refl _) h
  | fire k => exact hF n k (Nat.le_refl _) h
  | send k h' => exact hS n k h' (Nat.le_refl _) h

/-- A worker that is not jammed is ready for its channel again and again. -/
theorem exec_idle (hf : WorkerFair e) {n g : Nat} (hg : g < cfg.pool) (hj : ∀ m, n ≤ m → ¬ Jam cfg (e.run m) g) : ∃ m, n ≤ m ∧ (e.run m).worker g = .idle := by
  apply Classical.byContradiction
  intro hno
  obtain ⟨m, l, hm, ha, it, rfl⟩ := hf.finish g n (fun m hm => by
    rcases (exec_home hd e h0 m).up g hg with h | ⟨it, pc, h⟩
    · exact absurd ⟨m, hm, h⟩ hno
    · obtain ⟨k, hk, h | h⟩ := exec_code hd e h0 hf (fun m' hm' => hj m' (by omega)) h
      · exact ⟨k, hk, _, _, ⟨it, rfl⟩, .finish g it h⟩
      · exact absurd ⟨k, by omega, h⟩ hno)
  have hn := e.next m
  rw [ha] at hn
  have := worker_step hd hn (exec_home hd e h0 m) g
  exact hno ⟨m + 1, by omega, by grind⟩

/-- A worker that is not jammed takes from its channel if there is something. -/
theorem exec_take (hf : WorkerFair e) {n g : Nat} (hg : g < cfg.pool) (hj : ∀ m, n ≤ m → ¬ Jam cfg (e.run m) g) (hq : (e.run n).queue g ≠ []) :
    ∃ m it, n ≤ m ∧ e.act m = some (.take g it) := by
  obtain ⟨n1, hn1, h1⟩ := exec_idle hd e h0 hf hg hj
  apply Classical.byContradiction
  intro hno
  have hqs : ∀ m, n ≤ m → (e.run m).queue g ≠ [] := by
    intro m hm
    induction m with
    | zero =>
      have : n = 0 := by omega
      rw [← this]; exact hq
    | succ m ih =>
      by_cases e1 : n = m + 1
      · rw [← e1]; exact hq
      · have hp := ih (by omega)
        have hn := e.next m
        cases ha : e.act m with
        | none => rw [ha] at hn; rw [hn]; exact hp
        | some l =>
          rw [ha] at hn
          rcases queue_step hn g with ⟨hr | ⟨_, hr⟩, _⟩ | ⟨it, _, hr⟩
          · rw [hr]; exact hp
          · rw [hr]; simp
          · exact absurd ⟨m, it, by omega, by rw [ha, hr]⟩ hno
  obtain ⟨m, hm, it, h⟩ := leads_later e (hf.take g) (P := fun s => s.worker g = .idle) (Q := fun m => ∃ it, e.act (m - 1) = some (.take g it)) (n := n1)
    (by
      intro m l hm ha hs hp
      have := worker_step hd hs (exec_home hd e h0 m) g
      rcases this with h | ⟨it, _, h2, _⟩ | h
      · exact .inl ⟨fun ⟨it, h'⟩ => h.2.2.1 it h', by rw [h.1]; exact hp⟩
      · exact .inr ⟨it, by rw [show m + 1 - 1 = m from rfl, ha, h2]⟩
      · grind)
    (by
      intro m hm hp
      cases hc : (e.run m).queue g with
      | nil => exact absurd hc (hqs m (by omega))
      | cons it rest => exact ⟨_, _, ⟨it, rfl⟩, .take g it rest hp hc⟩) h1
  exact hno ⟨m - 1, it, by omega, h⟩

/-- What is on the channel of a worker that is not jammed is taken. -/
theorem exec_drain (hf : WorkerFair e) {g : Nat} (hg : g < cfg.pool) (it : Item) :
    ∀ b n pre post, (∀ m, n ≤ m → ¬ Jam cfg (e.run m) g) → (e.run n).queue g = pre ++ it :: post → pre.length ≤ b → ∃ m, n ≤ m ∧ e.act m = some (.take g it) := by
  have stay : ∀ n pre post, (e.run n).queue g = pre ++ it :: post → ∀ m, n ≤ m →
      (∃ j, n ≤ j ∧ j < m ∧ e.act j = some (.take g it)) ∨ ∃ pre' post', (e.run m).queue g = pre' ++ it :: post' ∧ pre'.length ≤ pre.length := by
    intro n pre post hq m hm
    induction m with
    | zero =>
      have : n = 0 := by omega
      exact .inr ⟨pre, post, by rw [← this]; exact hq, Nat.le_refl _⟩
    | succ m ih =>
      by_cases e1 : n = m + 1
      · exact .inr ⟨pre, post, by rw [← e1]; exact hq, Nat.le_refl _⟩
      · rcases ih (by omega) with ⟨j, h1, h2, h3⟩ | ⟨pre', post', h1, h2⟩
        · exact .inl ⟨j, h1, by omega, h3⟩
        · have hn := e.next m
          cases ha : e.act m with
          | none => rw [ha] at hn; rw [hn]; exact .inr ⟨pre', post', h1, h2⟩
          | some l =>
            rw [ha] at hn
            rcases queue_step hn g with ⟨hr | ⟨x, hr⟩, _⟩ | ⟨it', hq', hr⟩
            · exact .inr ⟨pre', post', by rw [hr]; exact h1, h2⟩
            · exact .inr ⟨pre', post' ++ [x], by rw [hr, h1]; simp, h2⟩
            · cases pre' with
              | nil =>
                rw [h1] at hq'
                cases hq'
                exact .inl ⟨m, by omega, by omega, by rw [ha, hr]⟩
              | cons y ys =>
                rw [h1] at hq'
                injection hq' with _ h3
                exact .inr ⟨ys, post', h3.symm, by simp only [List.length_cons] at h2; omega⟩
  intro b
  induction b with
  | zero =>
    intro n pre post hj hq hb
    obtain ⟨m, x, hm, ha⟩ := exec_take hd e h0 hf hg hj (by rw [hq]; simp)
    rcases stay n pre post hq m hm with ⟨j, h1, h2, h3⟩ | ⟨pre', post', h1, h2⟩
    · exact ⟨j, h1, h3⟩
    · have hn := e.next m
      rw [ha] at hn
      cases pre' with
      | nil =>
        rcases queue_step hn g with ⟨_, h⟩ | ⟨it', hq', hr⟩
        · exact absurd rfl (h x)
        · rw [h1] at hq'
          cases hq'
          exact ⟨m, hm, by rw [ha, hr]⟩
      | cons y ys => simp only [List.length_cons] at h2; omega
  | succ b ih =>
    intro n pre post hj hq hb
    obtain ⟨m, x, hm, ha⟩ := exec_take hd e h0 hf hg hj (by rw [hq]; simp)
    rcases stay n pre post hq m hm with ⟨j, h1, h2, h3⟩ | ⟨pre', post', h1, h2⟩
    · exact ⟨j, h1, h3⟩
    · have hn := e.next m
      rw [ha] at hn
      rcases queue_step hn g with ⟨_, h⟩ | ⟨it', hq', hr⟩
      · exact absurd rfl (h x)
      · rw [h1] at hq'
        cases pre' with
        | nil =>
          cases hq'
          exact ⟨m, hm, by rw [ha, hr]⟩
        | cons y ys =>
          injection hq' with _ h3
          obtain ⟨m', h4, h5⟩ := ih (m + 1) ys post' (fun m' hm' => hj m' (by omega)) h3.symm (by simp only [List.length_cons] at h2; omega)
          exact ⟨m', by omega, h5⟩

/-- There is room again and again. -/
theorem exec_room (hf : WorkerFair e) {n g : Nat} (hg : g < cfg.pool) (hj : ∀ m, n ≤ m → ¬ Jam cfg (e.run m) g) : ∃ m, n ≤ m ∧ (e.run m).room cfg g := by
  by_cases hq : (e.run n).queue g = []
  · exact ⟨n, Nat.le_refl _, by unfold State.room; rw [hq]; show 0 < max cfg.cap 1; omega⟩
  · obtain ⟨m, x, hm, ha⟩ := exec_take hd e h0 hf hg hj hq
    have hn := e.next m
    rw [ha] at hn
    have hlen := e.invariant (P := fun s => (s.queue g).length ≤ max cfg.cap 1) (fun _ _ _ hp hs => len_step hs hp) (n := 0) (by rw [h0]; simp [AsyncHome.init]) m (Nat.zero_le m)
    rcases queue_step hn g with ⟨_, h⟩ | ⟨it', hq', hr⟩
    · exact absurd rfl (h x)
    · refine ⟨m + 1, by omega, ?_⟩
      unfold State.room
      rw [hq'] at hlen
      simp only [List.length_cons] at hlen
      omega

/-- An operation that has been begun ends. -/
theorem exec_ret (hf : HomeFair e) {n k : Nat} (h : ((e.run n).res k).op ≠ .notStarted) : ∃ m, n ≤ m ∧ ((e.run m).res k).hasRet = true := by
  have hR : ∀ n, ((e.run n).res k).op = .running → ∃ m, n ≤ m ∧ ((e.run m).res k).hasRet = true := by
    intro n h
    refine leads_on e (hf.op k) (P := fun s => (s.res k).op = .running) (Q := fun m => ((e.run m).res k).hasRet = true) ?_ (fun m _ hp => ⟨_, _, rfl, .opWin k hp⟩) h
    intro m l _ _ hs hp
    have := op_step hs (exec_home hd e h0 m) k
    grind
  cases ho : ((e.run n).res k).op with
  | notStarted => exact absurd ho h
  | running => exact hR n ho
  | queued =>
    obtain ⟨m, hm, h⟩ := leads_on e (hf.op k) (P := fun s => (s.res k).op = .queued) (Q := fun m => ((e.run m).res k).op = .running) (n := n)
      (by
        intro m l _ _ hs hp
        have := op_step hs (exec_home hd e h0 m) k
        grind)
      (fun m _ hp => ⟨_, _, rfl, .opBegin k hp⟩) ho
    obtain ⟨m', hm', h⟩ := hR m h
    exact ⟨m', by omega, h⟩
  | _ => exact ⟨n, Nat.le_refl _, (exec_duty hd e h0 k n).ret (by rw [ho]; nofun) (by rw [ho]; nofun) (by rw [ho]; nofun)⟩

theorem exec_fn (hf : HomeFair e) {n k : Nat} (h : ((e.run n).res k).hasFn = true) : ∃ m, n ≤ m ∧ ((e.run m).res k).fn = true := by
  cases hfn : ((e.run n).res k).fn with
  | true => exact ⟨n, Nat.le_refl _, hfn⟩
  | false =>
    obtain ⟨g, it, hw⟩ := (exec_duty hd e h0 k n).reg h hfn
    obtain ⟨m, hm, h⟩ := exec_won hd e h0 hf.toWorkerFair hw
    exact ⟨m, hm, h.2⟩

omit hd h0 in
theorem exec_kept (k : Nat) {n m : Nat} (hm : n ≤ m) :
    (((e.run n).res k).hasRet = true → ((e.run m).res k).hasRet = true) ∧ (((e.run n).res k).fn = true → ((e.run m).res k).fn = true) :=
  ⟨fun h => e.invariant (P := fun s => (s.res k).hasRet = true) (fun _ _ _ hp hs => (mono_step hs).1 hp) h m hm,
    fun h => e.invariant (P := fun s => (s.res k).fn = true) (fun _ _ _ hp hs => (mono_step hs).2.1 hp) h m hm⟩

/-- With both there, one of the two calls for the callback. -/
theorem exec_called (hf : HomeFair e) {n k : Nat} (hr : ((e.run n).res k).hasRet = true) (hfn : ((e.run n).res k).fn = true) :
    ∃ m, n ≤ m ∧ ((e.run m).res k).called = true := by
  have hF : ∀ n, ((e.run n).res k).op = .fire → ∃ m, n ≤ m ∧ ((e.run m).res k).called = true := by
    intro n h
    refine leads_on e (hf.op k) (P := fun s => (s.res k).op = .fire) (Q := fun m => ((e.run m).res k).called = true) ?_ ?_ h
    · intro m l _ _ hs hp
      have := op_step hs (exec_home hd e h0 m) k
      grind
    · intro m _ hp
      cases hc : ((e.run m).res k).called with
      | true => exact ⟨_, _, rfl, .opLose k hp hc⟩
      | false => exact ⟨_, _, rfl, .opFire k hp hc⟩
  have hS : ∀ n, ((e.run n).res k).op = .stored → ((e.run n).res k).fn = true → ∃ m, n ≤ m ∧ ((e.run m).res k).called = true := by
    intro n h h'
    obtain ⟨m, hm, h⟩ := leads_on e (hf.op k) (P := fun s => (s.res k).op = .stored ∧ (s.res k).fn = true) (Q := fun m => ((e.run m).res k).op = .fire) (n := n)
      (by
        intro m l _ _ hs hp
        have := op_step hs (exec_home hd e h0 m) k
        have := (mono_step (k := k) hs).2.1
        grind)
      (fun m _ hp => ⟨_, _, rfl, .opRead k hp.1⟩) ⟨h, h'⟩
    obtain ⟨m', hm', h⟩ := hF m h
    exact ⟨m', by omega, h⟩
  have hG : ∀ n g it, (e.run n).worker g = .busy it (.fire k) → ∃ m, n ≤ m ∧ ((e.run m).res k).called = true := by
    intro n g it h
    obtain ⟨m, hm, h, _⟩ := exec_fire hd e h0 hf.toWorkerFair h
    exact ⟨m, hm, h⟩
  cases hc : ((e.run n).res k).called with
  | true => exact ⟨n, Nat.le_refl _, hc⟩
  | false =>
    rcases (exec_duty hd e h0 k n).duty hr hfn hc with h | h | h | ⟨g, it, h⟩ | ⟨g, it, h⟩
    · obtain ⟨m, hm, h⟩ := leads_on e (hf.op k) (P := fun s => (s.res k).op = .won) (Q := fun m => ((e.run m).res k).op = .stored) (n := n)
        (by
          intro m l _ _ hs hp
          have := op_step hs (exec_home hd e h0 m) k
          grind)
        (fun m _ hp => ⟨_, _, rfl, .opStore k hp⟩) h
      obtain ⟨m', hm', h⟩ := hS m h ((exec_kept e k hm).2 hfn)
      exact ⟨m', by omega, h⟩
    · exact hS n h hfn
    · exact hF n h
    · obtain ⟨m, hm, h | ⟨h, _⟩⟩ := exec_wrote hd e h0 hf.toWorkerFair h
      · obtain ⟨m', hm', h⟩ := hG m g it h
        exact ⟨m', by omega, h⟩
      · rw [hr] at h; cases h
    · exact hG n g it h

/-- **C107 (run).** Without dynamic binding, in every fair execution: if an operation has been started for a result, a callback has been registered for it, and the worker of the connection never waits for room on
its own full channel, then the callback is run, by that worker. -/
theorem C107_partial (hf : HomeFair e) {n k g : Nat} (hop : ((e.run n).res k).op ≠ .notStarted) (hfn : ((e.run n).res k).hasFn = true)
    (hg : (e.run n).num (cfg.conn k) = some g) (hj : ∀ m, ¬ Jam cfg (e.run m) g) : ∃ m, e.act m = some (.take g (.call k)) := by
  have hnum : ∀ m, n ≤ m → (e.run m).num (cfg.conn k) = some g := fun m hm => e.invariant (P := fun s => s.num (cfg.conn k) = some g) (fun _ _ _ hp hs => num_step hs hp) hg m hm
  have hgp : g < cfg.pool := by
    obtain ⟨g', h1, h2⟩ := (exec_home hd e h0 n).ops k hop
    rw [hg] at h2; cases h2; exact h1
  have hq : ∀ m, .call k ∈ (e.run m).queue g → ∃ m, e.act m = some (.take g (.call k)) := by
    intro m h
    obtain ⟨pre, post, h⟩ := List.append_of_mem h
    obtain ⟨m', _, h⟩ := exec_drain hd e h0 hf.toWorkerFair hgp (.call k) pre.length m pre post (fun m _ => hj m) h (Nat.le_refl _)
    exact ⟨m', h⟩
  obtain ⟨n1, hn1, h1⟩ := exec_ret hd e h0 hf hop
  obtain ⟨n2, hn2, h2⟩ := exec_fn hd e h0 hf hfn
  have h1' := (exec_kept e k (Nat.le_add_right n1 n2)).1 h1
  have h2' := (exec_kept e k (Nat.le_add_left n2 n1)).2 h2
  obtain ⟨n3, hn3, h3⟩ := exec_called hd e h0 hf h1' h2'
  have hh := exec_home hd e h0 n3
  rcases exec_placed hd e h0 k n3 h3 with ⟨h, h4⟩ | ⟨h, g', it, h4⟩ | ⟨g', h4⟩ | ⟨g', h4⟩
  · obtain ⟨g', _, h5, h6⟩ := hh.opTo k h h4
    rw [hnum n3 (by omega)] at h5
    cases h5; subst h6
    apply Classical.byContradiction
    intro hno
    have hP : ∀ m, n3 ≤ m → ((e.run m).res k).op = .send (some g) := by
      intro m hm
      induction m with
      | zero =>
        have : n3 = 0 := by omega
        rw [← this]; exact h4
      | succ m ih =>
        by_cases e1 : n3 = m + 1
        · rw [← e1]; exact h4
        · have hp := ih (by omega)
          have hn := e.next m
          cases ha : e.act m with
          | none => rw [ha] at hn; rw [hn]; exact hp
          | some l =>
            rw [ha] at hn
            have := op_step hn (exec_home hd e h0 m) k
            have := hq (m + 1)
            grind
    obtain ⟨m, l, hm, ha, h', rfl⟩ := hf.opPush k n3 (fun m hm => by
      obtain ⟨m', hm', hr⟩ := exec_room hd e h0 hf.toWorkerFair hgp (n := m) (fun m _ => hj m)
      exact ⟨m', hm', _, _, ⟨g, rfl⟩, .opSend k g (hP m' (by omega)) ((exec_home hd e h0 m').closed g) hr⟩)
    have hn := e.next m
    rw [ha] at hn
    have := op_step hn (exec_home hd e h0 m) k
    have := hq (m + 1)
    have := hP m hm
    grind
  · have h5 := hh.busy g' it _ h4
    rw [← hh.pcOwn g' it _ k h4 rfl, hnum n3 (by omega)] at h5
    obtain ⟨h5, _⟩ := h5
    cases h5
    obtain ⟨m, hm, _, h⟩ := exec_send hd e h0 hf.toWorkerFair (fun m _ => hj m) h4
    exact hq m h
  · have h5 := (hh.queued g' _ h4).1
    rw [show (Item.call k).owner cfg = cfg.conn k from rfl, hnum n3 (by omega)] at h5
    cases h5
    exact hq n3 h4
  · obtain ⟨m, hm, ha⟩ := e.mem_trace h4
    have hn := e.next m
    rw [ha] at hn
    have hm' : .call k ∈ (e.run m).queue g' := by
      generalize e.run (m + 1) = t at hn
      cases hn with
      | take _ _ rest _ h7 => rw [h7]; exact List.mem_cons_self
    have h5 := ((exec_home hd e h0 m).queued g' _ hm').1
    have h6 := e.invariant (P := fun s => s.num (cfg.conn k) = some g') (fun _ _ _ hp hs => num_step hs hp) h5 n3 (by omega)
    rw [hnum n3 (by omega)] at h6
    cases h6
    exact ⟨m, ha⟩

end

end Zinx.Props
