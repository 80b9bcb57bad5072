import Verif.Props.AsyncHomeLive
import Verif.Lemmas.ExecOf

/-! # C107: where callbacks are not run, or run elsewhere -/

namespace Zinx.Props

open Zinx Zinx.AsyncHome

/-! ## Self-deadlock -/

theorem jam_step {cfg : Cfg} (hd : FixedPool cfg) {s t : AsyncHome.State} {l : AsyncHome.Label} {g : Nat} (hs : AsyncHome.Step cfg s l t) (hh : HomeInv cfg s) (h : Jam cfg s g) :
    Jam cfg t g ∧ ∀ it, l ≠ .take g it := by
  obtain ⟨it, k, h1, h2⟩ := h
  have hq := queue_step hs g
  have hw := worker_step hd hs hh g
  have hsend : ∀ k' , l ≠ .push g k' g := by
    intro k' e
    subst e
    cases hs with
    | onSend _ _ _ _ _ _ h3 => exact h2 h3
  unfold State.room at h2
  rw [Nat.not_lt] at h2
  have e1 : t.worker g = s.worker g := by grind
  refine ⟨⟨it, k, by rw [e1]; exact h1, ?_⟩, fun it' => ?_⟩
  · unfold State.room
    rw [Nat.not_lt]
    rcases hq with ⟨h | ⟨x, h⟩, _⟩ | ⟨x, _, h⟩
    · rw [h]; exact h2
    · rw [h, List.length_append]; omega
    · grind
  · grind

/-- **C107 (jam).** A worker that waits for room on its own full channel waits for ever: it takes nothing any more. -/
theorem C107_jam (cfg : Cfg) (hd : FixedPool cfg) (ls : List AsyncHome.Label) (s : AsyncHome.State) (h : Steps (AsyncHome.Step cfg) (AsyncHome.init cfg) ls s) (g : Nat) (hj : Jam cfg s g)
    (ls' : List AsyncHome.Label) (t : AsyncHome.State) (h' : Steps (AsyncHome.Step cfg) s ls' t) : Jam cfg t g ∧ ∀ it, AsyncHome.Label.take g it ∉ ls' := by
  have hi := h.invariant (P := HomeInv cfg) (fun _ _ _ hp hs => home_step hd hs hp) (home_init cfg)
  have := h'.invariant_trace (P := fun ls' t => HomeInv cfg t ∧ Jam cfg t g ∧ ∀ it, AsyncHome.Label.take g it ∉ ls')
    (fun ls' s l t hp hs => by
      have := jam_step hd hs hp.1 hp.2.1
      refine ⟨home_step hd hs hp.1, this.1, fun it hm => ?_⟩
      rw [List.mem_append, List.mem_singleton] at hm
      rcases hm with hm | hm
      · exact hp.2.2 it hm
      · exact this.2 it hm.symm) ⟨hi, hj, by simp⟩
  exact this.2

/-! ## Without a pool -/

/-- Invariant without a pool. -/
structure NoPoolInv (s : AsyncHome.State) : Prop where
  cur : ∀ w, s.cur w = none
  queue : ∀ g, s.queue g = []
  worker : ∀ g it k h, s.worker g ≠ .busy it (.send k (some h))
  op : ∀ k h, (s.res k).op ≠ .send (some h)

theorem noPool_target {cfg : Cfg} {s : AsyncHome.State} (h : NoPoolInv s) (c g : Nat) : s.target cfg c ≠ .chan g := by
  unfold State.target
  rw [h.cur]
  split <;> nofun

theorem noPool_step {cfg : Cfg} (hp : cfg.pool = 0) {s t : AsyncHome.State} {l : AsyncHome.Label} (hs : AsyncHome.Step cfg s l t) (h : NoPoolInv s) :
    NoPoolInv t ∧ ∀ g it, l ≠ .take g it := by
  have ht := noPool_target (cfg := cfg) h
  have ha : after cfg = .gone := if_pos hp
  obtain ⟨a, b, c, d⟩ := h
  cases hs <;> refine ⟨⟨?_, ?_, ?_, ?_⟩, ?_⟩ <;> (try simp only [State.setRes, State.setWorker, State.push, upd]) <;> grind

/-- **C107 (no pool).** A client, or a server without a worker pool, never runs a completion callback. -/
theorem C107_noPool (cfg : Cfg) (hp : cfg.pool = 0) (ls : List AsyncHome.Label) (s : AsyncHome.State) (h : Steps (AsyncHome.Step cfg) (AsyncHome.init cfg) ls s) (g : Nat) (it : Item) :
    AsyncHome.Label.take g it ∉ ls := by
  have := h.invariant_trace (P := fun ls s => NoPoolInv s ∧ ∀ g it, AsyncHome.Label.take g it ∉ ls)
    (fun ls s l t hq hs => by
      have := noPool_step hp hs hq.1
      refine ⟨this.1, fun g it hm => ?_⟩
      rw [List.mem_append, List.mem_singleton] at hm
      rcases hm with hm | hm
      · exact hq.2 g it hm
      · exact this.2 g it hm.symm)
    ⟨by constructor <;> simp [AsyncHome.init, hp], by simp⟩
  exact this.2 g it

/-! ## Lost callbacks -/

/-- Callback `k` has been called for and is nowhere. -/
structure LostCall (k : Nat) (s : AsyncHome.State) : Prop where
  called : (s.res k).called = true
  op : (s.res k).op = .done
  worker : ∀ g it h, s.worker g ≠ .busy it (.send k h)
  queue : ∀ g, .call k ∉ s.queue g

theorem lost_step {cfg : Cfg} {k : Nat} {s t : AsyncHome.State} {l : AsyncHome.Label} (hs : AsyncHome.Step cfg s l t) (h : LostCall k s) : LostCall k t ∧ ∀ g, l ≠ .take g (.call k) := by
  have ha : ∀ it pc, after cfg ≠ .busy it pc := by unfold after; split <;> nofun
  obtain ⟨a, b, c, d⟩ := h
  cases hs <;> refine ⟨⟨?_, ?_, ?_, ?_⟩, ?_⟩ <;> (try simp only [State.setRes, State.setWorker, State.push, upd]) <;> grind

theorem lost_ever {cfg : Cfg} {k : Nat} {s t : AsyncHome.State} {ls : List AsyncHome.Label} (h : LostCall k s) (hs : Steps (AsyncHome.Step cfg) s ls t) (g : Nat) :
    AsyncHome.Label.take g (.call k) ∉ ls := by
  have := hs.invariant_trace (P := fun ls t => LostCall k t ∧ ∀ g, AsyncHome.Label.take g (.call k) ∉ ls)
    (fun ls s l t hp hs => by
      have := lost_step hs hp.1
      refine ⟨this.1, fun g hm => ?_⟩
      rw [List.mem_append, List.mem_singleton] at hm
      rcases hm with hm | hm
      · exact hp.2 g hm
      · exact this.2 g hm.symm) ⟨h, by simp⟩
  exact this.2 g

/-! ## Concrete executions -/

/-- The next state, computed. -/
def homeNext (cfg : Cfg) (s : AsyncHome.State) : AsyncHome.Label → Option AsyncHome.State
  | .connect c w => if s.num c = none ∧ (w < cfg.pool ∨ cfg.pool = 0 ∧ w = 0) then some { s with num := upd s.num c (some w) } else none
  | .connectExtra c w => if cfg.dynamic = true ∧ 0 < cfg.pool ∧ s.num c = none ∧ cfg.pool ≤ w ∧ w < cfg.taskLen then
      some { s with num := upd s.num c (some w), cur := upd s.cur w (some s.fresh), fresh := s.fresh + 1, worker := upd s.worker s.fresh .idle } else none
  | .release c => match s.num c with
    | none => none
    | some w => match s.cur w with
      | none => none
      | some g => if cfg.dynamic = true ∧ cfg.pool ≤ w ∧ s.closed g = false then some { s with closed := upd s.closed g true } else none
  | .arrive c id => match s.num c, s.target cfg c with
    | some _, .chan g => if s.closed g = false ∧ (s.queue g).length < max cfg.cap 1 then some (s.push g (.msg c id)) else none
    | _, _ => none
  | .own c id => if cfg.pool = 0 ∧ s.num c ≠ none then some { s with fresh := s.fresh + 1, worker := upd s.worker s.fresh (.busy (.msg c id) .code) } else none
  | .take g it => match s.queue g with
    | [] => none
    | it' :: rest => if s.worker g = .idle ∧ it' = it then some { s with queue := upd s.queue g rest, worker := upd s.worker g (.busy it .code) } else none
  | .quit g => if s.worker g = .idle ∧ s.queue g = [] ∧ s.closed g = true then some (s.setWorker g .gone) else none
  | .finish g it => if s.worker g = .busy it .code then some (s.setWorker g (after cfg)) else none
  | .process g k => match s.worker g with
    | .busy it .code => if cfg.conn k = it.owner cfg ∧ (s.res k).op = .notStarted then some (s.setRes k { s.res k with op := .queued }) else none
    | _ => none
  | .on g k => match s.worker g with
    | .busy it .code => if cfg.conn k = it.owner cfg ∧ (s.res k).hasFn = false then some ((s.setRes k { s.res k with hasFn := true }).setWorker g (.busy it (.won k))) else none
    | _ => none
  | .goOn g => match s.worker g with
    | .busy it (.won k) => some ((s.setRes k { s.res k with fn := true }).setWorker g (.busy it (.wrote k)))
    | .busy it (.wrote k) => some (s.setWorker g (.busy it (if (s.res k).hasRet then .fire k else .code)))
    | .busy it (.fire k) => if (s.res k).called = true then some (s.setWorker g (.busy it .code)) else
        some ((s.setRes k { s.res k with called := true }).setWorker g
          (match s.target cfg (cfg.conn k) with
            | .outOfRange => after cfg
            | .never => .busy it (.send k none)
            | .chan h => .busy it (.send k (some h))))
    | .busy _ (.send _ (some h)) => if s.closed h = true then some (s.setWorker g (after cfg)) else none
    | _ => none
  | .push g k h => match s.worker g with
    | .busy it (.send k' (some h')) => if k' = k ∧ h' = h ∧ s.closed h = false ∧ (s.queue h).length < max cfg.cap 1 then some ((s.push h (.call k)).setWorker g (.busy it .code)) else none
    | _ => none
  | .opPush k h => if (s.res k).op = .send (some h) ∧ s.closed h = false ∧ (s.queue h).length < max cfg.cap 1 then some ((s.push h (.call k)).setRes k { s.res k with op := .done }) else none
  | .op k => match (s.res k).op with
    | .queued => some (s.setRes k { s.res k with op := .running })
    | .running => some (s.setRes k { s.res k with op := .won, hasRet := true })
    | .won => some (s.setRes k { s.res k with op := .stored })
    | .stored => some (s.setRes k { s.res k with op := if (s.res k).fn then .fire else .done })
    | .fire => if (s.res k).called = true then some (s.setRes k { s.res k with op := .done }) else
        some (s.setRes k { s.res k with called := true, op := match s.target cfg (cfg.conn k) with
          | .outOfRange => .done
          | .never => .send none
          | .chan h => .send (some h) })
    | .send (some h) => if s.closed h = true then some (s.setRes k { s.res k with op := .done }) else none
    | _ => none

theorem homeNext_step {cfg : Cfg} {s t : AsyncHome.State} {l : AsyncHome.Label} (h : homeNext cfg s l = some t) : AsyncHome.Step cfg s l t := by
  cases l <;> simp only [homeNext] at h
  case connect c w =>
    split at h
    · rename_i h1; cases h; exact .connect c w h1.1 h1.2
    · cases h
  case connectExtra c w =>
    split at h
    · rename_i h1; cases h; exact .connectExtra c w h1.1 h1.2.1 h1.2.2.1 h1.2.2.2.1 h1.2.2.2.2
    · cases h
  case release c =>
    split at h
    · cases h
    · rename_i w hw
      split at h
      · cases h
      · rename_i g hg
        split at h
        · rename_i h1; cases h; exact .release c w g h1.1 hw h1.2.1 hg h1.2.2
        · cases h
  case arrive c id =>
    split at h
    · rename_i w g hw hg
      split at h
      · rename_i h1; cases h; exact .arrive c id w g hw hg h1.1 h1.2
      · cases h
    · cases h
  case own c id =>
    split at h
    · rename_i h1
      cases h
      cases hn : s.num c with
      | none => exact absurd hn h1.2
      | some w => exact .own c id w h1.1 hn
    · cases h
  case take g it =>
    split at h
    · cases h
    · rename_i it' rest hq
      split at h
      · rename_i h1
        cases h
        obtain ⟨h1, h2⟩ := h1
        subst h2
        exact .take g it' rest h1 hq
      · cases h
  case quit g =>
    split at h
    · rename_i h1; cases h; exact .quit g h1.1 h1.2.1 h1.2.2
    · cases h
  case finish g it =>
    split at h
    · rename_i h1; cases h; exact .finish g it h1
    · cases h
  case process g k =>
    split at h
    · rename_i it hw
      split at h
      · rename_i h1; cases h; exact .process g k it hw h1.1 h1.2
      · cases h
    · cases h
  case on g k =>
    split at h
    · rename_i it hw
      split at h
      · rename_i h1; cases h; exact .on g k it hw h1.1 h1.2
      · cases h
    · cases h
  case goOn g =>
    split at h
    · rename_i it k hw; cases h; exact .onStore g k it hw
    · rename_i it k hw; cases h; exact .onLoad g k it hw
    · rename_i it k hw
      split at h
      · rename_i h1; cases h; exact .onLose g k it hw h1
      · rename_i h1; cases h; exact .onWin g k it hw (by simpa using h1)
    · rename_i it k h' hw
      split at h
      · rename_i h1; cases h; exact .onPanic g k h' it hw h1
      · cases h
    · cases h
  case push g k h' =>
    split at h
    · rename_i it k' h'' hw
      split at h
      · rename_i h1
        cases h
        obtain ⟨e1, e2, h3, h4⟩ := h1
        subst e1; subst e2
        exact .onSend g k' h'' it hw h3 h4
      · cases h
    · cases h
  case opPush k h' =>
    split at h
    · rename_i h1; cases h; exact .opSend k h' h1.1 h1.2.1 h1.2.2
    · cases h
  case op k =>
    split at h
    · rename_i ho; cases h; exact .opBegin k ho
    · rename_i ho; cases h; exact .opWin k ho
    · rename_i ho; cases h; exact .opStore k ho
    · rename_i ho; cases h; exact .opRead k ho
    · rename_i ho
      split at h
      · rename_i h1; cases h; exact .opLose k ho h1
      · rename_i h1; cases h; exact .opFire k ho (by simpa using h1)
    · rename_i h' ho
      split at h
      · rename_i h1; cases h; exact .opPanic k h' ho h1
      · cases h
    · cases h

def homeRun (cfg : Cfg) : AsyncHome.State → List AsyncHome.Label → Option AsyncHome.State
  | s, [] => some s
  | s, l :: ls => match homeNext cfg s l with
    | none => none
    | some t => homeRun cfg t ls

theorem homeRun_steps {cfg : Cfg} {ls : List AsyncHome.Label} : ∀ {s t : AsyncHome.State}, homeRun cfg s ls = some t → Steps (AsyncHome.Step cfg) s ls t := by
  induction ls with
  | nil => intro s t h; cases h; exact .nil _
  | cons l ls ih =>
    intro s t h
    unfold homeRun at h
    split at h
    · cases h
    · rename_i t' ht
      exact .cons (homeNext_step ht) (ih h)

theorem homeRun_of {cfg : Cfg} {ls : List AsyncHome.Label} (p : AsyncHome.State → Bool) (h : (homeRun cfg (AsyncHome.init cfg) ls).any p = true) :
    ∃ t, Steps (AsyncHome.Step cfg) (AsyncHome.init cfg) ls t ∧ p t = true := by
  cases ht : homeRun cfg (AsyncHome.init cfg) ls with
  | none => rw [ht] at h; cases h
  | some t => rw [ht] at h; exact ⟨t, homeRun_steps ht, h⟩

/-- A pool of one worker whose channel has room for one. -/
def tinyPool : Cfg := { pool := 1, taskLen := 1, cap := 1, dynamic := false, conn := fun _ => 0 }

/-- The operation has ended, then the channel fills up, then the handler registers its callback. -/
def jamRun : List AsyncHome.Label :=
  [.connect 0 0, .arrive 0 0, .take 0 (.msg 0 0), .process 0 0, .op 0, .op 0, .op 0, .op 0, .arrive 0 1, .on 0 0, .goOn 0, .goOn 0, .goOn 0]

/-- **C107, refuted:** an operation has ended and its callback is registered, but the callback is never run: the handler that registers it waits for ever for room on the channel of its own worker. -/
theorem C107_refuted : ∃ (cfg : Cfg) (ls : List AsyncHome.Label) (s : AsyncHome.State), FixedPool cfg ∧ Steps (AsyncHome.Step cfg) (AsyncHome.init cfg) ls s ∧
    (s.res 0).hasRet = true ∧ (s.res 0).fn = true ∧ (∀ g, AsyncHome.Label.take g (.call 0) ∉ ls) ∧
    ∀ ls' t, Steps (AsyncHome.Step cfg) s ls' t → ∀ g, AsyncHome.Label.take g (.call 0) ∉ ls' := by
  have hf : FixedPool tinyPool := ⟨by decide, by decide, rfl⟩
  obtain ⟨s, h, hp⟩ := homeRun_of (cfg := tinyPool) (ls := jamRun)
    (fun s => decide ((s.res 0).hasRet = true ∧ (s.res 0).fn = true ∧ s.worker 0 = .busy (.msg 0 0) (.send 0 (some 0)) ∧ s.queue 0 = [.msg 0 1])) (by decide +kernel)
  simp only [decide_eq_true_eq] at hp
  refine ⟨tinyPool, jamRun, s, hf, h, hp.1, hp.2.1, ?_, ?_⟩
  · intro g hm
    simp [jamRun] at hm
  · intro ls' t h' g hm
    have hj : Jam tinyPool s 0 := ⟨_, _, hp.2.2.1, by unfold State.room; rw [hp.2.2.2]; decide⟩
    obtain ⟨_, hno⟩ := C107_jam tinyPool hf jamRun s h 0 hj ls' t h'
    -- only worker 0 exists
    have hi := h.invariant (P := HomeInv tinyPool) (fun _ _ _ hp hs => home_step hf hs hp) (home_init _)
    have hall := h'.invariant_trace (P := fun ls t => HomeInv tinyPool t ∧ ∀ g it, AsyncHome.Label.take g it ∈ ls → g = 0)
      (fun ls s l t hp hs => by
        refine ⟨home_step hf hs hp.1, fun g it hm => ?_⟩
        rw [List.mem_append, List.mem_singleton] at hm
        rcases hm with hm | hm
        · exact hp.2 g it hm
        · subst hm
          cases hs with
          | take _ _ rest _ h2 =>
            have := (hp.1.queued g it (by rw [h2]; exact List.mem_cons_self)).2
            simp only [tinyPool] at this
            omega) ⟨hi, by simp⟩
    have := hall.2 g _ hm
    subst this
    exact hno _ hm

/-- **C107 (jams happen).** This is possible with every fixed pool, whatever the capacity of the channels. -/
theorem C107_jammed (cfg : Cfg) (hd : FixedPool cfg) : ∃ (ls : List AsyncHome.Label) (s : AsyncHome.State), Steps (AsyncHome.Step cfg) (AsyncHome.init cfg) ls s ∧
    (s.res 0).hasRet = true ∧ (s.res 0).fn = true ∧ s.worker 0 = .busy (.msg (cfg.conn 0) 0) (.send 0 (some 0)) ∧ Jam cfg s 0 := by
  have hp := hd.some
  have hfit := hd.fits
  have hcap : 0 < max cfg.cap 1 := by omega
  have hcur0 : (AsyncHome.init cfg).cur 0 = some 0 := if_pos hp
  have tgt : ∀ s : AsyncHome.State, s.num (cfg.conn 0) = some 0 → s.cur 0 = some 0 → s.target cfg (cfg.conn 0) = .chan 0 := by
    intro s h1 h2
    unfold State.target
    rw [h1]
    simp only [Option.getD_some]
    rw [if_neg (by omega), h2]
  have start : ∃ ls s, Steps (AsyncHome.Step cfg) (AsyncHome.init cfg) ls s ∧ s.num (cfg.conn 0) = some 0 ∧ s.cur 0 = some 0 ∧ s.closed 0 = false ∧ s.queue 0 = [] ∧
      s.worker 0 = .busy (.msg (cfg.conn 0) 0) .code ∧ s.res 0 = { hasRet := true, op := .done } := by
    refine ⟨_, _, .cons (.connect (cfg.conn 0) 0 rfl (.inl hp)) (.cons (.arrive (cfg.conn 0) 0 0 0 ?_ ?_ rfl hcap) (.cons (.take 0 (.msg (cfg.conn 0) 0) [] ?_ ?_) (.cons (.process 0 0 (.msg (cfg.conn 0) 0) ?_ rfl rfl)
      (.cons (.opBegin 0 ?_) (.cons (.opWin 0 ?_) (.cons (.opStore 0 ?_) (.cons (.opRead 0 ?_) (.nil _)))))))), ?_, ?_, ?_, ?_, ?_, ?_⟩
    · exact if_pos rfl
    · exact tgt _ (if_pos rfl) hcur0
    · exact if_pos hp
    all_goals first | exact hcur0 | (simp [upd, State.push, State.setRes, AsyncHome.init])
  obtain ⟨ls, s, h, a, b, c, d, e, f⟩ := start
  have fill : ∀ n, n ≤ max cfg.cap 1 → ∃ ls s, Steps (AsyncHome.Step cfg) (AsyncHome.init cfg) ls s ∧ s.num (cfg.conn 0) = some 0 ∧ s.cur 0 = some 0 ∧ s.closed 0 = false ∧ (s.queue 0).length = n ∧
      s.worker 0 = .busy (.msg (cfg.conn 0) 0) .code ∧ s.res 0 = { hasRet := true, op := .done } := by
    intro n
    induction n with
    | zero => intro _; exact ⟨ls, s, h, a, b, c, by rw [d]; rfl, e, f⟩
    | succ n ih =>
      intro hn
      obtain ⟨ls, s, h, a, b, c, d, e, f⟩ := ih (by omega)
      exact ⟨_, _, h.snoc (.arrive (cfg.conn 0) (n + 1) 0 0 a (tgt s a b) c (by unfold State.room; omega)), a, b, c, by simp [State.push, upd, d], e, f⟩
  obtain ⟨ls, s, h, a, b, c, d, e, f⟩ := fill (max cfg.cap 1) (Nat.le_refl _)
  have s1 := h.snoc (.on 0 0 (.msg (cfg.conn 0) 0) e rfl (by rw [f]))
  have s2 := s1.snoc (.onStore 0 0 (.msg (cfg.conn 0) 0) (by simp [State.setWorker, upd]))
  have s3 := s2.snoc (.onLoad 0 0 (.msg (cfg.conn 0) 0) (by simp [State.setWorker, upd]))
  have s4 := s3.snoc (.onWin 0 0 (.msg (cfg.conn 0) 0) (by simp [State.setWorker, State.setRes, upd, f]) (by simp [State.setWorker, State.setRes, upd, f]))
  refine ⟨_, _, s4, ?_, ?_, ?_, ?_⟩
  · simp [State.setWorker, State.setRes, upd, f]
  · simp [State.setWorker, State.setRes, upd, f]
  · rw [tgt _ (by exact a) (by exact b)]; simp [State.setWorker, upd]
  · refine ⟨.msg (cfg.conn 0) 0, 0, by rw [tgt _ (by exact a) (by exact b)]; simp [State.setWorker, upd], ?_⟩
    show ¬ (s.queue 0).length < _
    omega

/-- A client: no pool, ten channels that are nil. -/
def clientPool : Cfg := { pool := 0, taskLen := 10, cap := 1, dynamic := false, conn := fun _ => 0 }

/-- **C107, refuted for clients:** the operation has ended and the callback is registered; it is never run (`C107_noPool`), and the goroutine of the operation waits at a nil channel for ever. -/
theorem C107_client_refuted : ∃ (ls : List AsyncHome.Label) (s : AsyncHome.State), Steps (AsyncHome.Step clientPool) (AsyncHome.init clientPool) ls s ∧
    (s.res 0).hasRet = true ∧ (s.res 0).fn = true ∧ (s.res 0).op = .send none ∧
    (∀ ls' t, Steps (AsyncHome.Step clientPool) s ls' t → (t.res 0).op = .send none ∧ ∀ g, AsyncHome.Label.take g (.call 0) ∉ ls') := by
  obtain ⟨s, h, hp⟩ := homeRun_of (cfg := clientPool) (ls := [.connect 0 0, .own 0 0, .process 0 0, .on 0 0, .goOn 0, .goOn 0, .finish 0 (.msg 0 0), .op 0, .op 0, .op 0, .op 0, .op 0])
    (fun s => decide ((s.res 0).hasRet = true ∧ (s.res 0).fn = true ∧ (s.res 0).op = .send none)) (by decide +kernel)
  simp only [decide_eq_true_eq] at hp
  refine ⟨_, s, h, hp.1, hp.2.1, hp.2.2, fun ls' t h' => ⟨?_, fun g hm => ?_⟩⟩
  · refine h'.invariant (P := fun s => (s.res 0).op = .send none) ?_ hp.2.2
    intro s l t hp hs
    cases hs <;> simp only [State.setRes, State.setWorker, State.push, upd] <;> grind
  · exact C107_noPool clientPool rfl _ _ (h.append h') g _ (List.mem_append_right _ hm)

/-- Dynamic binding with one worker, and numbers for two more. -/
def bindingPool : Cfg := { pool := 1, taskLen := 3, cap := 2, dynamic := true, conn := fun _ => 0 }

/-- **C107, refuted for dynamic binding (overlap):** a callback of a connection is run by one worker while another worker runs a handler of the same connection: the number of the connection was given to a second one as
well, with a new channel. -/
theorem C107_overlap_refuted : ∃ (cfg : Cfg) (ls : List AsyncHome.Label) (s : AsyncHome.State), 0 < cfg.pool ∧ cfg.pool ≤ cfg.taskLen ∧ Steps (AsyncHome.Step cfg) (AsyncHome.init cfg) ls s ∧
    ∃ g g', g ≠ g' ∧ s.worker g = .busy (.msg (cfg.conn 0) 0) .code ∧ s.worker g' = .busy (.call 0) .code := by
  obtain ⟨s, h, hp⟩ := homeRun_of (cfg := bindingPool) (ls := [.connectExtra 0 1, .arrive 0 0, .take 1 (.msg 0 0), .process 1 0, .on 1 0, .goOn 1, .goOn 1, .connectExtra 1 1, .op 0, .op 0, .op 0, .op 0, .op 0, .opPush 0 2,
      .take 2 (.call 0)])
    (fun s => decide (s.worker 1 = .busy (.msg 0 0) .code ∧ s.worker 2 = .busy (.call 0) .code)) (by decide +kernel)
  simp only [decide_eq_true_eq] at hp
  exact ⟨bindingPool, _, s, by decide, by decide, h, 1, 2, by decide, hp.1, hp.2⟩

/-- **C107, refuted for dynamic binding (lost):** a callback of a connection that has not ended is lost: another connection had been given the same number and its end has closed the channel. -/
theorem C107_lost_refuted : ∃ (cfg : Cfg) (ls : List AsyncHome.Label) (s : AsyncHome.State), 0 < cfg.pool ∧ cfg.pool ≤ cfg.taskLen ∧ Steps (AsyncHome.Step cfg) (AsyncHome.init cfg) ls s ∧
    (s.res 0).hasRet = true ∧ (s.res 0).fn = true ∧ AsyncHome.Label.release (cfg.conn 0) ∉ ls ∧ (∀ g, AsyncHome.Label.take g (.call 0) ∉ ls) ∧
    ∀ ls' t, Steps (AsyncHome.Step cfg) s ls' t → ∀ g, AsyncHome.Label.take g (.call 0) ∉ ls' := by
  have hR : (homeRun bindingPool (AsyncHome.init bindingPool) [.connectExtra 0 1, .arrive 0 0, .take 1 (.msg 0 0), .process 1 0, .on 1 0, .goOn 1, .goOn 1, .finish 1 (.msg 0 0), .connectExtra 1 1, .release 1, .op 0, .op 0, .op 0,
      .op 0, .op 0, .op 0]).any (fun s => decide ((s.res 0).hasRet = true ∧ (s.res 0).fn = true ∧ (s.res 0).called = true ∧ (s.res 0).op = .done)) = true := by decide +kernel
  have hL : ∃ s, homeRun bindingPool (AsyncHome.init bindingPool) [.connectExtra 0 1, .arrive 0 0, .take 1 (.msg 0 0), .process 1 0, .on 1 0, .goOn 1, .goOn 1, .finish 1 (.msg 0 0), .connectExtra 1 1, .release 1, .op 0, .op 0, .op 0,
      .op 0, .op 0, .op 0] = some s ∧ (∀ g it pc, s.worker g ≠ .busy it pc) ∧ ∀ g, s.queue g = [] := by
    refine ⟨_, rfl, ?_, ?_⟩
    · intro g it pc
      by_cases h1 : g = 1
      · subst h1; nofun
      · by_cases h2 : g = 2
        · subst h2; nofun
        · by_cases h3 : g = 0
          · subst h3; nofun
          · simp [upd, h1, h2, h3, AsyncHome.init, State.setWorker, State.setRes, State.push, bindingPool]
    · intro g
      by_cases h1 : g = 1
      · subst h1; rfl
      · simp [upd, h1, AsyncHome.init, State.setWorker, State.setRes, State.push, bindingPool]
  obtain ⟨s, hs, h1, h2⟩ := hL
  rw [hs] at hR
  simp only [Option.any_some, decide_eq_true_eq] at hR
  refine ⟨bindingPool, _, s, by decide, by decide, homeRun_steps hs, hR.1, hR.2.1, by decide, by intro g hm; simp at hm, ?_⟩
  intro ls' t h' g
  exact lost_ever ⟨hR.2.2.1, hR.2.2.2, fun g it h => h1 g it _, fun g => by rw [h2]; simp⟩ h' g

/-! ## The hypotheses of `C107_partial` can be met -/

/-- Nobody has anything to do. -/
structure Quiet (s : AsyncHome.State) : Prop where
  worker : ∀ g it pc, s.worker g ≠ .busy it pc
  queue : ∀ g, s.queue g = []
  op : ∀ k, (s.res k).op = .notStarted ∨ (s.res k).op = .done

theorem quiet_fair {cfg : Cfg} {e : Exec (AsyncHome.Step cfg)} {t : AsyncHome.State} {N : Nat} (h : ∀ n, N ≤ n → e.run n = t) (hq : Quiet t) : HomeFair e := by
  obtain ⟨a, b, c⟩ := hq
  refine ⟨⟨fun g => Exec.weakFair_of_end h ?_, fun g => Exec.weakFair_of_end h ?_, fun g => Exec.weakFair_of_end h ?_, fun g => Exec.strongFair_of_end h ?_⟩, fun k => Exec.weakFair_of_end h ?_,
    fun k => Exec.strongFair_of_end h ?_⟩ <;> rintro ⟨l, u, hA, hs⟩ <;> cases hs <;> grind

def homeRunAll (cfg : Cfg) (q : AsyncHome.State → Bool) : AsyncHome.State → List AsyncHome.Label → Option AsyncHome.State
  | s, [] => if q s then some s else none
  | s, l :: ls => if q s then match homeNext cfg s l with
    | none => none
    | some t => homeRunAll cfg q t ls else none

theorem homeRunAll_steps {cfg : Cfg} {q : AsyncHome.State → Bool} {ls : List AsyncHome.Label} :
    ∀ {s t : AsyncHome.State}, homeRunAll cfg q s ls = some t → StepsAll (AsyncHome.Step cfg) (q · = true) s ls t := by
  induction ls with
  | nil =>
    intro s t h
    unfold homeRunAll at h
    split at h
    · rename_i hq; cases h; exact .nil hq
    · cases h
  | cons l ls ih =>
    intro s t h
    unfold homeRunAll at h
    split at h
    · rename_i hq
      split at h
      · cases h
      · rename_i t' ht
        exact .cons hq (homeNext_step ht) (ih h)
    · cases h

/-- One worker, room for two. -/
def smallPool : Cfg := { pool := 1, taskLen := 1, cap := 2, dynamic := false, conn := fun _ => 0 }

/-- Two results: the operation of one ends before its callback is registered, that of the other after. -/
def bothOrders : List AsyncHome.Label :=
  [.connect 0 0, .arrive 0 0, .take 0 (.msg 0 0), .process 0 0, .process 0 1, .op 0, .op 0, .op 0, .op 0, .on 0 0, .goOn 0, .goOn 0, .goOn 0, .push 0 0 0, .on 0 1, .goOn 0, .goOn 0, .finish 0 (.msg 0 0),
    .take 0 (.call 0), .op 1, .op 1, .op 1, .op 1, .op 1, .opPush 1 0, .finish 0 (.call 0), .take 0 (.call 1), .finish 0 (.call 1)]

example : ∃ (cfg : Cfg) (e : Exec (AsyncHome.Step cfg)) (n : Nat), FixedPool cfg ∧ e.run 0 = AsyncHome.init cfg ∧ HomeFair e ∧ (∀ k, k < 2 → ((e.run n).res k).op ≠ .notStarted ∧ ((e.run n).res k).hasFn = true) ∧
    (e.run n).num (cfg.conn 0) = some 0 ∧ ∀ m, ¬ Jam cfg (e.run m) 0 := by
  have hL : ∃ s, homeRunAll smallPool (fun s => decide ((s.queue 0).length < 2)) (AsyncHome.init smallPool) bothOrders = some s ∧ Quiet s ∧
      (∀ k, k < 2 → (s.res k).op ≠ .notStarted ∧ (s.res k).hasFn = true) ∧ s.num 0 = some 0 := by
    refine ⟨_, rfl, ⟨?_, ?_, ?_⟩, ?_, rfl⟩
    · intro g it pc
      by_cases h1 : g = 0
      · subst h1; nofun
      · simp [upd, h1, AsyncHome.init, State.setWorker, State.setRes, State.push, smallPool]
    · intro g
      by_cases h1 : g = 0
      · subst h1; rfl
      · simp [upd, h1, AsyncHome.init, State.setWorker, State.setRes, State.push, smallPool]
    · intro k
      by_cases h1 : k = 0
      · subst h1; exact .inr rfl
      · by_cases h2 : k = 1
        · subst h2; exact .inr rfl
        · left; simp [upd, h1, h2, AsyncHome.init, State.setWorker, State.setRes, State.push, smallPool]
    · intro k hk
      have : k = 0 ∨ k = 1 := by omega
      rcases this with h | h <;> subst h <;> exact ⟨nofun, rfl⟩
  obtain ⟨s, h1, h2, h3, h4⟩ := hL
  obtain ⟨e, e1, _, e3, e4⟩ := Exec.ofStepsAll (homeRunAll_steps h1)
  refine ⟨smallPool, e, bothOrders.length, ⟨by decide, by decide, rfl⟩, e1, quiet_fair e4 h2, ?_, ?_, ?_⟩
  · rw [e4 _ (Nat.le_refl _)]; exact h3
  · rw [e4 _ (Nat.le_refl _)]; exact h4
  · rintro m ⟨it, k, _, hr⟩
    have := e3 m
    simp only [decide_eq_true_eq] at this
    exact hr this

/-- Two workers: the one has a callback, the other a message of another connection. -/
example : ∃ (cfg : Cfg) (ls : List AsyncHome.Label) (s : AsyncHome.State), FixedPool cfg ∧ Steps (AsyncHome.Step cfg) (AsyncHome.init cfg) ls s ∧
    s.worker 0 = .busy (.call 0) .code ∧ s.worker 1 = .busy (.msg 1 0) .code ∧ ls.countP (beginsCall 0) = 1 := by
  obtain ⟨s, h, hp⟩ := homeRun_of (cfg := { pool := 2, taskLen := 2, cap := 2, dynamic := false, conn := fun k => k })
    (ls := [.connect 0 0, .connect 1 1, .arrive 1 0, .arrive 0 0, .take 0 (.msg 0 0), .process 0 0, .on 0 0, .goOn 0, .goOn 0, .finish 0 (.msg 0 0), .op 0, .op 0, .op 0, .op 0, .op 0, .opPush 0 0,
      .take 1 (.msg 1 0), .take 0 (.call 0)])
    (fun s => decide (s.worker 0 = .busy (.call 0) .code ∧ s.worker 1 = .busy (.msg 1 0) .code)) (by decide +kernel)
  simp only [decide_eq_true_eq] at hp
  exact ⟨_, _, s, ⟨by decide, by decide, rfl⟩, h, hp.1, hp.2, by decide⟩

end Zinx.Props
