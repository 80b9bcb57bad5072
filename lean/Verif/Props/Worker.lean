import Verif.Lemmas.Worker

/-! # C26 to C30 and C70: workers -/

namespace Zinx.Props

open Zinx Zinx.Worker

/-! ## C26 -/

/-- **C26 (order, once).** In every execution, for every worker: the requests put on its queue are those it began with, in the same order,
followed by those still queued; it began with those it is through with, in the same order, plus at most the one it is busy with. So
each request is processed once and in queue order. No panic of user code ends the worker. -/
theorem C26_processed_once_in_order {slicesMode : Bool} {wid : Nat → Nat} {cap : Nat} {todo : Nat → List Req} {ls : List Act} {s : State}
    (h : Steps (Step slicesMode wid cap) (initial todo) ls s) (w : Nat) :
    (∃ queued, submitted w ls = started w ls ++ queued) ∧
    (∃ cur, started w ls = finished w ls ++ cur ∧ cur.length ≤ 1) ∧ s.worker w ≠ .dead := by
  obtain ⟨h1, h2, h3⟩ := worker_inv h w
  refine ⟨⟨_, h1⟩, ⟨_, h2, ?_⟩, h3⟩
  cases s.worker w <;> simp [current]

/-- **C26 (every request is processed).** From every reachable state the worker, if only it gets to run and user code ends, processes everything
that was put on its queue. -/
theorem C26_all_processed {slicesMode : Bool} {wid : Nat → Nat} {cap : Nat} {todo : Nat → List Req} {ls : List Act} {s : State}
    (h : Steps (Step slicesMode wid cap) (initial todo) ls s) (w : Nat) :
    ∃ ls' t, Steps (Step slicesMode wid cap) s ls' t ∧ (∀ a ∈ ls', (∃ r, a = .start w r) ∨ ∃ r o, a = .finish w r o) ∧
      finished w (ls ++ ls') = submitted w ls := by
  obtain ⟨_, _, h3⟩ := worker_inv h w
  obtain ⟨ls', t, k1, k2, k3, k4⟩ := drain (b := slicesMode) (wid := wid) w _ s h3 rfl
  refine ⟨ls', t, k1, k4, ?_⟩
  obtain ⟨a1, a2, _⟩ := worker_inv (h.append k1) w
  rw [k3] at a2
  rw [k2] at a1
  simp only [current, List.append_nil] at a1 a2
  have e : submitted w (ls ++ ls') = submitted w ls := by
    have nothing : submitted w ls' = [] := by
      unfold submitted
      rw [List.filterMap_eq_nil_iff]
      intro a ha
      rcases k4 a ha with ⟨r, rfl⟩ | ⟨r, o, rfl⟩ <;> rfl
    have split : submitted w (ls ++ ls') = submitted w ls ++ submitted w ls' := by
      unfold submitted; rw [List.filterMap_append]
    rw [split, nothing, List.append_nil]
  rw [← e, a1, a2]

/-- An execution with a panicking first request, a message without handler, and a functional request. -/
example : ∃ ls s, Steps (Step false (fun c => c % 2) 2) (initial fun c => if c = 3 then [⟨some 3, 0, .message⟩, ⟨some 3, 1, .message⟩] else []) ls s ∧
    finished 1 ls = [⟨some 3, 0, .message⟩, ⟨none, 7, .func⟩] ∧ started 1 ls = [⟨some 3, 0, .message⟩, ⟨none, 7, .func⟩] ∧
    submitted 1 ls = [⟨some 3, 0, .message⟩, ⟨none, 7, .func⟩, ⟨some 3, 1, .message⟩] := by
  refine ⟨[.submit 1 ⟨some 3, 0, .message⟩, .submit 1 ⟨none, 7, .func⟩, .start 1 ⟨some 3, 0, .message⟩, .submit 1 ⟨some 3, 1, .message⟩,
    .finish 1 ⟨some 3, 0, .message⟩ .panicked, .start 1 ⟨none, 7, .func⟩, .finish 1 ⟨none, 7, .func⟩ .panicked], _,
    .cons (.deliver _ 3 _ _ rfl (by decide)) (.cons (.external _ _ _ rfl (by decide)) (.cons (.take _ _ _ [⟨none, 7, .func⟩] rfl rfl)
      (.cons (.deliver _ 3 _ [] rfl (by decide)) (.cons (.finish _ _ _ _ rfl) (.cons (.take _ _ _ [⟨some 3, 1, .message⟩] rfl rfl)
      (.cons (.finish _ _ _ _ rfl) (.nil _))))))), by decide, by decide, by decide⟩

/-! ## C27 -/

/-- **C27.** Whatever worker each connection has (fixed while it lives), for every schedule: the handling events of the messages of connection `c`
are the beginning of: first message begins, first message ends, second message begins, ... in the order the reader delivers them. -/
theorem C27_fifo_one_at_a_time {slicesMode : Bool} {wid : Nat → Nat} {cap : Nat} {todo : Nat → List Req} {ls : List Act} {s : State}
    (hown : ∀ c r, r ∈ todo c → r.conn = some c) (h : Steps (Step slicesMode wid cap) (initial todo) ls s) (c : Nat) :
    handlingOf c ls <+: sequential (todo c ++ arrivedAt c ls) := by
  obtain ⟨_, _, done, h1, h2⟩ := connInv hown h c
  rw [h1, ← h2]
  unfold sequential
  simp only [List.flatMap_append, List.append_assoc]
  rw [List.prefix_append_right_inj]
  unfold openEv openReq
  split
  · rename_i r hr
    by_cases hc : r.conn = some c
    · simp [hc]
    · simp [hc]
  · simp

/-- **C27 (hash mode).** The default mode: worker number is the connection ID modulo the pool size. -/
theorem C27_hash_mode {slicesMode : Bool} (cfg : Cfg) (_ : cfg.mode = .hash) {cap : Nat} {todo : Nat → List Req} {ls : List Act} {s : State}
    (hown : ∀ c r, r ∈ todo c → r.conn = some c) (h : Steps (Step slicesMode (fallback cfg) cap) (initial todo) ls s) (c : Nat) :
    handlingOf c ls <+: sequential (todo c ++ arrivedAt c ls) := C27_fifo_one_at_a_time hown h c

/-- **C27 (worker number).** In hash mode the worker of a connection is its ID modulo the number of workers, and 0 when there are none. -/
theorem C27_hash_number (cfg : Cfg) (hm : cfg.mode = .hash) {ch : Nat → Chan} {ls : List AAct} {s : AState}
    (h : Steps (AStep cfg) (assignInit cfg ch) ls s) (n w : Nat) (hn : (n, Phase.holds w) ∈ s.conns) :
    (cfg.pool = 0 → w = 0) ∧ (0 < cfg.pool → w = n % cfg.pool) := by
  have inv : ∀ n p, (n, p) ∈ s.conns → p ≠ .wantExtra ∧ ∀ w, p = .holds w → w = if cfg.pool = 0 then 0 else n % cfg.pool := by
    refine h.invariant (P := fun s : AState => ∀ n p, (n, p) ∈ s.conns →
      p ≠ .wantExtra ∧ ∀ w, p = .holds w → w = if cfg.pool = 0 then 0 else n % cfg.pool) ?_ (by intro n p h; simp [assignInit] at h)
    intro s l t hi hs
    have set : ∀ (m : Nat) (q : Phase), q ≠ .wantExtra → (∀ w, q = .holds w → w = if cfg.pool = 0 then 0 else m % cfg.pool) →
        ∀ n p, (n, p) ∈ setPhase s.conns m q → p ≠ .wantExtra ∧ ∀ w, p = .holds w → w = if cfg.pool = 0 then 0 else n % cfg.pool := by
      intro m q h1 h2 n p hp
      unfold setPhase at hp
      rw [List.mem_map] at hp
      obtain ⟨⟨a, b⟩, hab, he⟩ := hp
      by_cases e : a = m
      · simp [e] at he; obtain ⟨rfl, rfl⟩ := he; exact ⟨h1, h2⟩
      · simp [e] at he; obtain ⟨rfl, rfl⟩ := he; exact hi _ _ hab
    cases hs with
    | accept h =>
      intro n p hp
      rcases List.mem_cons.1 hp with e | hp
      · cases e; exact ⟨nofun, nofun⟩
      · exact hi n p hp
    | hash n hm' h => exact set n _ nofun (by intro w e; cases e; rfl)
    | free n w hm' h hw => exact absurd hm hm'
    | bindNone n hm' h hw => rw [hm] at hm'; cases hm'
    | look n hm' h hw => rw [hm] at hm'; cases hm'
    | extra n w h hw => exact absurd rfl (hi _ _ h).1
    | extraNone n h hw => exact absurd rfl (hi _ _ h).1
    | remove n w h hm' => exact hi
    | release s' n w h hm' hf =>
      unfold freeWorker at hf
      rw [hm] at hf
      cases hf
      exact set n _ nofun nofun
    | crash n w p h hm' hf =>
      unfold freeWorker at hf
      rw [hm] at hf
      cases hf
  have := (inv n _ hn).2 w rfl
  exact ⟨fun h0 => by rw [if_pos h0] at this; exact this, fun h0 => by rw [if_neg (by omega)] at this; exact this⟩

example : ∃ s, Steps (AStep { mode := .hash, workerPoolSize := 10, maxConn := 3, client := false })
    (assignInit { mode := .hash, workerPoolSize := 10, maxConn := 3, client := false } fun _ => .nil) [.accept 1, .take 1 1] s ∧
    (1, Phase.holds 1) ∈ s.conns :=
  ⟨_, .cons (.accept _ (by decide)) (.cons (.hash _ 1 rfl (by decide)) (.nil _)), by decide⟩

/-- **C70 refuted.** Without worker pool (a client, or a server with pool size 0) there is a goroutine per message: the second message of a
connection may begin before the first, and while the first is being handled. -/
theorem C70_refuted_order (a b : Req) (hab : a ≠ b) : ∃ s, Steps NoPoolStep ([], [])
    [.submit 0 a, .submit 0 b, .start 0 b, .start 0 a, .finish 0 b .returned, .finish 0 a .returned] s := by
  refine ⟨([], []), .cons (.deliver _ _ _) (.cons (.deliver _ _ _) (.cons (.start _ _ _ (by simp)) ?_))⟩
  have e : ([] ++ [a] ++ [b]).erase b = [a] := by
    simp [hab]
  rw [e]
  refine .cons (.start _ _ _ (by simp)) ?_
  have e2 : [a].erase a = [] := by simp
  rw [e2]
  refine .cons (.finish _ _ _ _ (by simp)) ?_
  have e3 : ([] ++ [b] ++ [a]).erase b = [a] := by simp
  rw [e3]
  refine .cons (.finish _ _ _ _ (by simp)) ?_
  rw [e2]
  exact .nil _

/-- **C70 (partial).** Without worker pool every message is handled as often as it was delivered: begun, plus those whose goroutine has not
started, is delivered; ended, plus those running, is begun. Missing: the order and one at a time, refuted above. -/
theorem C70_partial {ls : List Act} {s : List Req × List Req} (h : Steps NoPoolStep ([], []) ls s) (r : Req) :
    (submitted 0 ls).count r = (started 0 ls).count r + s.1.count r ∧
    (started 0 ls).count r = (finished 0 ls).count r + s.2.count r := by
  refine Steps.invariant_trace (P := fun ls s => (submitted 0 ls).count r = (started 0 ls).count r + s.1.count r ∧
    (started 0 ls).count r = (finished 0 ls).count r + s.2.count r) ?_ h (by simp [submitted, started, finished])
  intro ls s l t ⟨i1, i2⟩ hstep
  cases hstep with
  | deliver a b r' =>
    simp only [submitted, started, finished, List.filterMap_append] at *
    simp [List.count_append] at *
    omega
  | start a b r' hm =>
    have := List.count_erase (a := r) (b := r') (l := a)
    simp only [submitted, started, finished, List.filterMap_append] at *
    by_cases e : r' = r
    · subst e; simp [List.count_append] at *; have hc := List.count_pos_iff.mpr hm; omega
    · simp [List.count_append, e] at *; omega
  | finish a b r' o hm =>
    have := List.count_erase (a := r) (b := r') (l := b)
    simp only [submitted, started, finished, List.filterMap_append] at *
    by_cases e : r' = r
    · subst e; simp [List.count_append] at *; have hc := List.count_pos_iff.mpr hm; omega
    · simp [List.count_append, e] at *; omega

/-! ## C28 -/

/-- **C28 (partial).** In bind mode, in every execution in which a worker is only asked for while fewer than `MaxConn` connections hold one: no
two connections hold the same worker, whatever the order of accepts, starts and closes. Missing: the code does not ensure that condition,
because a closing connection leaves the manager before it gives its worker back; see the refutations. -/
theorem C28_partial (cfg : Cfg) (hm : cfg.mode = .bind) {ch : Nat → Chan} {ls : List AAct} {s : AState}
    (h : Steps (CalmStep cfg) (assignInit cfg ch) ls s) (w n1 n2 : Nat) (h1 : (n1, Phase.holds w) ∈ s.conns) (h2 : (n2, Phase.holds w) ∈ s.conns) :
    n1 = n2 := by
  have inv : BindInv cfg s := h.invariant (P := BindInv cfg) (fun _ _ _ hp hs => bindInv_step hm _ _ _ hp hs) (bindInv_init cfg hm ch)
  have hn : (s.free ++ heldWorkers s.conns).Nodup := inv.2.1.nodup_iff.mpr List.nodup_range
  rw [List.nodup_append] at hn
  exact held_unique hn.2.1 h1 h2

/-- Two workers, two connections served at most. -/
def bindCfg : Cfg := { mode := .bind, workerPoolSize := 10, maxConn := 2, client := false }

/-- The server after `StartWorkerPool`. -/
def bindStart : AState := assignInit bindCfg fun i => if i < 2 then .opened i else .nil

example : startWorkerPool bindCfg = .ok bindStart.chan := rfl

/-- **C28 refuted.** With `MaxConn` 2: two connections are served by workers 0 and 1; the first closes and has left the manager but not yet
given back its worker; a third is accepted, finds no free worker and is given worker 3 mod 2 = 1, which serves the live second one. -/
theorem C28_refuted : ∃ s, Steps (AStep bindCfg) bindStart
    [.accept 1, .take 1 0, .accept 2, .take 2 1, .remove 1, .accept 3, .take 3 1] s ∧ Serves s 1 2 ∧ Serves s 1 3 := by
  refine ⟨_, .cons (.accept _ (by decide)) (.cons (.free _ 1 0 (by decide) (by decide) (by decide)) (.cons (.accept _ (by decide))
    (.cons (.free _ 2 1 (by decide) (by decide) (by decide)) (.cons (.remove _ 1 0 (by decide) (by decide)) (.cons (.accept _ (by decide))
    (.cons (.bindNone _ 3 rfl (by decide) (by decide)) (.nil _))))))), ?_, ?_⟩ <;> constructor <;> decide

/-- **C28 refuted (no race any more).** After such a collision the shared worker is put into the free set while it still serves a live connection; two
connections are then given the same worker although a different one is free and no close is in progress. -/
theorem C28_refuted_later : ∃ s, Steps (AStep bindCfg) bindStart
    [.accept 1, .take 1 0, .accept 2, .take 2 1, .remove 1, .accept 3, .take 3 1, .release 1, .remove 3, .release 3, .accept 4, .take 4 1] s ∧
    Serves s 1 2 ∧ Serves s 1 4 ∧ 0 ∈ s.free := by
  refine ⟨_, .cons (.accept _ (by decide)) (.cons (.free _ 1 0 (by decide) (by decide) (by decide)) (.cons (.accept _ (by decide))
    (.cons (.free _ 2 1 (by decide) (by decide) (by decide)) (.cons (.remove _ 1 0 (by decide) (by decide)) (.cons (.accept _ (by decide))
    (.cons (.bindNone _ 3 rfl (by decide) (by decide)) (.cons (.release _ _ 1 0 (by decide) (by decide) rfl)
    (.cons (.remove _ 3 1 (by decide) (by decide)) (.cons (.release _ _ 3 1 (by decide) (by decide) rfl) (.cons (.accept _ (by decide))
    (.cons (.free _ 4 1 (by decide) (by decide) (by decide)) (.nil _)))))))))))), ⟨?_, ?_⟩, ⟨?_, ?_⟩, ?_⟩ <;> decide

/-- Calm executions with two live connections exist. -/
example : ∃ s, Steps (CalmStep bindCfg) bindStart [.accept 1, .take 1 0, .accept 2, .take 2 1] s ∧ Serves s 0 1 ∧ Serves s 1 2 := by
  refine ⟨_, .cons ⟨.accept _ (by decide), by simp⟩ (.cons ⟨.free _ 1 0 (by decide) (by decide) (by decide), fun _ _ _ => by decide⟩
    (.cons ⟨.accept _ (by decide), by simp⟩ (.cons ⟨.free _ 2 1 (by decide) (by decide) (by decide), fun _ _ _ => by decide⟩ (.nil _)))),
    ⟨?_, ?_⟩, ⟨?_, ?_⟩⟩ <;> decide

/-! ## C29 -/

/-- One base worker, three connections at most. -/
def dynCfg : Cfg := { mode := .dynamicBind, workerPoolSize := 1, maxConn := 3, client := false }

/-- The server after `StartWorkerPool`. -/
def dynStart : AState := assignInit dynCfg fun i => if i < 1 then .opened i else .nil

example : startWorkerPool dynCfg = .ok dynStart.chan := rfl

/-- **C29 refuted (shared).** Two live connections are given the same overflow worker, and the queue of the first has been replaced. -/
theorem C29_refuted_shared : ∃ s, Steps (AStep dynCfg) dynStart
    [.accept 1, .take 1 0, .accept 2, .look 2, .take 2 1, .accept 3, .look 3, .take 3 1] s ∧ Serves s 1 2 ∧ Serves s 1 3 ∧
    s.chan 1 = .opened 2 := by
  refine ⟨_, .cons (.accept _ (by decide)) (.cons (.free _ 1 0 (by decide) (by decide) (by decide)) (.cons (.accept _ (by decide))
    (.cons (.look _ 2 rfl (by decide) (by decide)) (.cons (.extra _ 2 1 (by decide) (by decide)) (.cons (.accept _ (by decide))
    (.cons (.look _ 3 rfl (by decide) (by decide)) (.cons (.extra _ 3 1 (by decide) (by decide)) (.nil _)))))))), ⟨?_, ?_⟩, ⟨?_, ?_⟩, ?_⟩ <;> decide

/-- **C29 refuted (closed twice).** When both close, the second `close` of the same channel panics; in between a live connection whose reader delivers
a message panics too. -/
theorem C29_refuted_closed_twice : ∃ s t, Steps (AStep dynCfg) dynStart
    [.accept 1, .take 1 0, .accept 2, .look 2, .take 2 1, .accept 3, .look 3, .take 3 1, .remove 2, .release 2] s ∧
    Serves s 1 3 ∧ sendPanics dynCfg s 1 = some .closedChannel ∧
    Steps (AStep dynCfg) s [.remove 3, .release 3] t ∧ (3, Phase.crashed) ∈ t.conns := by
  refine ⟨_, _, .cons (.accept _ (by decide)) (.cons (.free _ 1 0 (by decide) (by decide) (by decide)) (.cons (.accept _ (by decide))
    (.cons (.look _ 2 rfl (by decide) (by decide)) (.cons (.extra _ 2 1 (by decide) (by decide)) (.cons (.accept _ (by decide))
    (.cons (.look _ 3 rfl (by decide) (by decide)) (.cons (.extra _ 3 1 (by decide) (by decide)) (.cons (.remove _ 2 1 (by decide) (by decide))
    (.cons (.release _ _ 2 1 (by decide) (by decide) rfl) (.nil _)))))))))), ⟨by decide, by decide⟩, by decide,
    .cons (.remove _ 3 1 (by decide) (by decide)) (.cons (.crash _ 3 1 .closedChannel (by decide) (by decide) rfl) (.nil _)), by decide⟩

/-- **C29 refuted (client).** A client in dynamic bind mode has no running workers but still takes a base worker; giving it back closes a nil channel. -/
theorem C29_refuted_client : ∃ s, Steps (AStep { dynCfg with client := true }) (assignInit { dynCfg with client := true } fun _ => .nil)
    [.accept 1, .take 1 0, .remove 1, .release 1] s ∧ (1, Phase.crashed) ∈ s.conns := by
  refine ⟨_, .cons (.accept _ (by decide)) (.cons (.free _ 1 0 (by decide) (by decide) (by decide)) (.cons (.remove _ 1 0 (by decide) (by decide))
    (.cons (.crash _ 1 0 .nilChannel (by decide) (by decide) rfl) (.nil _)))), by decide⟩

/-- **C29 (partial).** On a server in dynamic bind mode with more connections allowed than base workers, in every execution: base workers are never shared
and their queues are never closed or replaced. Missing: overflow workers, see the refutations. -/
theorem C29_partial (cfg : Cfg) (hc : cfg.client = false) (hm : cfg.mode = .dynamicBind) (hpos : 0 < cfg.workerPoolSize)
    (hlt : cfg.workerPoolSize < cfg.maxConn) {ch : Nat → Chan} (hstart : startWorkerPool cfg = .ok ch) {ls : List AAct} {s : AState}
    (h : Steps (AStep cfg) (assignInit cfg ch) ls s) (w : Nat) (hw : w < cfg.workerPoolSize) :
    s.chan w = .opened w ∧ ∀ n1 n2, (n1, Phase.holds w) ∈ s.conns → (n2, Phase.holds w) ∈ s.conns → n1 = n2 := by
  have hpool : cfg.pool = cfg.workerPoolSize := by simp [Cfg.pool, hc, Cfg.globalPool, hm]
  have hle : cfg.pool ≤ cfg.taskLen := by rw [hpool]; simp only [Cfg.taskLen, hm]; omega
  have inv : BaseInv cfg s ∧ NumInv cfg s := h.invariant (P := fun s => BaseInv cfg s ∧ NumInv cfg s)
    (fun _ _ _ hp hs => ⟨baseInv_step hm _ _ _ hp hs, numInv_step (by omega) hle _ _ _ hp.2 hs⟩)
    ⟨baseInv_init cfg hm hlt ch, numInv_init hc hstart⟩
  refine ⟨inv.2.base w (by omega), fun n1 n2 h1 h2 => ?_⟩
  have hn := inv.1.2.1
  rw [List.nodup_append] at hn
  exact filter_held_unique hn.2.1 (by omega) h1 h2

/-- Steps in which an overflow worker is only taken when no connection holds it. -/
def ApartStep (cfg : Cfg) (s : AState) (l : AAct) (t : AState) : Prop :=
  AStep cfg s l t ∧ ∀ n w, l = .take n w → cfg.pool ≤ w → ∀ m, (m, Phase.holds w) ∉ s.conns

theorem mem_setPhase_ne {l : List (Nat × Phase)} {n m : Nat} {p q : Phase} (h : (m, q) ∈ l) (hn : m ≠ n) : (m, q) ∈ setPhase l n p := by
  unfold setPhase
  exact List.mem_map.mpr ⟨_, h, by simp [hn]⟩

theorem mem_setPhase_self {l : List (Nat × Phase)} {n : Nat} {p q : Phase} (h : (n, q) ∈ l) : (n, p) ∈ setPhase l n p := by
  unfold setPhase
  exact List.mem_map.mpr ⟨_, h, by simp⟩

/-- Overflow workers: held by one connection each, with an open queue exactly while they are held; and nobody has panicked. -/
structure OverInv (cfg : Cfg) (s : AState) : Prop where
  one : ∀ n1 n2 w, cfg.pool ≤ w → (n1, Phase.holds w) ∈ s.conns → (n2, Phase.holds w) ∈ s.conns → n1 = n2
  held : ∀ n w, cfg.pool ≤ w → (n, Phase.holds w) ∈ s.conns → ∃ g, s.chan w = .opened g
  free : ∀ w g, cfg.pool ≤ w → s.chan w = .opened g → ∃ n, (n, Phase.holds w) ∈ s.conns
  fine : ∀ n, (n, Phase.crashed) ∉ s.conns

theorem overInv_step {cfg : Cfg} (hm : cfg.mode = .dynamicBind) (s : AState) (l : AAct) (t : AState) (hb : BaseInv cfg s) (hn : NumInv cfg s) (h : OverInv cfg s)
    (hs : ApartStep cfg s l t) : OverInv cfg t := by
  obtain ⟨hs, ha⟩ := hs
  have hid : ∀ {n p q}, (n, p) ∈ s.conns → (n, q) ∈ s.conns → p = q := by
    intro n p q h1 h2
    obtain ⟨l1, l2, e, _⟩ := split_conn hb.1.1 h1
    have hnd := hb.1.1
    rw [e] at hnd h2
    simp only [List.map_append, List.map_cons, List.nodup_append, List.nodup_cons] at hnd
    rcases List.mem_append.mp h2 with h2 | h2
    · exact absurd rfl (hnd.2.2 n (List.mem_map_of_mem h2) n (by simp))
    · rcases List.mem_cons.mp h2 with h2 | h2
      · exact (Prod.mk.inj h2).2.symm
      · exact absurd (List.mem_map_of_mem (f := (·.1)) h2) hnd.2.1.1
  cases hs with
  | accept hlen =>
    refine ⟨?_, ?_, ?_, ?_⟩
    · intro n1 n2 w hw h1 h2; exact h.one n1 n2 w hw (by simpa using h1) (by simpa using h2)
    · intro n w hw h1; exact h.held n w hw (by simpa using h1)
    · intro w g hw h1; obtain ⟨n, hn⟩ := h.free w g hw h1; exact ⟨n, by simp [hn]⟩
    · intro n h1; exact h.fine n (by simpa using h1)
  | hash n hm' => rw [hm] at hm'; simp at hm'
  | free n w _ hc hw =>
    have hwp := hn.free w hw
    refine ⟨?_, ?_, ?_, ?_⟩
    · intro n1 n2 v hv h1 h2
      rcases mem_setPhase h1 with ⟨_, e⟩ | ⟨_, h1⟩
      · simp at e; omega
      rcases mem_setPhase h2 with ⟨_, e⟩ | ⟨_, h2⟩
      · simp at e; omega
      exact h.one n1 n2 v hv h1 h2
    · intro m v hv h1
      rcases mem_setPhase h1 with ⟨_, e⟩ | ⟨_, h1⟩
      · simp at e; omega
      exact h.held m v hv h1
    · intro v g hv h1
      obtain ⟨m, hmm⟩ := h.free v g hv h1
      exact ⟨m, mem_setPhase_ne hmm (by rintro rfl; cases hid hmm hc)⟩
    · intro m h1
      rcases mem_setPhase h1 with ⟨_, e⟩ | ⟨_, h1⟩
      · cases e
      exact h.fine m h1
  | bindNone n hm' => rw [hm] at hm'; simp at hm'
  | look n _ hc hfree =>
    refine ⟨?_, ?_, ?_, ?_⟩
    · intro n1 n2 v hv h1 h2
      rcases mem_setPhase h1 with ⟨_, e⟩ | ⟨_, h1⟩
      · cases e
      rcases mem_setPhase h2 with ⟨_, e⟩ | ⟨_, h2⟩
      · cases e
      exact h.one n1 n2 v hv h1 h2
    · intro m v hv h1
      rcases mem_setPhase h1 with ⟨_, e⟩ | ⟨_, h1⟩
      · cases e
      exact h.held m v hv h1
    · intro v g hv h1
      obtain ⟨m, hmm⟩ := h.free v g hv h1
      exact ⟨m, mem_setPhase_ne hmm (by rintro rfl; cases hid hmm hc)⟩
    · intro m h1
      rcases mem_setPhase h1 with ⟨_, e⟩ | ⟨_, h1⟩
      · cases e
      exact h.fine m h1
  | extra n w hc hw =>
    have hfree := ha n w rfl (hn.extra w hw).1
    refine ⟨?_, ?_, ?_, ?_⟩
    · intro n1 n2 v hv h1 h2
      rcases mem_setPhase h1 with ⟨rfl, e⟩ | ⟨_, h1'⟩ <;> rcases mem_setPhase h2 with ⟨rfl, e'⟩ | ⟨_, h2'⟩
      · rfl
      · cases e; exact absurd h2' (hfree _)
      · cases e'; exact absurd h1' (hfree _)
      · exact h.one n1 n2 v hv h1' h2'
    · intro m v hv h1
      by_cases hvw : v = w
      · subst hvw; exact ⟨s.gen, upd_same ..⟩
      · simp only [upd_ne _ _ hvw]
        rcases mem_setPhase h1 with ⟨_, e⟩ | ⟨_, h1⟩
        · cases e; exact absurd rfl hvw
        · exact h.held m v hv h1
    · intro v g hv h1
      by_cases hvw : v = w
      · subst hvw; exact ⟨n, mem_setPhase_self hc⟩
      · simp only [upd_ne _ _ hvw] at h1
        obtain ⟨m, hmm⟩ := h.free v g hv h1
        exact ⟨m, mem_setPhase_ne hmm (by rintro rfl; cases hid hmm hc)⟩
    · intro m h1
      rcases mem_setPhase h1 with ⟨_, e⟩ | ⟨_, h1⟩
      · cases e
      exact h.fine m h1
  | extraNone n hc hw => exact absurd hw hb.2.2
  | remove => exact ⟨h.one, h.held, h.free, h.fine⟩
  | release s' n w hc hmgr hf =>
    have hheld := hn.held n w hc
    have rest : ∀ ch : Nat → Chan, (∀ v, cfg.pool ≤ v → v ≠ w → ch v = s.chan v) → (cfg.pool ≤ w → ch w = .closed) →
        OverInv cfg { s' with conns := setPhase s.conns n .released, chan := ch } := by
      intro ch hch hcl
      refine ⟨?_, ?_, ?_, ?_⟩
      · intro n1 n2 v hv h1 h2
        rcases mem_setPhase h1 with ⟨_, e⟩ | ⟨_, h1⟩
        · cases e
        rcases mem_setPhase h2 with ⟨_, e⟩ | ⟨_, h2⟩
        · cases e
        exact h.one n1 n2 v hv h1 h2
      · intro m v hv h1
        rcases mem_setPhase h1 with ⟨_, e⟩ | ⟨hne, h1⟩
        · cases e
        by_cases hvw : v = w
        · subst hvw; exact absurd (h.one m n v hv h1 hc) hne
        · dsimp only; rw [hch v hv hvw]; exact h.held m v hv h1
      · intro v g hv h1
        dsimp only at h1
        by_cases hvw : v = w
        · subst hvw; rw [hcl hv] at h1; cases h1
        · rw [hch v hv hvw] at h1
          obtain ⟨m, hmm⟩ := h.free v g hv h1
          exact ⟨m, mem_setPhase_ne hmm (by rintro rfl; exact hvw (Phase.holds.inj (hid hmm hc)))⟩
      · intro m h1
        rcases mem_setPhase h1 with ⟨_, e⟩ | ⟨_, h1⟩
        · cases e
        exact h.fine m h1
    unfold freeWorker at hf
    rw [hm] at hf
    simp only at hf
    by_cases hwp : w < cfg.pool
    · rw [if_pos hwp] at hf
      simp only [Except.ok.injEq] at hf
      subst hf
      exact rest s.chan (fun _ _ _ => rfl) (by omega)
    · rw [if_neg hwp, if_neg (by omega)] at hf
      cases hch : s.chan w with
      | nil => rw [hch] at hf; simp at hf
      | closed => rw [hch] at hf; simp at hf
      | opened g =>
        rw [hch] at hf
        simp only [Except.ok.injEq] at hf
        subst hf
        exact rest (upd s.chan w .closed) (fun v _ hv => upd_ne _ _ hv) (fun _ => upd_same ..)
  | crash n w p hc hmgr hf =>
    exfalso
    have hheld := hn.held n w hc
    unfold freeWorker at hf
    rw [hm] at hf
    simp only at hf
    by_cases hwp : w < cfg.pool
    · rw [if_pos hwp] at hf; cases hf
    · rw [if_neg hwp, if_neg (by omega)] at hf
      obtain ⟨g, hg⟩ := h.held n w (by omega) hc
      rw [hg] at hf
      cases hf

/-- **C29 (partial, overflow workers).** On the same server, in every execution in which an overflow worker is only taken when no connection holds it: no worker is shared, the queue of an overflow worker is
open exactly while a connection holds the worker (so it is made when the worker is taken and closed when it is given back, each once), no connection finds its queue closed, and no `close` panics.
Missing: the code does not ensure the condition, because a taken overflow worker stays in the set (see the refutations). -/
theorem C29_apart_partial (cfg : Cfg) (hc : cfg.client = false) (hm : cfg.mode = .dynamicBind) (hpos : 0 < cfg.workerPoolSize)
    (hlt : cfg.workerPoolSize < cfg.maxConn) {ch : Nat → Chan} (hstart : startWorkerPool cfg = .ok ch) {ls : List AAct} {s : AState}
    (h : Steps (ApartStep cfg) (assignInit cfg ch) ls s) :
    (∀ n1 n2 w, (n1, Phase.holds w) ∈ s.conns → (n2, Phase.holds w) ∈ s.conns → n1 = n2) ∧
    (∀ w, cfg.workerPoolSize ≤ w → ((∃ g, s.chan w = .opened g) ↔ ∃ n, (n, Phase.holds w) ∈ s.conns)) ∧
    (∀ n w, (n, Phase.holds w) ∈ s.conns → sendPanics cfg s w = none) ∧
    ∀ n, (n, Phase.crashed) ∉ s.conns := by
  have hpool : cfg.pool = cfg.workerPoolSize := by simp [Cfg.pool, hc, Cfg.globalPool, hm]
  have hle : cfg.pool ≤ cfg.taskLen := by rw [hpool]; simp only [Cfg.taskLen, hm]; omega
  have inv : BaseInv cfg s ∧ NumInv cfg s ∧ OverInv cfg s := h.invariant (P := fun s => BaseInv cfg s ∧ NumInv cfg s ∧ OverInv cfg s)
    (fun _ _ _ hp hs => ⟨baseInv_step hm _ _ _ ⟨hp.1, hp.2.1⟩ hs.1, numInv_step (by omega) hle _ _ _ hp.2.1 hs.1, overInv_step hm _ _ _ hp.1 hp.2.1 hp.2.2 hs⟩)
    ⟨baseInv_init cfg hm hlt ch, numInv_init hc hstart, ?_⟩
  · obtain ⟨hb, hn, ho⟩ := inv
    refine ⟨?_, ?_, ?_, ho.fine⟩
    · intro n1 n2 w h1 h2
      by_cases hw : w < cfg.pool
      · have hnd := hb.2.1
        rw [List.nodup_append] at hnd
        exact filter_held_unique hnd.2.1 hw h1 h2
      · exact ho.one n1 n2 w (by omega) h1 h2
    · intro w hw
      exact ⟨fun ⟨g, hg⟩ => ho.free w g (by omega) hg, fun ⟨n, hh⟩ => ho.held n w (by omega) hh⟩
    · intro n w hh
      unfold sendPanics
      rw [if_neg (by have := (hn.held n w hh).1; omega)]
      by_cases hw : w < cfg.pool
      · rw [hn.base w hw]
      · obtain ⟨g, hg⟩ := ho.held n w (by omega) hh; rw [hg]
  · have hch : ch = fun i => if i < cfg.pool then .opened i else .nil := by
      unfold startWorkerPool at hstart
      rw [if_pos hle] at hstart
      exact (Except.ok.inj hstart).symm
    refine ⟨by simp [assignInit], by simp [assignInit], ?_, by simp [assignInit]⟩
    intro w g hw hg
    simp only [assignInit, hch, if_neg (show ¬ w < cfg.pool by omega)] at hg
    cases hg

/-- Such an execution, in which two connections hold two overflow workers at once and one gives its back. -/
example : ∃ s, Steps (ApartStep dynCfg) dynStart
    [.accept 1, .take 1 0, .accept 2, .look 2, .take 2 1, .accept 3, .look 3, .take 3 2, .remove 2, .release 2] s ∧ Serves s 2 3 ∧ s.chan 1 = .closed := by
  refine ⟨_, .cons ⟨.accept _ (by decide), by simp⟩ (.cons ⟨.free _ 1 0 (by decide) (by decide) (by decide), fun _ _ _ _ => by simp [dynStart, assignInit]⟩ (.cons ⟨.accept _ (by decide), by simp⟩
    (.cons ⟨.look _ 2 rfl (by decide) (by decide), by simp⟩ (.cons ⟨.extra _ 2 1 (by decide) (by decide), ?_⟩ (.cons ⟨.accept _ (by decide), by simp⟩
    (.cons ⟨.look _ 3 rfl (by decide) (by decide), by simp⟩ (.cons ⟨.extra _ 3 2 (by decide) (by decide), ?_⟩ (.cons ⟨.remove _ 2 1 (by decide) (by decide), by simp⟩
    (.cons ⟨.release _ _ 2 1 (by decide) (by decide) rfl, by simp⟩ (.nil _)))))))))), ⟨by decide, by decide⟩, by decide⟩
  · rintro n w h _ m; cases h; simp [setPhase, dynStart, assignInit]
  · rintro n w h _ m; cases h; simp [setPhase, dynStart, assignInit]

/-! ## C30 -/

/-- **C30 (partial).** On a started server with workers, in every mode and execution: the worker number of a connection is inside the table and its
queue exists; in hash and bind mode the queue is open, so delivering never panics. Missing: in dynamic bind mode the queue may have been
closed, `C30_refuted`. -/
theorem C30_partial (cfg : Cfg) (hc : cfg.client = false) (hpos : 0 < cfg.pool) {ch : Nat → Chan} (hstart : startWorkerPool cfg = .ok ch)
    {ls : List AAct} {s : AState} (h : Steps (AStep cfg) (assignInit cfg ch) ls s) (n w : Nat) (hn : (n, Phase.holds w) ∈ s.conns) :
    w < cfg.taskLen ∧ s.chan w ≠ .nil ∧ (cfg.mode ≠ .dynamicBind → s.chan w = .opened w ∧ sendPanics cfg s w = none) := by
  have hle : cfg.pool ≤ cfg.taskLen := by
    unfold startWorkerPool at hstart
    by_cases hle : cfg.pool ≤ cfg.taskLen
    · exact hle
    · rw [if_neg hle] at hstart; simp at hstart
  have inv : NumInv cfg s := h.invariant (P := NumInv cfg) (fun _ _ _ hp hs => numInv_step hpos hle _ _ _ hp hs) (numInv_init hc hstart)
  obtain ⟨h1, h2⟩ := inv.held n w hn
  refine ⟨h1, h2, fun hm => ?_⟩
  rw [taskLen_of_not_dynamic hc hm] at h1
  have := inv.base w h1
  refine ⟨this, ?_⟩
  unfold sendPanics
  rw [taskLen_of_not_dynamic hc hm, if_neg (by omega), this]

/-- **C30 (start-up).** In hash and bind mode the worker pool always starts; in dynamic bind mode exactly if there are at most `MaxConn` base workers. -/
theorem C30_start_partial (cfg : Cfg) (hc : cfg.client = false) :
    (∃ ch, startWorkerPool cfg = .ok ch) ↔ (cfg.mode = .dynamicBind → cfg.workerPoolSize ≤ cfg.maxConn) := by
  unfold startWorkerPool Cfg.pool Cfg.taskLen Cfg.globalPool
  rw [hc]
  cases cfg.mode <;> simp
  by_cases h : cfg.workerPoolSize ≤ cfg.maxConn <;> simp [h]

/-- **C30 refuted.** In dynamic bind mode a live connection can be left with a closed queue. -/
theorem C30_refuted : ∃ ls s n w, Steps (AStep dynCfg) dynStart ls s ∧ Serves s w n ∧ sendPanics dynCfg s w = some .closedChannel := by
  obtain ⟨s, _, h1, h2, h3, _⟩ := C29_refuted_closed_twice
  exact ⟨_, s, 3, 1, h1, h2, h3⟩

/-- **C30 refuted (start-up).** More base workers than connections in dynamic bind mode: starting the server panics. -/
theorem C30_refuted_start (p m : Nat) (h : m < p) : startWorkerPool { mode := .dynamicBind, workerPoolSize := p, maxConn := m, client := false } =
    .error .sliceBounds := by
  unfold startWorkerPool Cfg.pool Cfg.taskLen Cfg.globalPool
  simp; omega

end Zinx.Props
