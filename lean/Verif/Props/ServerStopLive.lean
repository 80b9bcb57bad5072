import Verif.Props.ServerStop

/-! # C66, C117: `Stop` under fairness, and what `Serve` does -/

namespace Zinx.Props
open Zinx Zinx.ServerStop

/-- What the goroutine in `Stop`, and those it starts to look at the shards, do. -/
def StopActs (l : ServerStop.Label) : Prop :=
  match l with
  | .look _ | .seen | .stop _ | .cleared | .sendExit | .closeExit => True
  | _ => False

/-- `Stop` and the listening goroutine run. -/
structure StopFair {cfg : Cfg} (e : Exec (ServerStop.Step cfg)) : Prop where
  stop : e.WeakFair StopActs
  listen : e.WeakFair (· = .listen)

theorem look_exists (cfg : Cfg) (s : ServerStop.State) (k : Nat) (hfin : ∃ N, ∀ c, N ≤ c → s.conns c = .absent) : ∃ cs : List Nat, ∀ c, c ∈ cs ↔ cfg.shard c = k ∧ (s.conns c).present = true := by
  obtain ⟨N, hN⟩ := hfin
  refine ⟨(List.range N).filter fun c => decide (cfg.shard c = k) && (s.conns c).present, fun c => ?_⟩
  rw [List.mem_filter, List.mem_range]
  simp only [Bool.and_eq_true, decide_eq_true_eq]
  constructor
  · exact fun h => h.2
  · refine fun h => ⟨Nat.lt_of_not_le fun hle => ?_, h⟩
    rw [hN c hle] at h
    cases h.2

section
variable {cfg : Cfg} {e : Exec (ServerStop.Step cfg)}

theorem conns_finite_step {s t : ServerStop.State} {l : ServerStop.Label} (hs : ServerStop.Step cfg s l t) (h : ∃ N, ∀ c, N ≤ c → s.conns c = .absent) : ∃ N, ∀ c, N ≤ c → t.conns c = .absent := by
  have : t.conns = s.conns ∨ ∃ c v, t.conns = upd s.conns c v := by
    cases hs <;> first | exact .inl rfl | exact .inr ⟨_, _, rfl⟩
  rcases this with h1 | ⟨c, v, h1⟩
  · rw [h1]; exact h
  · obtain ⟨N, hN⟩ := h
    refine ⟨max N (c + 1), fun d hd => ?_⟩
    rw [h1]
    unfold upd
    rw [if_neg (by omega)]
    exact hN d (by omega)

theorem conns_finite (h0 : e.run 0 = {}) (n : Nat) : ∃ N, ∀ c, N ≤ c → (e.run n).conns c = .absent :=
  e.invariant (P := fun s => ∃ N, ∀ c, N ≤ c → s.conns c = .absent) (fun _ _ _ h hs => conns_finite_step hs h) (n := 0) ⟨0, fun c _ => by rw [h0]⟩ n (Nat.zero_le n)

/-- `Stop` gets past `ClearConn`. -/
theorem clear_ends (h0 : e.run 0 = {}) (hf : e.WeakFair StopActs) {n : Nat} (hn : (∃ left seen, (e.run n).stopper = .looking left seen) ∨ ∃ todo, (e.run n).stopper = .clearing todo) :
    ∃ m, n ≤ m ∧ ((e.run m).stopper = .send ∨ (e.run m).stopper = .panicked) := by
  have hfin := conns_finite h0
  have clr : ∀ n, (∃ todo, (e.run n).stopper = .clearing todo) → ∃ m, n ≤ m ∧ ((e.run m).stopper = .send ∨ (e.run m).stopper = .panicked) := by
    intro n hn
    refine e.leads_weak_dec hf (P := fun s => ∃ todo, s.stopper = .clearing todo) (Q := fun s => s.stopper = .send ∨ s.stopper = .panicked)
      (fun s => match s.stopper with | .clearing todo => todo.length | _ => 0) ?_ ?_ ?_ hn
    · rintro s l t ⟨todo, hp⟩ hs
      cases hs <;> simp_all
    · rintro s l t ⟨todo, hp⟩ hs hA
      cases hs <;> simp_all [StopActs]
      all_goals exact Nat.sub_lt (List.length_pos_of_mem ‹_›) Nat.one_pos
    · rintro s ⟨todo, hp⟩
      cases todo with
      | nil => exact ⟨.cleared, _, trivial, .cleared hp⟩
      | cons c cs =>
        by_cases h1 : s.conns c = .created
        · exact ⟨.stop c, _, trivial, .stopNil c _ hp (.head _) h1⟩
        · by_cases h2 : s.conns c = .started
          · exact ⟨.stop c, _, trivial, .stopConn c _ hp (.head _) h2⟩
          · exact ⟨.stop c, _, trivial, .stopAgain c _ hp (.head _) h1 h2⟩
  rcases hn with hn | hn
  · obtain ⟨m, hm, h⟩ : ∃ m, n ≤ m ∧ ∃ todo, (e.run m).stopper = .clearing todo := by
      refine e.leads_weak_dec hf (P := fun s => (∃ left seen, s.stopper = .looking left seen) ∧ ∃ N, ∀ c, N ≤ c → s.conns c = .absent) (Q := fun s => ∃ todo, s.stopper = .clearing todo)
        (fun s => match s.stopper with | .looking left _ => left.length | _ => 0) ?_ ?_ ?_ ⟨hn, hfin n⟩
      · rintro s l t ⟨⟨left, seen, hp⟩, hN⟩ hs
        have hN' := conns_finite_step hs hN
        cases hs <;> simp_all
      · rintro s l t ⟨⟨left, seen, hp⟩, hN⟩ hs hA
        have hN' := conns_finite_step hs hN
        cases hs <;> simp_all [StopActs]
        all_goals exact Nat.sub_lt (List.length_pos_of_mem ‹_›) Nat.one_pos
      · rintro s ⟨⟨left, seen, hp⟩, hN⟩
        cases left with
        | nil => exact ⟨.seen, _, trivial, .seen seen hp⟩
        | cons k ks =>
          obtain ⟨cs, hcs⟩ := look_exists cfg s k hN
          exact ⟨.look k, _, trivial, .look k _ seen cs hp (.head _) hcs⟩
    obtain ⟨k, hk, h⟩ := clr m h
    exact ⟨k, by omega, h⟩
  · exact clr n hn

theorem next_of_act {n : Nat} {l : ServerStop.Label} (ha : e.act n = some l) : ServerStop.Step cfg (e.run n) l (e.run (n + 1)) := by
  have := e.next n
  rwa [ha] at this

/-- **C66 (it ends).** In every mode but WebSocket alone, whatever connections come and go: a call of `Stop` returns or panics, if the goroutines run. -/
theorem C66_ends (hmode : cfg.mode ≠ .ws) (h0 : e.run 0 = {}) (hf : StopFair e) {n : Nat} (hcall : e.act n = some .callStop) :
    ∃ m, n < m ∧ ∀ k, m ≤ k → (e.run k).stopper = .panicked ∨ (e.run k).stopper = .returned := by
  have hlis : cfg.mode.listens = true := by cases h : cfg.mode <;> first | rfl | exact absurd h hmode
  have inv : ∀ k, ((e.run k).stopper = .close ∨ (e.run k).stopper = .returned) ∨ (e.run k).listener = .starting ∨ (e.run k).listener = .waiting := fun k =>
    e.invariant (P := fun s => (s.stopper = .close ∨ s.stopper = .returned) ∨ s.listener = .starting ∨ s.listener = .waiting) (fun s l t h hs => by cases hs <;> simp_all) (n := 0)
      (by rw [h0]; exact .inr (.inl rfl)) k (Nat.zero_le k)
  have h1 : ∃ left seen, (e.run (n + 1)).stopper = .looking left seen := by
    have := next_of_act hcall
    generalize e.run (n + 1) = t at this
    generalize e.run n = s at this
    cases this
    exact ⟨_, _, rfl⟩
  obtain ⟨m1, hm1, h2⟩ := clear_ends h0 hf.stop (.inl h1)
  suffices H : ∃ m, n < m ∧ ((e.run m).stopper = .panicked ∨ (e.run m).stopper = .returned) by
    obtain ⟨m, hm, h⟩ := H
    exact ⟨m, hm, fun k hk => e.invariant (P := fun s => s.stopper = .panicked ∨ s.stopper = .returned) (fun s l t h hs => by cases hs <;> simp_all) h k hk⟩
  rcases h2 with h2 | h2
  · obtain ⟨m2, hm2, h3⟩ : ∃ m, m1 ≤ m ∧ ((e.run m).stopper = .close ∨ (e.run m).stopper = .send ∧ (e.run m).listener = .waiting) := by
      have : (e.run m1).listener = .starting ∨ (e.run m1).listener = .waiting := by
        rcases inv m1 with (h | h) | h
        · rw [h2] at h; cases h
        · rw [h2] at h; cases h
        · exact h
      rcases this with h | h
      · refine e.leads_weak hf.listen (P := fun s => s.stopper = .send ∧ s.listener = .starting) (Q := fun s => s.stopper = .close ∨ s.stopper = .send ∧ s.listener = .waiting) ?_ ?_ ?_ ⟨h2, h⟩
        · intro s l t hp hs
          cases hs <;> simp_all
        · intro s l t hp hs hl
          cases hs <;> simp_all
        · intro s hp
          exact ⟨_, _, rfl, .listen hlis hp.2⟩
      · exact ⟨m1, Nat.le_refl _, .inr ⟨h2, h⟩⟩
    obtain ⟨m3, hm3, h4⟩ : ∃ m, m2 ≤ m ∧ (e.run m).stopper = .close := by
      rcases h3 with h | h
      · exact ⟨m2, Nat.le_refl _, h⟩
      · refine e.leads_weak hf.stop (P := fun s => s.stopper = .send ∧ s.listener = .waiting) (Q := fun s => s.stopper = .close) ?_ ?_ ?_ h
        · intro s l t hp hs
          cases hs <;> simp_all
        · intro s l t hp hs hl
          cases hs <;> simp_all [StopActs]
        · intro s hp
          exact ⟨.sendExit, _, trivial, .sendExit hp.1 hp.2⟩
    obtain ⟨m4, hm4, h5⟩ : ∃ m, m3 ≤ m ∧ (e.run m).stopper = .returned := by
      refine e.leads_weak hf.stop (P := fun s => s.stopper = .close) (Q := fun s => s.stopper = .returned) ?_ ?_ ?_ h4
      · intro s l t hp hs
        cases hs <;> simp_all
      · intro s l t hp hs hl
        cases hs <;> simp_all [StopActs]
      · intro s hp
        exact ⟨.closeExit, _, trivial, .closeExit hp⟩
    exact ⟨m4, by omega, .inr h5⟩
  · exact ⟨m1, by omega, .inl h2⟩

theorem trace_mono {m n : Nat} (h : m ≤ n) {l : ServerStop.Label} (hl : l ∈ e.trace m) : l ∈ e.trace n := by
  induction n with
  | zero => have : m = 0 := by omega
            subst this; exact hl
  | succ n ih =>
    by_cases e1 : m = n + 1
    · subst e1; exact hl
    · unfold Exec.trace
      exact List.mem_append_left _ (ih (by omega))

theorem act_mem_trace {m n : Nat} (h : m < n) {l : ServerStop.Label} (hl : e.act m = some l) : l ∈ e.trace n := by
  refine trace_mono h ?_
  unfold Exec.trace
  rw [hl]
  simp

theorem stopsUnstarted_act {n : Nat} (h : StopsUnstarted (e.trace n)) : ∃ m c, e.act m = some (.stop c) ∧ .start c ∉ e.trace m := by
  induction n with
  | zero =>
    obtain ⟨l1, c, l2, h, _⟩ := h
    simp [Exec.trace] at h
  | succ n ih =>
    unfold Exec.trace at h
    cases ha : e.act n with
    | none =>
      rw [ha] at h
      exact ih (by simpa using h)
    | some l =>
      rw [ha] at h
      rcases stopsUnstarted_snoc.1 h with h | ⟨c, h, hc⟩
      · exact ih h
      · exact ⟨n, c, h ▸ ha, hc⟩

/-- **C66**, in part: in every mode but WebSocket alone, a call of `Stop` that tells no connection to stop before it has been started returns. From then on a connection is open if and only if it was entered into the
manager after its shard had been looked at and has not ended by itself. Fairness: the goroutine that calls `Stop`, those it starts, and the listening goroutine run. -/
theorem C66_partial (hsh : ∀ c, cfg.shard c < cfg.shards) (hmode : cfg.mode ≠ .ws) (h0 : e.run 0 = {}) (hf : StopFair e) {n : Nat} (hcall : e.act n = some .callStop)
    (hst : ∀ m c, e.act m = some (.stop c) → .start c ∈ e.trace m) :
    ∃ m, n < m ∧ ∀ k, m ≤ k → (e.run k).stopper = .returned ∧ ∀ c, stillOpen (e.run k) c ↔ RegLate cfg c (e.trace k) ∧ .drop c ∉ e.trace k := by
  obtain ⟨m, hm, h⟩ := C66_ends hmode h0 hf hcall
  refine ⟨m, hm, fun k hk => ?_⟩
  have hsteps : Steps (ServerStop.Step cfg) {} (e.trace k) (e.run k) := h0 ▸ e.steps k
  have hr : (e.run k).stopper = .returned := by
    rcases h k hk with h1 | h1
    · obtain ⟨j, c, h2, h3⟩ := stopsUnstarted_act ((C66_panics_exact cfg _ _ hsteps).1 h1)
      exact absurd (hst j c h2) h3
    · exact h1
  exact ⟨hr, C66_exact cfg hsh _ _ hsteps hr⟩

/-- **C66 (when all is quiet).** If all connections in the manager have been started when `Stop` is called, and none is entered into it from then on, `Stop` returns and then no connection is open. -/
theorem C66_quiet (hsh : ∀ c, cfg.shard c < cfg.shards) (hmode : cfg.mode ≠ .ws) (h0 : e.run 0 = {}) (hf : StopFair e) {n : Nat} (hcall : e.act n = some .callStop)
    (hst : ∀ c, (e.run n).conns c ≠ .created) (hreg : ∀ m c, n ≤ m → e.act m ≠ some (.register c)) :
    ∃ m, n < m ∧ ∀ k, m ≤ k → (e.run k).stopper = .returned ∧ ∀ c, ¬ stillOpen (e.run k) c := by
  have hcall' := next_of_act hcall
  have hidle : (e.run n).stopper = .idle := by
    generalize e.run (n + 1) = t at hcall'
    generalize e.run n = s at hcall'
    cases hcall'
    assumption
  have inv : ∀ k, StopInv cfg (e.trace k) (e.run k) := fun k => stopInv (h0 ▸ e.steps k)
  have hreg' : ∀ k c, .register c ∈ e.trace k → .register c ∈ e.trace n := by
    intro k c hk
    obtain ⟨j, hj, h⟩ := e.mem_trace hk
    exact act_mem_trace (Nat.lt_of_not_le fun hle => hreg j c hle h) h
  have hsta : ∀ m c, e.act m = some (.stop c) → .start c ∈ e.trace m := by
    intro m c hm
    have h1 : .register c ∈ e.trace m := by
      have := ((inv (m + 1)).stopped c (act_mem_trace (Nat.lt_succ_self m) hm)).1
      unfold Exec.trace at this
      rw [hm] at this
      simpa using this
    have h2 := ((inv n).reg c).1 (hreg' m c h1)
    have h3 : ServerStop.Label.start c ∈ e.trace n := ((inv n).started c).2 ⟨h2.1, h2.2, hst c⟩
    refine trace_mono (Nat.le_of_not_lt fun hlt => ?_) h3
    have h4 := next_of_act hm
    have h5 : (e.run m).stopper ≠ .idle := by
      generalize e.run (m + 1) = t at h4
      generalize e.run m = s at h4
      cases h4 <;> simp_all
    refine absurd hidle (e.invariant (P := fun s => s.stopper ≠ .idle) (fun s l t h hs => ?_) h5 n (by omega))
    cases hs <;> simp_all
  obtain ⟨m, hm, h⟩ := C66_partial hsh hmode h0 hf hcall hsta
  refine ⟨m, hm, fun k hk => ⟨(h k hk).1, fun c ho => ?_⟩⟩
  obtain ⟨l1, l2, e1, e2⟩ := (((h k hk).2 c).1 ho).1
  -- registered before the call of `Stop`, and so before any shard was looked at
  have late : ∀ j, n ≤ j → RegLate cfg c (e.trace j) → RegLate cfg c (e.trace n) := by
    intro j hj
    induction j with
    | zero => intro hL; have : n = 0 := by omega
              subst this; exact hL
    | succ j ih =>
      intro hL
      by_cases e3 : n = j + 1
      · subst e3; exact hL
      · refine ih (by omega) ?_
        unfold Exec.trace at hL
        cases ha : e.act j with
        | none => rw [ha] at hL; simpa using hL
        | some l =>
          rw [ha] at hL
          rcases regLate_snoc.1 hL with hL | ⟨hL, _⟩
          · exact hL
          · exact absurd (hL ▸ ha) (hreg j c (by omega))
  obtain ⟨l1, l2, e3, e4⟩ := late k (by omega) ⟨l1, l2, e1, e2⟩
  have := ((inv n).looked (cfg.shard c)).1 (by rw [e3]; exact List.mem_append_left _ e4)
  rw [hidle] at this
  exact this

theorem hooks_once {ls : List ServerStop.Label} {t : ServerStop.State} (h : Steps (ServerStop.Step cfg) {} ls t) (c : Nat) : ls.count (.hook c) = if t.conns c = .hooked ∨ t.conns c = .removed then 1 else 0 := by
  refine h.invariant_trace (P := fun ls s => ls.count (.hook c) = if s.conns c = .hooked ∨ s.conns c = .removed then 1 else 0) ?_ rfl
  intro ls s l t hp hs
  rw [List.count_append, hp]
  cases hs <;> simp_all [upd, List.count_cons] <;> grind

/-- **C66 (the hooks).** Every connection that has been told to stop, or has ended, leaves the manager, and then its stop hook has run, once; if its goroutine runs. -/
theorem C66_hooks (h0 : e.run 0 = {}) {c n : Nat} (hf : e.WeakFair fun l => l = .hook c ∨ l = .finalize c) (hc : (e.run n).conns c = .cancelled ∨ (e.run n).conns c = .hooked ∨ (e.run n).conns c = .removed) :
    ∃ m, n ≤ m ∧ ∀ k, m ≤ k → (e.run k).conns c = .removed ∧ (e.trace k).count (.hook c) = 1 := by
  obtain ⟨m, hm, h⟩ : ∃ m, n ≤ m ∧ (e.run m).conns c = .removed := by
    rw [← or_assoc] at hc
    rcases hc with hc | hc
    rotate_left
    · exact ⟨n, Nat.le_refl n, hc⟩
    refine e.leads_weak_dec hf (P := fun s => s.conns c = .cancelled ∨ s.conns c = .hooked) (Q := fun s => s.conns c = .removed) (fun s => if s.conns c = .cancelled then 1 else 0) ?_ ?_ ?_ hc
    · intro s l t hp hs
      cases hs <;> simp_all [upd] <;> grind
    · intro s l t hp hs hA
      cases hs <;> simp_all [upd]
    · rintro s (hp | hp)
      · exact ⟨_, _, .inl rfl, .hook c hp⟩
      · exact ⟨_, _, .inr rfl, .finalize c hp⟩
  refine ⟨m, hm, fun k hk => ?_⟩
  have hr := e.invariant (P := fun s => s.conns c = .removed) (fun s l t h hs => by cases hs <;> simp_all [upd] <;> grind) h k hk
  refine ⟨hr, ?_⟩
  have := hooks_once (cfg := cfg) (h0 ▸ e.steps k) c
  rwa [if_pos (.inr hr)] at this

end

/-! ## Where the statement fails -/

/-- **C66, refuted (WebSocket).** With WebSocket alone `Stop` never returns, since nobody receives from the exit channel. -/
theorem C66_ws_refuted (cfg : Cfg) (hm : cfg.mode = .ws) (t : ServerStop.State) (ls : List ServerStop.Label) (h : Steps (ServerStop.Step cfg) {} ls t) : t.stopper ≠ .returned := by
  have := h.invariant (P := fun s => s.listener = .starting ∧ s.stopper ≠ .close ∧ s.stopper ≠ .returned) (by
    intro s l t hp hs
    cases hs <;> simp_all [Mode.listens]) ⟨rfl, nofun, nofun⟩
  exact this.2.2

/-- One shard; connection 0 by TCP, all others by WebSocket. -/
def oneShard (mode : Mode) : Cfg := ⟨mode, 1, fun _ => 0, fun c => c != 0⟩

/-- **C66, refuted (late connections).** A connection entered into the manager after `ClearConn` has looked stays open when `Stop` has returned; here it was even accepted before `Stop` was called. -/
theorem C66_late_refuted : ∃ ls t, Steps (ServerStop.Step (oneShard .tcp)) {} ls t ∧ t.stopper = .returned ∧ t.listener = .done ∧ t.conns 0 = .started ∧ ls.idxOf (.accept 0) < ls.idxOf .callStop :=
  ⟨[.listen, .accept 0, .callStop, .look 0, .register 0, .seen, .cleared, .sendExit, .closeExit, .listen, .start 0], _,
    .cons (.listen rfl rfl) (.cons (.accept 0 rfl nofun) (.cons (.callStop rfl) (.cons (.look 0 [0] [] [] rfl (.head _) (by
      intro c
      by_cases e : c = 0
      · subst e; exact ⟨nofun, fun h => nomatch h.2⟩
      · simp [upd, e, Conn.present])) (.cons (.register 0 rfl) (.cons (.seen _ rfl) (.cons (.cleared rfl) (.cons (.sendExit rfl rfl) (.cons (.closeExit rfl)
    (.cons (.closeListener rfl) (.cons (.start 0 rfl) (.nil _))))))))))), rfl, rfl, rfl, by decide⟩

/-- **C66, refuted (connections that are not started).** A connection that is in the manager but not started yet makes `Stop` panic. -/
theorem C66_unstarted_refuted : ∃ ls t, Steps (ServerStop.Step (oneShard .tcp)) {} ls t ∧ t.stopper = .panicked :=
  ⟨[.listen, .accept 0, .register 0, .callStop, .look 0, .seen, .stop 0], _,
    .cons (.listen rfl rfl) (.cons (.accept 0 rfl nofun) (.cons (.register 0 rfl) (.cons (.callStop rfl) (.cons (.look 0 [0] [] [0] rfl (.head _) (by
      intro c
      by_cases e : c = 0
      · subst e; exact ⟨fun _ => ⟨rfl, rfl⟩, fun _ => .head _⟩
      · simp [upd, e, Conn.present])) (.cons (.seen _ rfl) (.cons (.stopNil 0 _ rfl (.head _) rfl) (.nil _))))))), rfl⟩

/-- **C66, refuted (TCP and WebSocket together).** After `Stop` has returned and the TCP listener is closed, WebSocket connections are accepted and started as before. -/
theorem C66_both_refuted (cfg : Cfg) (hm : cfg.mode = .both) (s : ServerStop.State) (c : Nat) (hw : cfg.web c = true) (hc : s.conns c = .absent) :
    ∃ t, Steps (ServerStop.Step cfg) s [.accept c, .register c, .start c] t ∧ t.conns c = .started ∧ t.stopper = s.stopper ∧ t.listener = s.listener := by
  refine ⟨_, .cons (.accept c hc (by simp [Cfg.open, hm, hw])) (.cons (.register c (by simp [upd])) (.cons (.start c (by simp [upd])) (.nil _))), by simp [upd], rfl, rfl⟩

/-- **C66, refuted (the hooks).** When `Stop` has returned, the stop hook of a connection it has stopped need not have run, and its socket need not have been closed. -/
theorem C66_hooks_refuted : ∃ ls t, Steps (ServerStop.Step (oneShard .tcp)) {} ls t ∧ t.stopper = .returned ∧ t.conns 0 = .cancelled ∧ .stop 0 ∈ ls ∧ .hook 0 ∉ ls :=
  ⟨[.listen, .accept 0, .register 0, .start 0, .callStop, .look 0, .seen, .stop 0, .cleared, .sendExit, .closeExit], _,
    .cons (.listen rfl rfl) (.cons (.accept 0 rfl nofun) (.cons (.register 0 rfl) (.cons (.start 0 rfl) (.cons (.callStop rfl) (.cons (.look 0 [0] [] [0] rfl (.head _) (by
      intro c
      by_cases e : c = 0
      · subst e; exact ⟨fun _ => ⟨rfl, rfl⟩, fun _ => .head _⟩
      · simp [upd, e, Conn.present])) (.cons (.seen _ rfl) (.cons (.stopConn 0 _ rfl (.head _) rfl) (.cons (.cleared rfl) (.cons (.sendExit rfl rfl) (.cons (.closeExit rfl) (.nil _))))))))))),
    rfl, rfl, by decide, by decide⟩

/-- **C117 (what `Serve` does when a signal comes).** It returns, in every state, and does nothing else: without the signal the execution would have been the same. -/
theorem C117_exact (cfg : Cfg) (ls : List ServerStop.Label) (t : ServerStop.State) (h : Steps (ServerStop.Step cfg) {} ls t) :
    (t.served = false → ServerStop.Step cfg t .signal { t with served := true }) ∧ (t.served = true ↔ .signal ∈ ls) ∧
      Steps (ServerStop.Step cfg) {} (ls.filter (· ≠ .signal)) { t with served := false } := by
  refine ⟨fun h => .signal h, ?_⟩
  refine h.invariant_trace (P := fun ls t => (t.served = true ↔ .signal ∈ ls) ∧ Steps (ServerStop.Step cfg) {} (ls.filter (· ≠ .signal)) { t with served := false }) ?_ ⟨by simp, .nil _⟩
  rintro ls s l t ⟨h1, h2⟩ hs
  by_cases hl : l = .signal
  · subst hl
    cases hs
    exact ⟨by simp, by simpa using h2⟩
  · have hstep : ServerStop.Step cfg { s with served := false } l { t with served := false } := by
      cases hs with
      | accept c a b => exact .accept c a b
      | register c a => exact .register c a
      | start c a => exact .start c a
      | drop c a => exact .drop c a
      | hook c a => exact .hook c a
      | finalize c a => exact .finalize c a
      | listen a b => exact .listen a b
      | closeListener a => exact .closeListener a
      | callStop a => exact .callStop a
      | look k left seen cs a b d => exact .look k left seen cs a b d
      | seen l a => exact .seen l a
      | stopNil c cs a b d => exact .stopNil c cs a b d
      | stopConn c cs a b d => exact .stopConn c cs a b d
      | stopAgain c cs a b d f => exact .stopAgain c cs a b d f
      | cleared a => exact .cleared a
      | sendExit a b => exact .sendExit a b
      | closeExit a => exact .closeExit a
      | signal a => exact absurd rfl hl
    have hsv : t.served = s.served := by
      cases hs <;> first | rfl | exact absurd rfl hl
    refine ⟨?_, ?_⟩
    · rw [hsv, h1]
      simp [Ne.symm hl]
    · rw [List.filter_append]
      simp only [List.filter_cons, List.filter_nil, ne_eq, hl, not_false_iff, decide_true, if_true]
      exact h2.snoc hstep

/-- Every goroutine of the server runs. -/
structure ServerFair {cfg : Cfg} (e : Exec (ServerStop.Step cfg)) : Prop extends StopFair e where
  accepted : ∀ c, e.WeakFair (· = .register c)
  created : ∀ c, e.WeakFair (· = .start c)
  ended : ∀ c, e.WeakFair fun l => l = .hook c ∨ l = .finalize c

/-- **C117, refuted.** A signal comes, `Serve` returns, and a connection that was open stays open for ever, its stop hook is never run, though every goroutine runs. -/
theorem C117_refuted : ∃ e : Exec (ServerStop.Step (oneShard .tcp)), e.run 0 = {} ∧ ServerFair e ∧ ∃ n, e.act n = some .signal ∧ ∀ m, n < m → (e.run m).served = true ∧ (e.run m).conns 0 = .started ∧ .hook 0 ∉ e.trace m := by
  have h : Steps (ServerStop.Step (oneShard .tcp)) {} [.listen, .accept 0, .register 0, .start 0, .signal] _ :=
    .cons (.listen rfl rfl) (.cons (.accept 0 rfl nofun) (.cons (.register 0 rfl) (.cons (.start 0 rfl) (.cons (.signal rfl) (.nil _)))))
  obtain ⟨e, h1, h2, h3, h4⟩ := Exec.ofSteps h
  have hc : ∀ c, upd (upd (upd (fun _ => .absent) 0 .accepted) 0 .created) 0 .started c = if c = 0 then .started else .absent := by
    intro c
    simp only [upd]
    split <;> rfl
  refine ⟨e, h1, ⟨⟨?_, ?_⟩, fun c => ?_, fun c => ?_, fun c => ?_⟩, 4, by rw [h2]; rfl, fun m hm => ?_⟩
  all_goals try refine Exec.weakFair_of_end h4 ?_
  · rintro ⟨l, t, hA, hs⟩
    cases hs <;> simp_all [StopActs]
  · rintro ⟨l, t, hA, hs⟩
    cases hs <;> simp_all
  · rintro ⟨l, t, hA, hs⟩
    cases hs <;> simp_all
    grind
  · rintro ⟨l, t, hA, hs⟩
    cases hs <;> simp_all
    grind
  · rintro ⟨l, t, hA, hs⟩
    cases hs <;> simp_all <;> grind
  · rw [h4 m (show 5 ≤ m from hm), h3]
    refine ⟨rfl, rfl, fun h => ?_⟩
    have := List.mem_of_mem_take h
    simp at this

/-- **C117**, in part: the application has to call `Stop` itself. If it does (in every mode but WebSocket alone, once all connections in the manager have been started and when none is entered into it any more), `Stop` returns,
and every connection runs its stop hook, once, and leaves the manager. -/
theorem C117_partial {cfg : Cfg} {e : Exec (ServerStop.Step cfg)} (hsh : ∀ c, cfg.shard c < cfg.shards) (hmode : cfg.mode ≠ .ws) (h0 : e.run 0 = {}) (hf : ServerFair e) {n : Nat} (hcall : e.act n = some .callStop)
    (hst : ∀ c, (e.run n).conns c ≠ .created) (hreg : ∀ m c, n ≤ m → e.act m ≠ some (.register c)) :
    (∃ m, n < m ∧ (e.run m).stopper = .returned) ∧ ∀ c, .register c ∈ e.trace n → ∃ m, ∀ k, m ≤ k → (e.run k).conns c = .removed ∧ (e.trace k).count (.hook c) = 1 := by
  obtain ⟨m, hm, h⟩ := C66_quiet hsh hmode h0 hf.toStopFair hcall hst hreg
  refine ⟨⟨m, hm, (h m (Nat.le_refl m)).1⟩, fun c hc => ?_⟩
  have hi : StopInv cfg (e.trace m) (e.run m) := stopInv (h0 ▸ e.steps m)
  have h1 := (hi.reg c).1 (trace_mono (by omega) hc)
  have h2 := (h m (Nat.le_refl m)).2 c
  obtain ⟨j, _, hj⟩ := C66_hooks h0 (hf.ended c) (n := m) (by
    unfold stillOpen at h2
    cases e1 : (e.run m).conns c <;> simp_all)
  exact ⟨j, hj⟩

/-! ## Examples -/

/-- What connection 0 and the others do in the examples. -/
theorem stop_example_steps : ∃ t, Steps (ServerStop.Step (oneShard .both)) {} [.listen, .accept 0, .register 0, .start 0, .signal, .callStop, .look 0, .accept 1, .register 1, .start 1, .seen, .stop 0, .cleared, .sendExit, .closeExit,
    .listen, .hook 0, .finalize 0] t ∧ t.stopper = .returned ∧ t.listener = .done ∧ t.conns = fun c => if c = 0 then .removed else if c = 1 then .started else .absent := by
  have h : Steps (ServerStop.Step (oneShard .both)) {} [.listen, .accept 0, .register 0, .start 0, .signal, .callStop] ⟨upd (upd (upd (fun _ => .absent) 0 .accepted) 0 .created) 0 .started, .waiting, .looking [0] [], true⟩ :=
    .cons (.listen rfl rfl) (.cons (.accept 0 rfl nofun) (.cons (.register 0 rfl) (.cons (.start 0 rfl) (.cons (.signal rfl) (.cons (.callStop rfl) (.nil _))))))
  have e1 : upd (upd (upd (fun _ => .absent) 0 .accepted) 0 .created) 0 .started = fun c => if c = 0 then .started else .absent := by
    funext c
    simp only [upd]
    split <;> rfl
  rw [e1] at h
  have h2 : Steps (ServerStop.Step (oneShard .both)) ⟨fun c => if c = 0 then .started else .absent, .waiting, .looking [0] [], true⟩ [.look 0, .accept 1, .register 1, .start 1]
      ⟨upd (upd (upd (fun c => if c = 0 then .started else .absent) 1 .accepted) 1 .created) 1 .started, .waiting, .looking [] [0], true⟩ :=
    .cons (.look 0 [0] [] [0] rfl (.head _) (by
      intro c
      by_cases e : c = 0
      · subst e; exact ⟨fun _ => ⟨rfl, rfl⟩, fun _ => .head _⟩
      · simp [e, Conn.present])) (.cons (.accept 1 rfl trivial) (.cons (.register 1 rfl) (.cons (.start 1 rfl) (.nil _))))
  have e2 : upd (upd (upd (fun c => if c = 0 then Conn.started else .absent) 1 .accepted) 1 .created) 1 .started = fun c => if c = 0 then .started else if c = 1 then .started else .absent := by
    funext c
    simp only [upd]
    grind
  rw [e2] at h2
  have h3 : Steps (ServerStop.Step (oneShard .both)) ⟨fun c => if c = 0 then .started else if c = 1 then .started else .absent, .waiting, .looking [] [0], true⟩
      [.seen, .stop 0, .cleared, .sendExit, .closeExit, .listen, .hook 0, .finalize 0]
      ⟨upd (upd (upd (fun c => if c = 0 then .started else if c = 1 then .started else .absent) 0 .cancelled) 0 .hooked) 0 .removed, .done, .returned, true⟩ :=
    .cons (.seen _ rfl) (.cons (.stopConn 0 [0] rfl (.head _) rfl) (.cons (.cleared rfl) (.cons (.sendExit rfl rfl) (.cons (.closeExit rfl) (.cons (.closeListener rfl) (.cons (.hook 0 rfl) (.cons (.finalize 0 rfl) (.nil _))))))))
  refine ⟨_, (h.append h2).append h3, rfl, rfl, ?_⟩
  funext c
  simp only [upd]
  grind

/-- TCP and WebSocket together: connection 0 is stopped, connection 1 comes too late and stays; every goroutine is fair, the hooks run. -/
example : ∃ e : Exec (ServerStop.Step (oneShard .both)), e.run 0 = {} ∧ ServerFair e ∧ e.act 5 = some .callStop ∧ (∀ m c, e.act m = some (.stop c) → .start c ∈ e.trace m) ∧
    RegLate (oneShard .both) 1 (e.trace 20) ∧ (e.run 20).conns 0 = .removed ∧ (e.run 20).conns 1 = .started := by
  obtain ⟨t, h, hp, hl, hc⟩ := stop_example_steps
  obtain ⟨e, h1, h2, h3, h4⟩ := Exec.ofSteps h
  refine ⟨e, h1, ⟨⟨?_, ?_⟩, fun c => ?_, fun c => ?_, fun c => ?_⟩, by rw [h2]; rfl, ?_, ?_, ?_, ?_⟩
  iterate 5
    · refine Exec.weakFair_of_end h4 ?_
      clear h h1 h2 h3 h4
      rintro ⟨l, u, hA, hs⟩
      cases hs <;> simp_all [StopActs] <;> grind
  · intro m c hm
    rw [h2] at hm
    rw [h3]
    match m with
    | 0 | 1 | 2 | 3 | 4 | 5 | 6 | 7 | 8 | 9 | 10 | 12 | 13 | 14 | 15 | 16 | 17 => simp at hm
    | 11 => simp at hm; subst hm; simp
    | m + 18 => simp at hm
  · rw [h3]
    exact ⟨[.listen, .accept 0, .register 0, .start 0, .signal, .callStop, .look 0, .accept 1], _, rfl, by decide⟩
  · rw [h4 20 (by simp), hc]; rfl
  · rw [h4 20 (by simp), hc]; rfl

/-- A connection is open when the signal comes; then `Stop` is called; nothing comes any more. -/
example : ∃ e : Exec (ServerStop.Step (oneShard .tcp)), e.run 0 = {} ∧ ServerFair e ∧ e.act 4 = some .signal ∧ e.act 5 = some .callStop ∧ (∀ c, (e.run 5).conns c ≠ .created) ∧ (∀ m c, 5 ≤ m → e.act m ≠ some (.register c)) ∧
    (oneShard .tcp).mode ≠ .ws ∧ (∀ c, (oneShard .tcp).shard c < (oneShard .tcp).shards) := by
  have h : Steps (ServerStop.Step (oneShard .tcp)) {} [.listen, .accept 0, .register 0, .start 0, .signal] ⟨upd (upd (upd (fun _ => .absent) 0 .accepted) 0 .created) 0 .started, .waiting, .idle, true⟩ :=
    .cons (.listen rfl rfl) (.cons (.accept 0 rfl nofun) (.cons (.register 0 rfl) (.cons (.start 0 rfl) (.cons (.signal rfl) (.nil _)))))
  have e1 : upd (upd (upd (fun _ => .absent) 0 .accepted) 0 .created) 0 .started = fun c => if c = 0 then .started else .absent := by
    funext c
    simp only [upd]
    split <;> rfl
  rw [e1] at h
  have h' : Steps (ServerStop.Step (oneShard .tcp)) ⟨fun c => if c = 0 then .started else .absent, .waiting, .idle, true⟩ [.callStop, .look 0, .seen, .stop 0, .cleared, .sendExit, .closeExit, .listen, .hook 0, .finalize 0]
      ⟨upd (upd (upd (fun c => if c = 0 then .started else .absent) 0 .cancelled) 0 .hooked) 0 .removed, .done, .returned, true⟩ :=
    .cons (.callStop rfl) (.cons (.look 0 [0] [] [0] rfl (.head _) (by
      intro c
      by_cases e : c = 0
      · subst e; exact ⟨fun _ => ⟨rfl, rfl⟩, fun _ => .head _⟩
      · simp [e, Conn.present])) (.cons (.seen _ rfl) (.cons (.stopConn 0 [0] rfl (.head _) rfl) (.cons (.cleared rfl) (.cons (.sendExit rfl rfl) (.cons (.closeExit rfl) (.cons (.closeListener rfl) (.cons (.hook 0 rfl)
      (.cons (.finalize 0 rfl) (.nil _))))))))))
  have e2 : upd (upd (upd (fun c => if c = 0 then Conn.started else .absent) 0 .cancelled) 0 .hooked) 0 .removed = fun c => if c = 0 then .removed else .absent := by
    funext c
    simp only [upd]
    grind
  rw [e2] at h'
  obtain ⟨e, h1, h2, h3, h4⟩ := Exec.ofSteps (h.append h')
  have h5 : StopInv (oneShard .tcp) (e.trace 5) (e.run 5) := stopInv (h1 ▸ e.steps 5)
  refine ⟨e, h1, ⟨⟨?_, ?_⟩, fun c => ?_, fun c => ?_, fun c => ?_⟩, by rw [h2]; rfl, by rw [h2]; rfl, ?_, ?_, nofun, fun _ => Nat.one_pos⟩
  iterate 5
    · refine Exec.weakFair_of_end h4 ?_
      clear h h1 h2 h3 h4
      rintro ⟨l, u, hA, hs⟩
      cases hs <;> simp_all [StopActs] <;> grind
  · intro c
    intro hc
    have h6 := (h5.reg c).2 (by rw [hc]; exact ⟨nofun, nofun⟩)
    have h7 : ¬ ServerStop.Label.start c ∈ e.trace 5 := fun x => ((h5.started c).1 x).2.2 hc
    rw [h3] at h6 h7
    simp at h6 h7
    exact h7 h6
  · intro m c hm
    rw [h2]
    match m, hm with
    | 5, _ | 6, _ | 7, _ | 8, _ | 9, _ | 10, _ | 11, _ | 12, _ | 13, _ | 14, _ => simp
    | m + 15, _ => simp

end Zinx.Props
