import Verif.Props.Worker

namespace Zinx.Props
open Zinx Zinx.Worker

/-- Two connections hold the same worker. -/
def WorkerShared (s : AState) : Prop := ∃ n1 n2 w, n1 ≠ n2 ∧ (n1, Phase.holds w) ∈ s.conns ∧ (n2, Phase.holds w) ∈ s.conns

theorem bindInv_unshared {cfg : Cfg} {s : AState} (h : BindInv cfg s) : ¬ WorkerShared s := by
  rintro ⟨n1, n2, w, hne, h1, h2⟩
  have hn : (s.free ++ heldWorkers s.conns).Nodup := h.2.1.nodup_iff.mpr List.nodup_range
  rw [List.nodup_append] at hn
  exact hne (held_unique hn.2.1 h1 h2)

/-- A worker asked for while all are held is shared. -/
theorem bind_shares {cfg : Cfg} (hm : cfg.mode = .bind) (hc : cfg.client = false) (hpos : 0 < cfg.maxConn) {s t : AState} {n w : Nat} (h : BindInv cfg s) (hs : AStep cfg s (.take n w) t)
    (hfull : cfg.maxConn ≤ holding s) : WorkerShared t := by
  have hlen := h.2.1.length_eq
  rw [List.length_append, ← holding_eq, List.length_range] at hlen
  have hfree : s.free = [] := List.eq_nil_of_length_eq_zero (by omega)
  cases hs with
  | hash n hm' => rw [hm] at hm'; cases hm'
  | free _ _ _ _ hw => rw [hfree] at hw; cases hw
  | extra _ _ hw => exact absurd hw (h.2.2 _)
  | extraNone _ hw => exact absurd hw (h.2.2 _)
  | bindNone _ _ hn _ =>
    have hpool : cfg.pool = cfg.maxConn := by simp [Cfg.pool, hc, Cfg.globalPool, hm]
    have hlt : fallback cfg n < cfg.maxConn := by
      unfold fallback
      rw [hpool, if_neg (by omega)]
      exact Nat.mod_lt _ hpos
    have hmem : fallback cfg n ∈ s.free ++ heldWorkers s.conns := h.2.1.mem_iff.2 (List.mem_range.2 hlt)
    rw [hfree, List.nil_append] at hmem
    obtain ⟨n2, h2⟩ := mem_heldWorkers.1 hmem
    have hne : n ≠ n2 := by
      intro e
      subst e
      obtain ⟨l1, l2, e1, _⟩ := split_conn h.1.1 hn
      have hnd := h.1.1
      rw [e1] at hnd h2
      simp [List.nodup_append] at hnd h2
      rcases h2 with h2 | h2
      · exact (hnd.2.2 _ _ h2).1 rfl
      · exact hnd.2.1.1 _ h2
    refine ⟨n, n2, fallback cfg n, hne, ?_, ?_⟩
    · exact List.mem_map.2 ⟨_, hn, by simp⟩
    · exact List.mem_map.2 ⟨_, h2, by simp [Ne.symm hne]⟩

/-- **C28 (exact).** In bind mode, no worker is shared at any point of an execution exactly if a worker is only ever asked for while fewer than `MaxConn` connections hold one. -/
theorem C28_exact (cfg : Cfg) (hm : cfg.mode = .bind) (hc : cfg.client = false) (hpos : 0 < cfg.maxConn) (ch : Nat → Chan) (ls : List AAct) (s : AState) :
    StepsAll (AStep cfg) (fun u => ¬ WorkerShared u) (assignInit cfg ch) ls s ↔ Steps (CalmStep cfg) (assignInit cfg ch) ls s := by
  have h0 := bindInv_init cfg hm ch
  generalize assignInit cfg ch = u at h0
  constructor
  · intro h
    induction h with
    | nil _ => exact .nil _
    | cons hq hs h2 ih =>
      have hcalm : CalmStep cfg _ _ _ := ⟨hs, fun n w hl => by
        apply Classical.byContradiction
        intro hge
        subst hl
        exact h2.first (bind_shares hm hc hpos h0 hs (by omega))⟩
      exact .cons hcalm (ih (bindInv_step hm _ _ _ h0 hcalm))
  · intro h
    induction h with
    | nil _ => exact .nil (bindInv_unshared h0)
    | cons hs _ ih => exact .cons (bindInv_unshared h0) hs.1 (ih (bindInv_step hm _ _ _ h0 hs))

example : ∃ ls s, StepsAll (AStep bindCfg) (fun u => ¬ WorkerShared u) bindStart ls s ∧ ls ≠ [] :=
  ⟨[.accept 1, .take 1 0, .accept 2, .take 2 1], _, (C28_exact bindCfg rfl rfl (by decide) _ _ _).2
    (.cons ⟨.accept _ (by decide), by simp⟩ (.cons ⟨.free _ 1 0 (by decide) (by decide) (by decide), fun _ _ _ => by decide⟩
    (.cons ⟨.accept _ (by decide), by simp⟩ (.cons ⟨.free _ 2 1 (by decide) (by decide) (by decide), fun _ _ _ => by decide⟩ (.nil _))))), by simp⟩

/-- A connection that takes a worker which another one holds shares it. -/
theorem take_shares {cfg : Cfg} {s t : AState} {n m w : Nat} (hnd : (s.conns.map (·.1)).Nodup) (hs : AStep cfg s (.take n w) t) (hh : (m, Phase.holds w) ∈ s.conns) : WorkerShared t := by
  have go : ∀ p, (n, p) ∈ s.conns → (∀ v, p ≠ .holds v) → t.conns = setPhase s.conns n (.holds w) → WorkerShared t := by
    intro p hp hne e
    have hnm : m ≠ n := by
      rintro rfl
      obtain ⟨l1, l2, e1, _⟩ := split_conn hnd hp
      rw [e1] at hnd hh
      simp only [List.map_append, List.map_cons, List.nodup_append, List.nodup_cons] at hnd
      rcases List.mem_append.mp hh with hh | hh
      · exact hnd.2.2 m (List.mem_map_of_mem hh) m (by simp) rfl
      · rcases List.mem_cons.mp hh with hh | hh
        · exact hne w (Prod.mk.inj hh).2.symm
        · exact hnd.2.1.1 (List.mem_map_of_mem (f := (·.1)) hh)
    exact ⟨m, n, w, hnm, by rw [e]; exact mem_setPhase_ne hh hnm, by rw [e]; exact mem_setPhase_self hp⟩
  cases hs with
  | hash _ _ hn => exact go _ hn (by simp) rfl
  | free _ _ _ hn _ => exact go _ hn (by simp) rfl
  | bindNone _ _ hn _ => exact go _ hn (by simp) rfl
  | extra _ _ hn _ => exact go _ hn (by simp) rfl
  | extraNone _ hn _ => exact go _ hn (by simp) rfl

/-- **C29 (exact).** On a server in dynamic bind mode with more connections allowed than base workers, no worker is shared at any point of an execution exactly if an overflow worker is only ever taken when no
connection holds it. -/
theorem C29_exact (cfg : Cfg) (hc : cfg.client = false) (hm : cfg.mode = .dynamicBind) (hpos : 0 < cfg.workerPoolSize)
    (hlt : cfg.workerPoolSize < cfg.maxConn) {ch : Nat → Chan} (hstart : startWorkerPool cfg = .ok ch) (ls : List AAct) (s : AState) :
    StepsAll (AStep cfg) (fun u => ¬ WorkerShared u) (assignInit cfg ch) ls s ↔ Steps (ApartStep cfg) (assignInit cfg ch) ls s := by
  have hpool : cfg.pool = cfg.workerPoolSize := by simp [Cfg.pool, hc, Cfg.globalPool, hm]
  have hle : cfg.pool ≤ cfg.taskLen := by rw [hpool]; simp only [Cfg.taskLen, hm]; omega
  constructor
  · have h0 : BaseInv cfg (assignInit cfg ch) ∧ NumInv cfg (assignInit cfg ch) := ⟨baseInv_init cfg hm hlt ch, numInv_init hc hstart⟩
    generalize assignInit cfg ch = u at h0
    intro h
    induction h with
    | nil _ => exact .nil _
    | cons hq hs h2 ih =>
      refine .cons ⟨hs, ?_⟩ (ih ⟨baseInv_step hm _ _ _ h0 hs, numInv_step (by omega) hle _ _ _ h0.2 hs⟩)
      intro n w hl _ m hh
      subst hl
      exact h2.first (take_shares h0.1.1.1 hs hh)
  · have key : ∀ (ls : List AAct) (s : AState), Steps (ApartStep cfg) (assignInit cfg ch) ls s → ¬ WorkerShared s := by
      rintro ls s h ⟨n1, n2, w, hne, h1, h2⟩
      exact hne ((C29_apart_partial cfg hc hm hpos hlt hstart h).1 n1 n2 w h1 h2)
    intro h
    have go : ∀ (pre : List AAct) (a : AState) (ls : List AAct) (s : AState), Steps (ApartStep cfg) (assignInit cfg ch) pre a → Steps (ApartStep cfg) a ls s → StepsAll (AStep cfg) (fun u => ¬ WorkerShared u) a ls s := by
      intro pre a ls s hpre h
      induction h generalizing pre with
      | nil _ => exact .nil (key _ _ hpre)
      | cons hs _ ih => exact .cons (key _ _ hpre) hs.1 (ih _ (hpre.snoc hs))
    exact go [] _ _ _ (.nil _) h

/-- **C29 (exact, when it goes wrong).** The set of overflow workers never shrinks: in every reachable state, a connection that found no base worker free may be given any overflow worker, those held by others included. -/
theorem C29_any (cfg : Cfg) (hm : cfg.mode = .dynamicBind) (ch : Nat → Chan) {ls : List AAct} {s : AState}
    (h : Steps (AStep cfg) (assignInit cfg ch) ls s) (n w : Nat) (hn : (n, Phase.wantExtra) ∈ s.conns) (hw : cfg.workerPoolSize ≤ w) (hw2 : w < cfg.maxConn) :
    ∃ t, AStep cfg s (.take n w) t ∧ (∀ m, (m, Phase.holds w) ∈ s.conns → WorkerShared t) := by
  have inv : (∀ w, cfg.workerPoolSize ≤ w → w < cfg.maxConn → w ∈ s.extra) ∧ IdsOk s := h.invariant (P := fun s => (∀ w, cfg.workerPoolSize ≤ w → w < cfg.maxConn → w ∈ s.extra) ∧ IdsOk s) ?_ ?_
  · exact ⟨_, .extra s n w hn (inv.1 w hw hw2), fun m hh => take_shares (cfg := cfg) inv.2.1 (.extra s n w hn (inv.1 w hw hw2)) hh⟩
  · intro s l t ⟨he, hi⟩ hs
    refine ⟨?_, idsOk_step _ _ _ hi hs⟩
    intro w hw hw2
    have := he w hw hw2
    cases hs with
    | release _ _ _ _ _ hf =>
      unfold freeWorker at hf
      split at hf
      · cases hf; exact this
      · cases hf; exact this
      · split at hf
        · cases hf; exact this
        · split at hf
          · cases hf
          · split at hf
            · cases hf
            · cases hf
            · cases hf; exact List.mem_insert_of_mem this
    | _ => exact this
  · refine ⟨fun w hw hw2 => ?_, idsOk_init cfg ch⟩
    simp only [assignInit, Cfg.extra, hm, Cfg.globalPool, List.mem_range'_1]
    omega

/-- Two connections, one with the base worker, one with an overflow worker: nothing is shared; a third one that comes may be given the worker of the second. -/
example : ∃ s t, StepsAll (AStep dynCfg) (fun u => ¬ WorkerShared u) dynStart [.accept 1, .take 1 0, .accept 2, .look 2, .take 2 1, .accept 3, .look 3] s ∧ AStep dynCfg s (.take 3 1) t ∧ WorkerShared t := by
  have h : ∃ s, Steps (ApartStep dynCfg) dynStart [.accept 1, .take 1 0, .accept 2, .look 2, .take 2 1, .accept 3, .look 3] s ∧ (3, Phase.wantExtra) ∈ s.conns ∧ (2, Phase.holds 1) ∈ s.conns := by
    refine ⟨_, .cons ⟨.accept _ (by decide), by simp⟩ (.cons ⟨.free _ 1 0 (by decide) (by decide) (by decide), fun _ _ _ _ => by simp [dynStart, assignInit]⟩ (.cons ⟨.accept _ (by decide), by simp⟩
      (.cons ⟨.look _ 2 rfl (by decide) (by decide), by simp⟩ (.cons ⟨.extra _ 2 1 (by decide) (by decide), ?_⟩ (.cons ⟨.accept _ (by decide), by simp⟩
      (.cons ⟨.look _ 3 rfl (by decide) (by decide), by simp⟩ (.nil _))))))), by decide, by decide⟩
    rintro n w h _ m; cases h; simp [setPhase, dynStart, assignInit]
  obtain ⟨s, hs, h3, h2⟩ := h
  have hall := (C29_exact dynCfg rfl rfl (by decide) (by decide) (ch := dynStart.chan) rfl _ _).2 hs
  obtain ⟨t, ht, hsh⟩ := C29_any dynCfg rfl _ hall.steps 3 1 h3 (by decide) (by decide)
  exact ⟨s, t, hall, ht, hsh 2 h2⟩

end Zinx.Props
