import Verif.Model.ServerStop
import Verif.Lemmas.ExecOf

/-! # C66, C117: stopping a server -/

namespace Zinx.Props
open Zinx Zinx.ServerStop

/-- The connection has been entered into the manager and nothing has told it to end. -/
def stillOpen (s : ServerStop.State) (c : Nat) : Prop := s.conns c = .created ∨ s.conns c = .started

/-- The connection was entered into the manager after `ClearConn` had looked at its shard. -/
def RegLate (cfg : Cfg) (c : Nat) (ls : List ServerStop.Label) : Prop := ∃ l1 l2, ls = l1 ++ .register c :: l2 ∧ .look (cfg.shard c) ∈ l1

theorem regLate_snoc {cfg : Cfg} {c : Nat} {ls : List ServerStop.Label} {l : ServerStop.Label} : RegLate cfg c (ls ++ [l]) ↔ RegLate cfg c ls ∨ l = .register c ∧ .look (cfg.shard c) ∈ ls := by
  constructor
  · rintro ⟨l1, l2, h, hl⟩
    rcases List.eq_nil_or_concat l2 with e | ⟨l3, x, e⟩
    · subst e
      have := List.append_inj' h rfl
      simp only [List.cons.injEq, and_true] at this
      exact .inr ⟨this.2, this.1 ▸ hl⟩
    · subst e
      rw [List.concat_eq_append, show l1 ++ ServerStop.Label.register c :: (l3 ++ [x]) = (l1 ++ .register c :: l3) ++ [x] by simp] at h
      have := List.append_inj' h rfl
      exact .inl ⟨l1, l3, this.1, hl⟩
  · rintro (⟨l1, l2, h, hl⟩ | ⟨h, hl⟩)
    · exact ⟨l1, l2 ++ [l], by rw [h]; simp, hl⟩
    · exact ⟨ls, [], by rw [h], hl⟩

/-- Some connection was told to stop before it had been started. -/
def StopsUnstarted (ls : List ServerStop.Label) : Prop := ∃ l1 c l2, ls = l1 ++ .stop c :: l2 ∧ .start c ∉ l1

theorem stopsUnstarted_snoc {ls : List ServerStop.Label} {l : ServerStop.Label} : StopsUnstarted (ls ++ [l]) ↔ StopsUnstarted ls ∨ ∃ c, l = .stop c ∧ .start c ∉ ls := by
  constructor
  · rintro ⟨l1, c, l2, h, hl⟩
    rcases List.eq_nil_or_concat l2 with e | ⟨l3, x, e⟩
    · subst e
      have := List.append_inj' h rfl
      simp only [List.cons.injEq, and_true] at this
      exact .inr ⟨c, this.2, this.1 ▸ hl⟩
    · subst e
      rw [List.concat_eq_append, show l1 ++ ServerStop.Label.stop c :: (l3 ++ [x]) = (l1 ++ .stop c :: l3) ++ [x] by simp] at h
      have := List.append_inj' h rfl
      exact .inl ⟨l1, c, l3, this.1, hl⟩
  · rintro (⟨l1, c, l2, h, hl⟩ | ⟨c, h, hl⟩)
    · exact ⟨l1, c, l2 ++ [l], by rw [h]; simp, hl⟩
    · exact ⟨ls, c, [], by rw [h], hl⟩

/-- The connections `ClearConn` has seen and not yet stopped. -/
def pendingStops : Stopper → List Nat
  | .looking _ seen => seen
  | .clearing todo => todo
  | _ => []

/-- Has `ClearConn` looked at shard `k`? -/
def lookedAt (n : Nat) (p : Stopper) (k : Nat) : Prop :=
  match p with
  | .idle => False
  | .looking left _ => k < n ∧ k ∉ left
  | _ => k < n

structure StopInv (cfg : Cfg) (ls : List ServerStop.Label) (s : ServerStop.State) : Prop where
  nodup : ∀ left seen, s.stopper = .looking left seen → left.Nodup ∧ ∀ k ∈ left, k < cfg.shards
  looked : ∀ k, .look k ∈ ls ↔ lookedAt cfg.shards s.stopper k
  reg : ∀ c, .register c ∈ ls ↔ s.conns c ≠ .absent ∧ s.conns c ≠ .accepted
  started : ∀ c, .start c ∈ ls ↔ s.conns c ≠ .absent ∧ s.conns c ≠ .accepted ∧ s.conns c ≠ .created
  dropped : ∀ c, .drop c ∈ ls → s.conns c = .cancelled ∨ s.conns c = .hooked ∨ s.conns c = .removed
  ended : ∀ c, (s.conns c = .cancelled ∨ s.conns c = .hooked ∨ s.conns c = .removed) → .drop c ∈ ls ∨ .stop c ∈ ls
  pend : ∀ c ∈ pendingStops s.stopper, .register c ∈ ls ∧ ¬ RegLate cfg c ls
  stopped : ∀ c, .stop c ∈ ls → .register c ∈ ls ∧ ¬ RegLate cfg c ls
  early : s.stopper ≠ .panicked → ∀ c, .look (cfg.shard c) ∈ ls → .register c ∈ ls → ¬ RegLate cfg c ls → c ∈ pendingStops s.stopper ∨ ¬ stillOpen s c
  panics : s.stopper = .panicked ↔ StopsUnstarted ls

theorem regLate_reg {cfg : Cfg} {c : Nat} {ls : List ServerStop.Label} (h : RegLate cfg c ls) : .register c ∈ ls := by
  obtain ⟨l1, l2, rfl, _⟩ := h
  simp

theorem stopInv_init (cfg : Cfg) : StopInv cfg [] {} := by
  constructor <;> simp [lookedAt, pendingStops, stillOpen, StopsUnstarted]

theorem stopInv_step {cfg : Cfg} {ls : List ServerStop.Label} {s t : ServerStop.State} {l : ServerStop.Label} (h : StopInv cfg ls s) (hs : ServerStop.Step cfg s l t) : StopInv cfg (ls ++ [l]) t := by
  have hreg := @regLate_reg cfg
  cases hs with
  | look k left seen cs h1 h2 h3 =>
    have hn := h.nodup _ _ h1
    have hp : ¬ StopsUnstarted ls := fun x => by have := h.panics.2 x; simp [h1] at this
    have hx : ∀ c ∈ cs, .register c ∈ ls := fun c hc => (h.reg c).2 (by
      have := ((h3 c).1 hc).2
      revert this
      cases s.conns c <;> simp [Conn.present])
    have hl : ∀ c ∈ cs, ¬ RegLate cfg c ls := fun c hc hL => by
      have h4 := ((h3 c).1 hc).1
      obtain ⟨l1, l2, e, hL⟩ := hL
      have : ServerStop.Label.look k ∈ ls := by rw [e, ← h4]; exact List.mem_append_left _ hL
      rw [h.looked, h1] at this
      exact this.2 h2
    constructor
    · rintro l' s' e
      cases e
      exact ⟨hn.1.erase k, fun j hj => hn.2 j (List.mem_of_mem_erase hj)⟩
    · intro j
      have := h.looked j
      simp only [h1, lookedAt] at this
      simp only [lookedAt, List.mem_append, List.mem_singleton, ServerStop.Label.look.injEq, this, hn.1.mem_erase_iff]
      constructor
      · rintro (h | h)
        · exact ⟨h.1, fun x => h.2 x.2⟩
        · exact ⟨h ▸ hn.2 k h2, fun x => x.1 h⟩
      · rintro ⟨h, h'⟩
        by_cases e : j = k
        · exact .inr e
        · exact .inl ⟨h, fun x => h' ⟨e, x⟩⟩
    · simpa using h.reg
    · simpa using h.started
    · simpa using h.dropped
    · simpa using h.ended
    · intro c hc
      rw [regLate_snoc]
      have : c ∈ seen ∨ c ∈ cs := by simpa [pendingStops] using hc
      rcases this with h4 | h4
      · have := h.pend c (by rw [h1]; exact h4)
        simpa using this
      · simpa using ⟨hx c h4, hl c h4⟩
    · intro c hc
      rw [regLate_snoc]
      simpa using h.stopped c (by simpa using hc)
    · intro _ c hc hr hL
      rw [regLate_snoc] at hL
      simp only [List.mem_append, List.mem_singleton, reduceCtorEq, or_false, false_and, ServerStop.Label.look.injEq] at hc hr hL
      rcases hc with hc | hc
      · rcases h.early (by rw [h1]; nofun) c hc hr hL with h4 | h4
        · rw [h1] at h4
          exact .inl (List.mem_append_left _ h4)
        · exact .inr h4
      · by_cases h5 : stillOpen s c
        · refine .inl (List.mem_append_right _ ((h3 c).2 ⟨hc, ?_⟩))
          rcases h5 with h5 | h5 <;> rw [h5] <;> rfl
        · exact .inr h5
    · rw [stopsUnstarted_snoc]
      simp [hp]
  | callStop h1 =>
    obtain ⟨a1, a2, a3, a4, a5, a6, a7, a8, a9, a10⟩ := h
    have hno : ∀ k, ServerStop.Label.look k ∉ ls := fun k hk => by have := (a2 k).1 hk; simp [h1, lookedAt] at this
    constructor <;> simp_all [regLate_snoc, stopsUnstarted_snoc, lookedAt, pendingStops, List.nodup_range]
  | seen seen h1 | cleared h1 | sendExit h1 h2 | closeExit h1 =>
    obtain ⟨a1, a2, a3, a4, a5, a6, a7, a8, a9, a10⟩ := h
    constructor <;> simp_all [regLate_snoc, stopsUnstarted_snoc, lookedAt, pendingStops, stillOpen]
  | listen _ h1 | closeListener h1 | signal h1 =>
    obtain ⟨a1, a2, a3, a4, a5, a6, a7, a8, a9, a10⟩ := h
    constructor <;> simp only [regLate_snoc, stopsUnstarted_snoc, stillOpen, List.mem_append, List.mem_singleton, reduceCtorEq, or_false, false_and, exists_false] at * <;> assumption
  | accept c h1 h2 | register c h1 | start c h1 | drop c h1 | hook c h1 | finalize c h1 =>
    obtain ⟨a1, a2, a3, a4, a5, a6, a7, a8, a9, a10⟩ := h
    constructor
    · exact a1
    · simpa using a2
    · intro d
      have := a3 d
      simp only [List.mem_append, List.mem_singleton, ServerStop.Label.register.injEq, reduceCtorEq, upd]
      grind
    · intro d
      have := a4 d
      simp only [List.mem_append, List.mem_singleton, ServerStop.Label.start.injEq, reduceCtorEq, upd]
      grind
    · intro d hd
      have := a5 d
      simp only [List.mem_append, List.mem_singleton, ServerStop.Label.drop.injEq, reduceCtorEq, upd] at *
      grind
    · intro d hd
      have := a6 d
      simp only [List.mem_append, List.mem_singleton, ServerStop.Label.drop.injEq, reduceCtorEq, upd] at *
      grind
    · intro d hd
      have := a7 d hd
      have := (a3 d).1 this.1
      simp only [regLate_snoc, List.mem_append, List.mem_singleton, ServerStop.Label.register.injEq, reduceCtorEq] at *
      grind
    · intro d hd
      have := a8 d (by simpa using hd)
      have := (a3 d).1 this.1
      simp only [regLate_snoc, List.mem_append, List.mem_singleton, ServerStop.Label.register.injEq, reduceCtorEq] at *
      grind
    · intro hp d hd hr hL
      have h9 := a9 hp d (by simpa using hd)
      have := a3 d
      simp only [regLate_snoc, List.mem_append, List.mem_singleton, ServerStop.Label.register.injEq, reduceCtorEq, stillOpen, upd] at *
      grind
    · rw [stopsUnstarted_snoc]
      simpa using a10
  | stopNil c cs h1 h2 h3 =>
    obtain ⟨a1, a2, a3, a4, a5, a6, a7, a8, a9, a10⟩ := h
    have h7 := a7 c (by rw [h1]; exact h2)
    have h4 : ServerStop.Label.start c ∉ ls := fun x => ((a4 c).1 x).2.2 h3
    constructor
    · nofun
    · simpa [h1, lookedAt] using a2
    · simpa using a3
    · simpa using a4
    · simpa using a5
    · intro d hd
      have := a6 d hd
      simp only [List.mem_append]
      exact this.imp .inl .inl
    · nofun
    · intro d hd
      rw [regLate_snoc]
      have : d = c ∨ ServerStop.Label.stop d ∈ ls := by simpa [or_comm] using hd
      rcases this with e | e
      · subst e
        simpa using h7
      · simpa using a8 d e
    · exact fun h => absurd rfl h
    · rw [stopsUnstarted_snoc]
      exact ⟨fun _ => .inr ⟨c, rfl, h4⟩, fun _ => rfl⟩
  | stopConn c cs h1 h2 h3 | stopAgain c cs h1 h2 h3 h4 =>
    obtain ⟨a1, a2, a3, a4, a5, a6, a7, a8, a9, a10⟩ := h
    have h7 := a7 c (by rw [h1]; exact h2)
    have h8 : ServerStop.Label.start c ∈ ls := (a4 c).2 (by have := (a3 c).1 h7.1; grind)
    have hp : ¬ StopsUnstarted ls := fun x => by have := a10.2 x; simp [h1] at this
    constructor
    · nofun
    · simpa [h1, lookedAt] using a2
    · intro d
      have := a3 d
      simp only [List.mem_append, List.mem_singleton, reduceCtorEq, upd]
      grind
    · intro d
      have := a4 d
      simp only [List.mem_append, List.mem_singleton, reduceCtorEq, upd]
      grind
    · intro d hd
      have := a5 d (by simpa using hd)
      simp only [upd]
      grind
    · intro d hd
      have := a6 d
      simp only [List.mem_append, List.mem_singleton, ServerStop.Label.stop.injEq, reduceCtorEq, upd] at *
      grind
    · intro d hd
      rw [regLate_snoc]
      simpa using a7 d (by rw [h1]; exact List.mem_of_mem_erase hd)
    · intro d hd
      rw [regLate_snoc]
      have : d = c ∨ ServerStop.Label.stop d ∈ ls := by simpa [or_comm] using hd
      rcases this with e | e
      · subst e
        simpa using h7
      · simpa using a8 d e
    · intro _ d hd hr hL
      rw [regLate_snoc] at hL
      have h9 := a9 (by rw [h1]; nofun) d (by simpa using hd) (by simpa using hr) (by simpa using hL)
      rw [h1] at h9
      by_cases e : d = c
      · refine .inr ?_
        simp only [stillOpen, upd, e, if_true]
        grind
      · rcases h9 with h9 | h9
        · exact .inl ((List.mem_erase_of_ne e).2 h9)
        · refine .inr ?_
          simpa only [stillOpen, upd, e, if_false] using h9
    · rw [stopsUnstarted_snoc]
      simp [hp, h8]

theorem stopInv {cfg : Cfg} {ls : List ServerStop.Label} {t : ServerStop.State} (h : Steps (ServerStop.Step cfg) {} ls t) : StopInv cfg ls t :=
  h.invariant_trace (P := StopInv cfg) (fun _ _ _ _ h hs => stopInv_step h hs) (stopInv_init cfg)

/-- **C66 (exactly when `Stop` panics).** In every execution, in every mode: the call of `Stop` panics if and only if it tells a connection to stop that has not been started. -/
theorem C66_panics_exact (cfg : Cfg) (ls : List ServerStop.Label) (t : ServerStop.State) (h : Steps (ServerStop.Step cfg) {} ls t) : t.stopper = .panicked ↔ StopsUnstarted ls :=
  (stopInv h).panics

/-- **C66 (exactly which connections stay open).** In every execution, in every mode: when `Stop` has returned, a connection is open if and only if it was entered into the manager after its shard had been looked at
and has not ended by itself. -/
theorem C66_exact (cfg : Cfg) (hsh : ∀ c, cfg.shard c < cfg.shards) (ls : List ServerStop.Label) (t : ServerStop.State) (h : Steps (ServerStop.Step cfg) {} ls t) (hr : t.stopper = .returned) (c : Nat) :
    stillOpen t c ↔ RegLate cfg c ls ∧ .drop c ∉ ls := by
  have hi := stopInv h
  constructor
  · intro ho
    have hreg : .register c ∈ ls := (hi.reg c).2 (by rcases ho with e | e <;> rw [e] <;> exact ⟨nofun, nofun⟩)
    refine ⟨Classical.byContradiction fun hL => ?_, fun hd => ?_⟩
    · rcases hi.early (by rw [hr]; nofun) c ((hi.looked _).2 (by rw [hr]; exact hsh c)) hreg hL with e | e
      · rw [hr] at e
        cases e
      · exact e ho
    · have := hi.dropped c hd
      rcases ho with e | e <;> rw [e] at this <;> rcases this with h | h | h <;> cases h
  · rintro ⟨hL, hd⟩
    have h1 := (hi.reg c).1 (regLate_reg hL)
    have h2 : ServerStop.Label.stop c ∉ ls := fun x => (hi.stopped c x).2 hL
    have h3 := hi.ended c
    unfold stillOpen
    cases e : t.conns c <;> simp_all

/-- A connection that was entered into the manager after its shard had been looked at is never told to stop. -/
theorem C66_late_untouched (cfg : Cfg) (ls : List ServerStop.Label) (t : ServerStop.State) (h : Steps (ServerStop.Step cfg) {} ls t) (c : Nat) (hL : RegLate cfg c ls) : .stop c ∉ ls :=
  fun x => ((stopInv h).stopped c x).2 hL

end Zinx.Props
