import Verif.Lemmas.LoginPush

/-! # Fair executions of the login example, for C149 -/

namespace Zinx.Login

open Zinx.AsyncHome (Item HPc SPc upd)
open Zinx.Props (FixedPool HomeInv home_step home_init At mono_step WorkerFair HomeFair Jam leads_on leads_later worker_step exec_room op_step)

/-- A step of the user's code in the worker of channel `g`. -/
def ofCode (g : Nat) : Label → Prop
  | .ask g' _ _ => g' = g
  | .register g' _ _ => g' = g
  | .reply g' _ _ _ => g' = g
  | .silent g' _ _ => g' = g
  | .finish g' _ => g' = g
  | _ => False

/-- What is assumed: workers and the asynchronous worker are scheduled, `SendMsg` and the database calls return. -/
structure LoginFair {cfg : Cfg} (e : Exec (Step cfg)) : Prop where
  goOn : ∀ g, e.WeakFair (· = .quiet (.goOn g))
  push : ∀ g, e.WeakFair (fun l => ∃ k h, l = .quiet (.push g k h))
  take : ∀ g, e.WeakFair (fun l => ∃ it, l = .take g it)
  code : ∀ g, e.WeakFair (ofCode g)
  op : e.WeakFair (fun l => ∃ c id, l = .op c id)
  opPush : e.StrongFair (fun l => ∃ c id h, l = .opPush c id h)

/-- What the workers, queues and results do in an execution. -/
def homeExec {cfg : Cfg} (e : Exec (Step cfg)) : Exec (AsyncHome.Step cfg.home) where
  run n := (e.run n).home
  act n := (e.act n).bind (inner cfg)
  next n := by
    have hn := e.next n
    cases ha : e.act n with
    | none =>
      rw [ha] at hn
      show (e.run (n + 1)).home = (e.run n).home
      rw [hn]
    | some l =>
      rw [ha] at hn
      rcases inner_step hn with ⟨l', h1, h2⟩ | ⟨h1, h2⟩
      · rw [Option.bind_some, h1]; exact h2
      · rw [Option.bind_some, h1]; exact h2

/-! ## What a step does to a worker -/

theorem code_step {cfg : Cfg} (hd : FixedPool cfg.home) {s t : State} {l : Label} (hs : Step cfg s l t) (hh : HomeInv cfg.home s.home) {g : Nat} {it : Item} (hc : cur s.home g = some it) :
    (¬ ofCode g l ∧ cur t.home g = some it ∧ t.stage g = s.stage g) ∨
    (∃ c id, it = .msg c id ∧ l = .ask g c id ∧ s.stage g = .start ∧ cur t.home g = some it ∧ t.stage g = .asked) ∨
    (∃ c id, it = .msg c id ∧ l = .register g c id ∧ s.stage g = .asked ∧ cur t.home g = some it ∧ t.stage g = .registered) ∨
    (l = .finish g it ∧ cur t.home g = none) ∨
    (∃ c id, it = .call (cfg.key c id) ∧ answered c l = some id ∧ s.stage g = .start ∧ cur t.home g = some it ∧ t.stage g = .answered) := by
  cases hs with
  | quiet hq h =>
    rename_i l' _
    left
    refine ⟨id, ?_, rfl⟩
    have hv := view_step hd h hh
    cases l' <;> first | (cases hq; done) | exact hv.elim | (dsimp only; rw [hv.2.2.2]; exact hc) | (dsimp only; rw [hv.2.2]; exact hc)
  | arriveOld c o l1 l2 _ _ h =>
    obtain ⟨_, _, _, _, hv⟩ := view_step hd h hh
    exact .inl ⟨id, by dsimp only; rw [hv]; exact hc, rfl⟩
  | arriveNew c h =>
    obtain ⟨_, _, _, _, hv⟩ := view_step hd h hh
    exact .inl ⟨id, by dsimp only; rw [hv]; exact hc, rfl⟩
  | take g' it' h =>
    obtain ⟨_, _, _, _, hv0, hv⟩ := view_step hd h hh
    have e : g ≠ g' := fun e => by subst e; rw [hv0] at hc; cases hc
    refine .inl ⟨id, ?_, ?_⟩
    · dsimp only; rw [hv, upd, if_neg e]; exact hc
    · dsimp only; rw [upd, if_neg e]
  | ask g' c id' hw h0 h =>
    obtain ⟨_, _, hv⟩ := view_step hd h hh
    by_cases e : g = g'
    · subst e
      have := cur_some.mpr ⟨_, hw⟩
      rw [hc] at this
      cases this
      exact .inr (.inl ⟨c, id', rfl, rfl, h0, by dsimp only; rw [hv]; exact hc, if_pos rfl⟩)
    · exact .inl ⟨fun h => e h.symm, by dsimp only; rw [hv]; exact hc, if_neg e⟩
  | register g' c id' hw h0 h =>
    obtain ⟨_, _, hv⟩ := view_step hd h hh
    by_cases e : g = g'
    · subst e
      have := cur_some.mpr ⟨_, hw⟩
      rw [hc] at this
      cases this
      exact .inr (.inr (.inl ⟨c, id', rfl, rfl, h0, by dsimp only; rw [hv]; exact hc, if_pos rfl⟩))
    · exact .inl ⟨fun h => e h.symm, by dsimp only; rw [hv]; exact hc, if_neg e⟩
  | finishMsg g' c id' h0 h =>
    obtain ⟨hw, _, _, hv⟩ := view_step hd h hh
    by_cases e : g = g'
    · subst e
      have := cur_some.mpr ⟨_, hw⟩
      rw [hc] at this
      cases this
      exact .inr (.inr (.inr (.inl ⟨rfl, by dsimp only; rw [hv, upd, if_pos rfl]⟩)))
    · exact .inl ⟨fun h => e h.symm, by dsimp only; rw [hv, upd, if_neg e]; exact hc, rfl⟩
  | finishCall g' k h0 h =>
    obtain ⟨hw, _, _, hv⟩ := view_step hd h hh
    by_cases e : g = g'
    · subst e
      have := cur_some.mpr ⟨_, hw⟩
      rw [hc] at this
      cases this
      exact .inr (.inr (.inr (.inl ⟨rfl, by dsimp only; rw [hv, upd, if_pos rfl]⟩)))
    · exact .inl ⟨fun h => e h.symm, by dsimp only; rw [hv, upd, if_neg e]; exact hc, rfl⟩
  | reply g' c id' hw h0 _ =>
    by_cases e : g = g'
    · subst e
      have := cur_some.mpr ⟨_, hw⟩
      rw [hc] at this
      cases this
      exact .inr (.inr (.inr (.inr ⟨c, id', rfl, if_pos rfl, h0, hc, if_pos rfl⟩)))
    · exact .inl ⟨fun h => e h.symm, hc, if_neg e⟩
  | silent g' c id' hw h0 _ =>
    by_cases e : g = g'
    · subst e
      have := cur_some.mpr ⟨_, hw⟩
      rw [hc] at this
      cases this
      exact .inr (.inr (.inr (.inr ⟨c, id', rfl, if_pos rfl, h0, hc, if_pos rfl⟩)))
    · exact .inl ⟨fun h => e h.symm, hc, if_neg e⟩
  | op c id' rest h0 h =>
    obtain ⟨_, _, hv⟩ := view_step hd h hh
    exact .inl ⟨id, by dsimp only; rw [hv]; exact hc, rfl⟩
  | opPush c id' g' rest h0 h =>
    obtain ⟨_, _, _, hv⟩ := view_step hd h hh
    exact .inl ⟨id, by dsimp only; rw [hv]; exact hc, rfl⟩

theorem idle_step {cfg : Cfg} (hd : FixedPool cfg.home) {s t : State} {l : Label} (hs : Step cfg s l t) (hh : HomeInv cfg.home s.home) {g : Nat} (hc : cur s.home g = none) :
    cur t.home g = none ∨ ∃ it, l = .take g it ∧ cur t.home g = some it ∧ t.stage g = .start := by
  rcases inner_step hs with ⟨l', h1, h2⟩ | ⟨h1, h2⟩
  · have hv := view_step hd h2 hh
    cases l' <;> first
      | exact hv.elim
      | (left; rw [hv.2.2]; exact hc)
      | (left; rw [hv.2.2.2]; exact hc)
      | skip
    · obtain ⟨_, _, _, _, hv⟩ := hv
      left; rw [hv]; exact hc
    · rename_i g' it
      obtain ⟨_, _, _, _, hv0, hv⟩ := hv
      by_cases e : g = g'
      · subst e
        right
        refine ⟨it, ?_⟩
        cases hs <;> simp only [inner, Option.some.injEq, reduceCtorEq] at h1
        · subst h1; rename_i hq _; cases hq
        · cases h1
          exact ⟨rfl, by dsimp only at hv ⊢; rw [hv, upd, if_pos rfl], if_pos rfl⟩
      · left
        rw [hv, upd, if_neg e]; exact hc
    · rename_i g' it
      left
      rw [hv.2.2.2]
      by_cases e : g = g'
      · rw [upd, if_pos e]
      · rw [upd, if_neg e]; exact hc
  · left; rw [h2]; exact hc

/-- At which stages messages and callbacks can be. -/
def StageInv (s : State) : Prop := ∀ g, (∀ k, cur s.home g = some (.call k) → s.stage g = .start ∨ s.stage g = .answered) ∧ ∀ c id, cur s.home g = some (.msg c id) → s.stage g ≠ .answered

theorem stage_inv {cfg : Cfg} (hd : FixedPool cfg.home) {ls : List Label} {s : State} (h : Steps (Step cfg) (init cfg) ls s) : StageInv s := by
  refine (h.invariant_trace (P := fun ls s => Steps (Step cfg) (init cfg) ls s ∧ StageInv s) ?_ ⟨.nil _, ?_⟩).2
  · rintro ls s l t ⟨hr, hi⟩ hs
    refine ⟨hr.snoc hs, fun g => ?_⟩
    have hh := home_inv hd hr
    have hg := hi g
    cases hc : cur s.home g with
    | none =>
      rcases idle_step hd hs hh hc with h | ⟨it, _, h1, h2⟩
      · rw [h]; exact ⟨nofun, nofun⟩
      · rw [h2]; exact ⟨fun _ _ => .inl rfl, fun _ _ _ => nofun⟩
    | some it =>
      rw [hc] at hg
      rcases code_step hd hs hh hc with ⟨_, h1, h2⟩ | ⟨c, id, h0, _, _, h1, h2⟩ | ⟨c, id, h0, _, _, h1, h2⟩ | ⟨_, h1⟩ | ⟨c, id, h0, _, _, h1, h2⟩
      · rw [h1, h2]; exact hg
      · rw [h1, h2, h0]; exact ⟨nofun, fun _ _ _ => nofun⟩
      · rw [h1, h2, h0]; exact ⟨nofun, fun _ _ _ => nofun⟩
      · rw [h1]; exact ⟨nofun, nofun⟩
      · rw [h1, h2, h0]; exact ⟨fun _ _ => .inr rfl, nofun⟩
  · intro g
    have : cur (init cfg).home g = none := by
      rw [cur_none]
      intro it pc hw
      simp only [init, AsyncHome.init] at hw
      split at hw <;> cases hw
    rw [this]
    exact ⟨nofun, nofun⟩

/-- Outside `OnComplete` a worker is in the user's code. -/
theorem at_code {cfg : Cfg} {ls : List Label} {s : State} (h : Steps (Step cfg) (init cfg) ls s) {g : Nat} {it : Item} (hc : cur s.home g = some it) (hn : s.stage g ≠ .registered) : s.home.worker g = .busy it .code := by
  obtain ⟨pc, hw⟩ := cur_some.mp hc
  cases hr : pc.result with
  | none => cases pc <;> first | exact hw | cases hr
  | some k =>
    obtain ⟨_, _, _, _, h5⟩ := pc_inv h g it pc k hw hr
    exact absurd h5 hn

/-- A callback is registered by the handler that has started the operation. -/
def FnInv (cfg : Cfg) (s : State) : Prop := ∀ c id, (s.home.res (cfg.key c id)).hasFn = true → (s.home.res (cfg.key c id)).op ≠ .notStarted ∧ ∀ g, cur s.home g = some (.msg c id) → s.stage g ≠ .asked

theorem fn_back {cfg : AsyncHome.Cfg} {s t : AsyncHome.State} {l : AsyncHome.Label} (hs : AsyncHome.Step cfg s l t) {k : Nat} (h : (t.res k).hasFn = true) : (s.res k).hasFn = true ∨ ∃ g, l = .on g k := by
  by_cases he : ∃ g, l = .on g k
  · exact .inr he
  left
  have hn : ∀ g, l ≠ .on g k := fun g e => he ⟨g, e⟩
  clear he
  cases hs with
  | on g' k' it =>
    have : k ≠ k' := fun e => hn g' (by rw [e])
    simp only [AsyncHome.State.setRes, AsyncHome.State.setWorker, upd, if_neg this] at h
    exact h
  | _ =>
  simp only [AsyncHome.State.setRes, AsyncHome.State.setWorker, AsyncHome.State.push, upd] at h <;> grind

theorem op_keeps {cfg : AsyncHome.Cfg} {s t : AsyncHome.State} {l : AsyncHome.Label} (hs : AsyncHome.Step cfg s l t) {k : Nat} (h : (s.res k).op ≠ .notStarted) : (t.res k).op ≠ .notStarted := by
  cases hs <;> simp only [AsyncHome.State.setRes, AsyncHome.State.setWorker, AsyncHome.State.push, upd] <;> grind

theorem fn_inv {cfg : Cfg} (hk : Keyed cfg) (hd : FixedPool cfg.home) {ls : List Label} {s : State} (h : Steps (Step cfg) (init cfg) ls s) : FnInv cfg s := by
  refine (h.invariant_trace (P := fun ls s => Steps (Step cfg) (init cfg) ls s ∧ FnInv cfg s) ?_ ⟨.nil _, nofun⟩).2
  rintro ls s l t ⟨hr, hi⟩ hs
  refine ⟨hr.snoc hs, fun c id hf => ?_⟩
  have hh := home_inv hd hr
  have hold : (s.home.res (cfg.key c id)).hasFn = true → (t.home.res (cfg.key c id)).op ≠ .notStarted ∧ ∀ g, cur t.home g = some (.msg c id) → t.stage g ≠ .asked := by
    intro hf
    obtain ⟨h1, h2⟩ := hi c id hf
    constructor
    · rcases inner_step hs with ⟨l', _, h3⟩ | ⟨_, h3⟩
      · exact op_keeps h3 h1
      · rw [h3]; exact h1
    · intro g hg
      cases hc : cur s.home g with
      | none =>
        rcases idle_step hd hs hh hc with h | ⟨it, _, _, h⟩
        · rw [h] at hg; cases hg
        · rw [h]; nofun
      | some it =>
        rcases code_step hd hs hh hc with ⟨_, h3, h4⟩ | ⟨c', id', h0, hl, hst, h3, h4⟩ | ⟨c', id', _, _, _, h3, h4⟩ | ⟨_, h3⟩ | ⟨c', id', _, _, _, h3, h4⟩
        · rw [h4]
          rw [h3] at hg
          cases hg
          exact h2 g hc
        · rw [h3] at hg
          cases hg
          cases h0
          obtain ⟨_, d, hq⟩ := ops_inv hk hd hr c
          have h5 := (hq.started id).mp h1
          have h6 := ((msg_inv hd hr c).work g id hc).2.1 hst
          omega
        · rw [h4]; nofun
        · rw [h3] at hg; cases hg
        · rw [h4]; nofun
  cases hs with
  | register g c' id' hw hst h =>
    rcases fn_back h hf with h1 | ⟨g', h1⟩
    · exact hold h1
    · simp only [AsyncHome.Label.on.injEq] at h1
      obtain ⟨rfl, rfl⟩ := hk.inj _ _ _ _ h1.2
      obtain ⟨_, d, hq⟩ := ops_inv hk hd hr c'
      have hcur := cur_some.mpr ⟨_, hw⟩
      have h6 := ((msg_inv hd hr c').work g id' hcur).2.2 (by rw [hst]; nofun)
      have h7 := (hq.started id').mpr (by omega)
      obtain ⟨_, _, hv⟩ := view_step hd h hh
      refine ⟨op_keeps h h7, fun g2 hg2 => ?_⟩
      dsimp only at hg2 ⊢
      rw [hv] at hg2
      have := cur_one hh hcur hg2 rfl
      subst this
      rw [upd, if_pos rfl]; nofun
  | quiet hq h =>
    rcases fn_back h hf with h1 | ⟨g', h1⟩
    · exact hold h1
    · subst h1; cases hq
  | reply => exact hold hf
  | silent => exact hold hf
  | arriveOld c' o l1 l2 _ _ h => exact hold ((fn_back h hf).resolve_right nofun)
  | arriveNew c' h => exact hold ((fn_back h hf).resolve_right nofun)
  | take g it h => exact hold ((fn_back h hf).resolve_right nofun)
  | ask g c' id' _ _ h => exact hold ((fn_back h hf).resolve_right nofun)
  | finishMsg g c' id' _ h => exact hold ((fn_back h hf).resolve_right nofun)
  | finishCall g k _ h => exact hold ((fn_back h hf).resolve_right nofun)
  | op c' id' rest _ h => exact hold ((fn_back h hf).resolve_right nofun)
  | opPush c' id' g' rest _ h => exact hold ((fn_back h hf).resolve_right nofun)

end Zinx.Login
