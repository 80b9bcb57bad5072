import Verif.Lemmas.LoginLive

/-! # What the workers do in a fair execution of the login example is fair, for C149 -/

namespace Zinx.Login

open Zinx.AsyncHome (Item HPc SPc upd)
open Zinx.Props (FixedPool HomeInv home_step home_init At mono_step WorkerFair HomeFair Jam leads_on leads_later worker_step exec_room op_step)

/-- Fairness of the steps of workers and queues that nothing is added to. -/
theorem proj_weak {cfg : Cfg} {e : Exec (Step cfg)} {A : AsyncHome.Label → Prop} {B : Label → Prop} (hf : e.WeakFair B) (h1 : ∀ m, Enabled (AsyncHome.Step cfg.home) A (e.run m).home → Enabled (Step cfg) B (e.run m))
    (h2 : ∀ l, B l → ∃ l', inner cfg l = some l' ∧ A l') : (homeExec e).WeakFair A := by
  intro n hn
  obtain ⟨m, l, hm, ha, hb⟩ := hf n (fun m hm => h1 m (hn m hm))
  obtain ⟨l', h3, h4⟩ := h2 l hb
  refine ⟨m, l', hm, ?_, h4⟩
  show (e.act m).bind (inner cfg) = some l'
  rw [ha]; exact h3

theorem finish_stage {cfg : Cfg} {s t : State} {g : Nat} {it : Item} (hs : Step cfg s (.finish g it) t) : s.stage g = .registered ∨ s.stage g = .answered := by
  cases hs with
  | finishMsg _ _ _ h => exact .inl h
  | finishCall _ _ h => exact .inr h

theorem code_inner {cfg : Cfg} {s t : State} {l : Label} {l' : AsyncHome.Label} {g : Nat} (hs : Step cfg s l t) (hi : inner cfg l = some l') (h : (∃ it, l' = .finish g it) ∨ ∃ k, l' = .on g k) : ofCode g l := by
  rcases h with ⟨it, rfl⟩ | ⟨k, rfl⟩
  · cases hs <;> simp only [inner, Option.some.injEq, reduceCtorEq] at hi
    · subst hi; rename_i hq _; cases hq
    · cases hi; rfl
    · cases hi; rfl
  · cases hs <;> simp only [inner, Option.some.injEq, reduceCtorEq] at hi
    · subst hi; rename_i hq _; cases hq
    · cases hi; rfl

section
variable {cfg : Cfg} (hk : Keyed cfg) (hd : FixedPool cfg.home) (e : Exec (Step cfg)) (h0 : e.run 0 = init cfg)
include hk hd h0

omit hk hd in
theorem live_reach (n : Nat) : Steps (Step cfg) (init cfg) (e.trace n) (e.run n) := by
  have h := e.steps n
  rw [h0] at h
  exact h

/-- A handler starts the operation. -/
theorem live_ask (hf : LoginFair e) {n g c id : Nat} (h : cur (e.run n).home g = some (.msg c id)) (hs : (e.run n).stage g = .start) :
    ∃ m, n ≤ m ∧ cur (e.run m).home g = some (.msg c id) ∧ (e.run m).stage g = .asked := by
  refine leads_on e (hf.code g) (P := fun s => cur s.home g = some (.msg c id) ∧ s.stage g = .start) (Q := fun m => cur (e.run m).home g = some (.msg c id) ∧ (e.run m).stage g = .asked) ?_ ?_ ⟨h, hs⟩
  · rintro m l _ _ hs ⟨h1, h2⟩
    rcases code_step hd hs (home_inv hd (live_reach e h0 m)) h1 with ⟨h3, h4, h5⟩ | ⟨_, _, h3, _, _, h4, h5⟩ | ⟨_, _, _, _, h4, _⟩ | ⟨h3, _⟩ | ⟨_, _, h3, _⟩
    · exact .inl ⟨h3, h4, by rw [h5]; exact h2⟩
    · exact .inr ⟨h4, h5⟩
    · rw [h2] at h4; cases h4
    · subst h3
      have h4 := finish_stage hs
      rw [h2] at h4; rcases h4 with h4 | h4 <;> cases h4
    · cases h3
  · rintro m _ ⟨h1, h2⟩
    have hr := live_reach e h0 m
    have hw := at_code hr h1 (by rw [h2]; nofun)
    have ha := ((msg_inv hd hr c).work g id h1).2.1 h2
    obtain ⟨_, d, hq⟩ := ops_inv hk hd hr c
    have hop : ((e.run m).home.res (cfg.key c id)).op = .notStarted := by
      have := hq.started id
      rw [ha] at this
      exact Classical.not_not.mp fun hn => absurd (this.mp hn) (Nat.lt_irrefl _)
    exact ⟨.ask g c id, _, rfl, .ask g c id hw h2 (.process g _ _ hw (hk.conn c id) hop)⟩

/-- It registers the callback. -/
theorem live_register (hf : LoginFair e) {n g c id : Nat} (h : cur (e.run n).home g = some (.msg c id)) (hs : (e.run n).stage g = .asked) :
    ∃ m, n ≤ m ∧ cur (e.run m).home g = some (.msg c id) ∧ (e.run m).stage g = .registered := by
  refine leads_on e (hf.code g) (P := fun s => cur s.home g = some (.msg c id) ∧ s.stage g = .asked) (Q := fun m => cur (e.run m).home g = some (.msg c id) ∧ (e.run m).stage g = .registered) ?_ ?_ ⟨h, hs⟩
  · rintro m l _ _ hs ⟨h1, h2⟩
    rcases code_step hd hs (home_inv hd (live_reach e h0 m)) h1 with ⟨h3, h4, h5⟩ | ⟨_, _, _, _, h4, _⟩ | ⟨_, _, h3, _, _, h4, h5⟩ | ⟨h3, _⟩ | ⟨_, _, h3, _⟩
    · exact .inl ⟨h3, h4, by rw [h5]; exact h2⟩
    · rw [h2] at h4; cases h4
    · exact .inr ⟨h4, h5⟩
    · subst h3
      have h4 := finish_stage hs
      rw [h2] at h4; rcases h4 with h4 | h4 <;> cases h4
    · cases h3
  · rintro m _ ⟨h1, h2⟩
    have hr := live_reach e h0 m
    have hw := at_code hr h1 (by rw [h2]; nofun)
    have hfn : ((e.run m).home.res (cfg.key c id)).hasFn = false := by
      cases hx : ((e.run m).home.res (cfg.key c id)).hasFn with
      | false => rfl
      | true => exact absurd h2 ((fn_inv hk hd hr c id hx).2 g h1)
    exact ⟨.register g c id, _, rfl, .register g c id hw h2 (.on g _ _ hw (hk.conn c id) hfn)⟩

/-- A callback answers. -/
theorem live_answer (hf : LoginFair e) {n g c id : Nat} (h : cur (e.run n).home g = some (.call (cfg.key c id))) (hs : (e.run n).stage g = .start) :
    ∃ m, n ≤ m ∧ ∃ j l, j + 1 = m ∧ e.act j = some l ∧ answered c l = some id ∧ cur (e.run m).home g = some (.call (cfg.key c id)) ∧ (e.run m).stage g = .answered := by
  refine leads_on e (hf.code g) (P := fun s => cur s.home g = some (.call (cfg.key c id)) ∧ s.stage g = .start)
    (Q := fun m => ∃ j l, j + 1 = m ∧ e.act j = some l ∧ answered c l = some id ∧ cur (e.run m).home g = some (.call (cfg.key c id)) ∧ (e.run m).stage g = .answered) ?_ ?_ ⟨h, hs⟩
  · rintro m l _ ha hs ⟨h1, h2⟩
    rcases code_step hd hs (home_inv hd (live_reach e h0 m)) h1 with ⟨h3, h4, h5⟩ | ⟨_, _, h3, _⟩ | ⟨_, _, h3, _⟩ | ⟨h3, _⟩ | ⟨c', id', h3, h4, _, h5, h6⟩
    · exact .inl ⟨h3, h4, by rw [h5]; exact h2⟩
    · cases h3
    · cases h3
    · subst h3
      have h4 := finish_stage hs
      rw [h2] at h4; rcases h4 with h4 | h4 <;> cases h4
    · obtain ⟨rfl, rfl⟩ := hk.inj _ _ _ _ (Item.call.inj h3)
      exact .inr ⟨m, l, rfl, ha, h4, h5, h6⟩
  · rintro m _ ⟨h1, h2⟩
    have hw := at_code (live_reach e h0 m) h1 (by rw [h2]; nofun)
    cases hx : (e.run m).stored (cfg.key c id) with
    | true => exact ⟨.reply g c id _, _, rfl, .reply g c id hw h2 hx⟩
    | false => exact ⟨.silent g c id, _, rfl, .silent g c id hw h2 hx⟩

/-- The user's code returns. -/
theorem live_finish (hf : LoginFair e) (g : Nat) : (homeExec e).StrongFair (fun l => ∃ it, l = .finish g it) := by
  intro n hn
  apply Classical.byContradiction
  intro hno
  have hno' : ∀ m, n ≤ m → ∀ it, e.act m ≠ some (.finish g it) := fun m hm it ha => hno ⟨m, .finish g it, hm, by show (e.act m).bind (inner cfg) = _; rw [ha]; rfl, it, rfl⟩
  have at_fin : ∀ m, n ≤ m → ∃ k it, m ≤ k ∧ (e.run k).home.worker g = .busy it .code := by
    intro m hm
    obtain ⟨k, hk', l, t, ⟨it, rfl⟩, hs⟩ := hn m hm
    cases hs with
    | finish _ _ hw => exact ⟨k, it, hk', hw⟩
  obtain ⟨n1, it, hn1, hw⟩ := at_fin n (Nat.le_refl _)
  have hcur : ∀ m, n1 ≤ m → cur (e.run m).home g = some it := by
    intro m hm
    induction m with
    | zero =>
      have : n1 = 0 := by omega
      rw [← this]; exact cur_some.mpr ⟨_, hw⟩
    | succ m ih =>
      by_cases e1 : n1 = m + 1
      · rw [← e1]; exact cur_some.mpr ⟨_, hw⟩
      · have hp := ih (by omega)
        have hs := e.next m
        cases ha : e.act m with
        | none => rw [ha] at hs; rw [hs]; exact hp
        | some l =>
          rw [ha] at hs
          rcases code_step hd hs (home_inv hd (live_reach e h0 m)) hp with ⟨_, h4, _⟩ | ⟨_, _, _, _, _, h4, _⟩ | ⟨_, _, _, _, _, h4, _⟩ | ⟨h3, _⟩ | ⟨_, _, _, _, _, h4, _⟩
          · exact h4
          · exact h4
          · exact h4
          · subst h3; exact absurd ha (hno' m (by omega) it)
          · exact h4
  /- in the user's code, with nothing left to do -/
  have last : ∀ m, n1 ≤ m → (e.run m).home.worker g = .busy it .code → (e.run m).stage g = .registered ∨ (e.run m).stage g = .answered → False := by
    intro m hm hw' hst
    obtain ⟨m', _, hF⟩ := leads_on e (hf.code g) (P := fun s => s.home.worker g = .busy it .code ∧ (s.stage g = .registered ∨ s.stage g = .answered)) (Q := fun _ => False) (n := m)
      (by
        rintro m2 l hm2 ha hs ⟨h1, h2⟩
        have hh := home_inv hd (live_reach e h0 m2)
        rcases code_step hd hs hh (cur_some.mpr ⟨_, h1⟩) with ⟨h3, h4, h5⟩ | ⟨_, _, _, _, h4, _⟩ | ⟨_, _, _, _, h4, _⟩ | ⟨h3, _⟩ | ⟨_, _, _, _, h4, _⟩
        · refine .inl ⟨h3, ?_, by rw [h5]; exact h2⟩
          rcases inner_step hs with ⟨l', h6, h7⟩ | ⟨_, h7⟩
          · rcases worker_step hd h7 hh g with ⟨h8, _⟩ | ⟨_, h8, _⟩ | ⟨it', h8, h9, _⟩ | ⟨_, k, _, h9, _⟩ | ⟨_, _, h8, _⟩ | ⟨_, _, h8, _⟩ | ⟨_, _, h8, _⟩ | ⟨_, _, _, h8, _⟩
            · rw [h8]; exact h1
            · rw [h1] at h8; cases h8
            · exact absurd (code_inner hs h6 (.inl ⟨_, h9⟩)) h3
            · exact absurd (code_inner hs h6 (.inr ⟨_, h9⟩)) h3
            · rw [h1] at h8; cases h8
            · rw [h1] at h8; cases h8
            · rw [h1] at h8; cases h8
            · rw [h1] at h8; cases h8
          · rw [h7]; exact h1
        · rw [h4] at h2; rcases h2 with h2 | h2 <;> cases h2
        · rw [h4] at h2; rcases h2 with h2 | h2 <;> cases h2
        · subst h3; exact absurd ha (hno' m2 (by omega) it)
        · rw [h4] at h2; rcases h2 with h2 | h2 <;> cases h2)
      (by
        rintro m2 hm2 ⟨h1, h2⟩
        have hsi := stage_inv hd (live_reach e h0 m2) g
        have hc := cur_some.mpr ⟨_, h1⟩
        cases it with
        | msg c id =>
          have h2 := h2.resolve_right (hsi.2 c id hc)
          exact ⟨.finish g _, _, rfl, .finishMsg g c id h2 (.finish g _ h1)⟩
        | call k =>
          have h3 := hsi.1 k hc
          have h2 : (e.run m2).stage g = .answered := by
            rcases h3 with h3 | h3
            · rw [h3] at h2; rcases h2 with h2 | h2 <;> cases h2
            · exact h3
          exact ⟨.finish g _, _, rfl, .finishCall g k h2 (.finish g _ h1)⟩)
      ⟨hw', hst⟩
    exact hF
  have reg : ∀ m, n1 ≤ m → (e.run m).stage g = .registered → False := by
    intro m hm hst
    obtain ⟨m', it', hm', hw'⟩ := at_fin m (by omega)
    have h1 := hcur m' (by omega)
    have h2 := cur_some.mpr ⟨_, hw'⟩
    rw [h1] at h2
    cases h2
    have hst' : ∀ j, m ≤ j → (e.run j).stage g = .registered := by
      intro j hj
      induction j with
      | zero =>
        have : m = 0 := by omega
        rw [← this]; exact hst
      | succ j ih =>
        by_cases e1 : m = j + 1
        · rw [← e1]; exact hst
        · have hp := ih (by omega)
          have hs := e.next j
          cases ha : e.act j with
          | none => rw [ha] at hs; rw [hs]; exact hp
          | some l =>
            rw [ha] at hs
            rcases code_step hd hs (home_inv hd (live_reach e h0 j)) (hcur j (by omega)) with ⟨_, _, h5⟩ | ⟨_, _, _, _, h4, _⟩ | ⟨_, _, _, _, h4, _⟩ | ⟨h3, _⟩ | ⟨_, _, _, _, h4, _⟩
            · rw [h5]; exact hp
            · rw [hp] at h4; cases h4
            · rw [hp] at h4; cases h4
            · subst h3; exact absurd ha (hno' j (by omega) it)
            · rw [hp] at h4; cases h4
    exact last m' (by omega) hw' (.inl (hst' m' hm'))
  have hr1 := live_reach e h0 n1
  cases it with
  | msg c id =>
    have asked : ∀ m, n1 ≤ m → (e.run m).stage g = .asked → False := by
      intro m hm hst
      obtain ⟨m', hm', _, h2⟩ := live_register hk hd e h0 hf (hcur m hm) hst
      exact reg m' (by omega) h2
    cases hst : (e.run n1).stage g with
    | start =>
      obtain ⟨m', hm', _, h2⟩ := live_ask hk hd e h0 hf (hcur n1 (Nat.le_refl _)) hst
      exact asked m' hm' h2
    | asked => exact asked n1 (Nat.le_refl _) hst
    | registered => exact reg n1 (Nat.le_refl _) hst
    | answered => exact (stage_inv hd hr1 g).2 c id (hcur n1 (Nat.le_refl _)) hst
  | call k =>
    obtain ⟨c, id, he, _⟩ := (low_inv hr1).workCall g _ _ hw
    subst he
    rcases (stage_inv hd hr1 g).1 _ (hcur n1 (Nat.le_refl _)) with hst | hst
    · obtain ⟨m, hm, _, _, _, _, _, h1, h2⟩ := live_answer hk hd e h0 hf (hcur n1 (Nat.le_refl _)) hst
      exact last m hm (at_code (live_reach e h0 m) h1 (by rw [h2]; nofun)) (.inr h2)
    · exact last n1 (Nat.le_refl _) hw (.inr hst)

theorem live_workers (hf : LoginFair e) : WorkerFair (homeExec e) where
  goOn g := proj_weak (hf.goOn g) (fun m ⟨l, t, hl, hs⟩ => by subst hl; exact ⟨_, _, rfl, .quiet rfl hs⟩) (fun l hl => by subst hl; exact ⟨_, rfl, rfl⟩)
  push g := proj_weak (hf.push g) (fun m ⟨l, t, ⟨k, h, hl⟩, hs⟩ => by subst hl; exact ⟨_, _, ⟨k, h, rfl⟩, .quiet rfl hs⟩) (fun l ⟨k, h, hl⟩ => by subst hl; exact ⟨_, rfl, k, h, rfl⟩)
  take g := proj_weak (hf.take g) (fun m ⟨l, t, ⟨it, hl⟩, hs⟩ => by subst hl; exact ⟨_, _, ⟨it, rfl⟩, .take g it hs⟩) (fun l ⟨it, hl⟩ => by subst hl; exact ⟨_, rfl, it, rfl⟩)
  finish g := live_finish hk hd e h0 hf g

end

end Zinx.Login
