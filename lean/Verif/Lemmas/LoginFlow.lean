import Verif.Lemmas.LoginOps
import Verif.Props.LoginRuns

/-! # Callbacks of a connection come to the queue of its worker in the order of its requests, for C149 -/

namespace Zinx.Login

open Zinx.AsyncHome (Item HPc SPc upd)
open Zinx.Props (FixedPool HomeInv target_home home_step home_init At at_new at_other DutyInv duty_step OnceInv once_inv isPush mono_step got_inv)

/-! ## Who is inside `OnComplete` -/

theorem pc_back {cfg : AsyncHome.Cfg} {s t : AsyncHome.State} {l : AsyncHome.Label} (hs : AsyncHome.Step cfg s l t) {g k : Nat} {it : Item} {pc : HPc} (hw : t.worker g = .busy it pc) (hr : pc.result = some k) :
    (∃ pc', s.worker g = .busy it pc' ∧ pc'.result = some k) ∨ l = .on g k ∧ ∃ pc', s.worker g = .busy it pc' := by
  have ha : ∀ it pc, AsyncHome.after cfg ≠ .busy it pc := by unfold AsyncHome.after; split <;> nofun
  cases hs <;> simp only [AsyncHome.State.setRes, AsyncHome.State.setWorker, AsyncHome.State.push, upd] at hw <;> grind [AsyncHome.HPc.result]

/-- Inside `OnComplete` of result `k` is the handler that has made `k`. -/
def PcInv (cfg : Cfg) (s : State) : Prop :=
  ∀ g it pc k, s.home.worker g = .busy it pc → pc.result = some k → ∃ c id, it = .msg c id ∧ k = cfg.key c id ∧ s.stage g = .registered

theorem pc_inv {cfg : Cfg} {ls : List Label} {s : State} (h : Steps (Step cfg) (init cfg) ls s) : PcInv cfg s := by
  refine h.invariant (P := PcInv cfg) ?_ (fun g it pc k hw => ?_)
  · intro s l t hi hs
    have keep : ∀ {t : State} {l : AsyncHome.Label}, AsyncHome.Step cfg.home s.home l t.home → (∀ g k, l ≠ .on g k) → (∀ g it pc, s.home.worker g = .busy it pc → s.stage g = .registered → t.stage g = .registered) → PcInv cfg t := by
      intro t l hs hn hst g it pc k hw hr
      rcases pc_back hs hw hr with ⟨pc', h1, h2⟩ | ⟨h1, _⟩
      · obtain ⟨c, id, h3, h4, h5⟩ := hi g it pc' k h1 h2
        exact ⟨c, id, h3, h4, hst g _ _ h1 h5⟩
      · exact absurd h1 (hn g k)
    cases hs with
    | quiet hq h => exact keep (t := { s with home := _ }) h (fun _ _ e => by subst e; cases hq) (fun _ _ _ _ h => h)
    | arriveOld c o l1 l2 _ _ h => exact keep (t := { s with home := _, pool := _, conn := _, next := _, obj := _ }) h nofun (fun _ _ _ _ h => h)
    | arriveNew c h => exact keep (t := { s with home := _, fresh := _, conn := _, next := _, obj := _ }) h nofun (fun _ _ _ _ h => h)
    | take g it h =>
      refine keep (t := { s with home := _, stage := _ }) h nofun ?_
      intro g' it' pc hw hst
      by_cases e : g' = g
      · subst e
        cases h
        rename_i h1 h2
        simp_all
      · dsimp only
        rw [upd, if_neg e]; exact hst
    | ask g c id hw h0 h =>
      refine keep (t := { s with home := _, ops := _, stage := _ }) h nofun ?_
      intro g' it' pc _ hst
      by_cases e : g' = g
      · subst e; rw [h0] at hst; cases hst
      · dsimp only
        rw [upd, if_neg e]; exact hst
    | register g c id hw h0 h =>
      intro g' it pc k hw' hr
      dsimp only at hw' ⊢
      rcases pc_back h hw' hr with ⟨pc', h1, h2⟩ | ⟨h1, pc', h2⟩
      · obtain ⟨c', id', h3, h4, h5⟩ := hi g' it pc' k h1 h2
        refine ⟨c', id', h3, h4, ?_⟩
        by_cases e : g' = g
        · rw [upd, if_pos e]
        · rw [upd, if_neg e]; exact h5
      · cases h1
        rw [hw] at h2
        cases h2
        exact ⟨c, id, rfl, rfl, if_pos rfl⟩
    | finishMsg g c id _ h => exact keep (t := { s with home := _, pool := _ }) h nofun (fun _ _ _ _ h => h)
    | finishCall g k _ h => exact keep (t := { s with home := _ }) h nofun (fun _ _ _ _ h => h)
    | reply g c id hw h0 _ =>
      intro g' it pc k hw' hr
      obtain ⟨c', id', h3, h4, h5⟩ := hi g' it pc k hw' hr
      refine ⟨c', id', h3, h4, ?_⟩
      by_cases e : g' = g
      · subst e; rw [h0] at h5; cases h5
      · dsimp only
        rw [upd, if_neg e]; exact h5
    | silent g c id hw h0 _ =>
      intro g' it pc k hw' hr
      obtain ⟨c', id', h3, h4, h5⟩ := hi g' it pc k hw' hr
      refine ⟨c', id', h3, h4, ?_⟩
      by_cases e : g' = g
      · subst e; rw [h0] at h5; cases h5
      · dsimp only
        rw [upd, if_neg e]; exact h5
    | op c id rest h0 h => exact keep (t := { s with home := _, stored := _, ops := _ }) h nofun (fun _ _ _ _ h => h)
    | opPush c id g rest h0 h => exact keep (t := { s with home := _, ops := _ }) h nofun (fun _ _ _ _ h => h)
  · simp only [init, AsyncHome.init] at hw
    split at hw <;> cases hw

/-! ## Who has still to register the callback -/

/-- The callback of an operation that has been started has been registered, or its handler is about to. -/
def RegInv (cfg : Cfg) (s : State) : Prop :=
  ∀ c id, (s.home.res (cfg.key c id)).op ≠ .notStarted → (s.home.res (cfg.key c id)).hasFn = true ∨ ∃ g, cur s.home g = some (.msg c id) ∧ s.stage g = .asked

theorem reg_inv {cfg : Cfg} (hk : Keyed cfg) (hd : FixedPool cfg.home) {ls : List Label} {s : State} (h : Steps (Step cfg) (init cfg) ls s) : RegInv cfg s := by
  refine (h.invariant_trace (P := fun ls s => Steps (Step cfg) (init cfg) ls s ∧ RegInv cfg s) ?_ ⟨.nil _, fun c id hn => absurd rfl hn⟩).2
  rintro ls s l t ⟨hr, hi⟩ hs
  refine ⟨hr.snoc hs, ?_⟩
  have hh := home_inv hd hr
  have keep : ∀ {t : State} {l : AsyncHome.Label}, AsyncHome.Step cfg.home s.home l t.home → (∀ g k, l ≠ .process g k) →
      (∀ g c id, cur s.home g = some (.msg c id) → s.stage g = .asked → cur t.home g = some (.msg c id) ∧ t.stage g = .asked) → RegInv cfg t := by
    intro t l hs hn hst c id ho
    have hov := opView_step hs
    have ho' : (s.home.res (cfg.key c id)).op ≠ .notStarted := by
      intro e
      refine ho ?_
      cases l with
      | process g k => exact absurd rfl (hn g k)
      | op k =>
        obtain ⟨a, _, _, _, b⟩ := hov
        rw [b _ (fun e' => a (e' ▸ e))]; exact e
      | opPush k h =>
        obtain ⟨⟨x, a⟩, _, b⟩ := hov
        rw [b _ (fun e' => by rw [← e', e] at a; cases a)]; exact e
      | _ => rw [hov]; exact e
    rcases hi c id ho' with h1 | ⟨g, h1, h2⟩
    · exact .inl ((mono_step hs).2.2.2 h1)
    · exact .inr ⟨g, hst g c id h1 h2⟩
  cases hs with
  | quiet hq h =>
    rename_i l' _
    refine keep (t := { s with home := _ }) h (fun _ _ e => by subst e; cases hq) (fun g c id h1 h2 => ⟨?_, h2⟩)
    have hv := view_step hd h hh
    cases l' <;> first | (cases hq; done) | exact hv.elim | (dsimp only; rw [hv.2.2.2]; exact h1) | (dsimp only; rw [hv.2.2]; exact h1)
  | arriveOld c o l1 l2 _ _ h =>
    obtain ⟨_, _, _, _, hv⟩ := view_step hd h hh
    exact keep (t := { s with home := _, pool := _, conn := _, next := _, obj := _ }) h nofun (fun g c id h1 h2 => ⟨by dsimp only; rw [hv]; exact h1, h2⟩)
  | arriveNew c h =>
    obtain ⟨_, _, _, _, hv⟩ := view_step hd h hh
    exact keep (t := { s with home := _, fresh := _, conn := _, next := _, obj := _ }) h nofun (fun g c id h1 h2 => ⟨by dsimp only; rw [hv]; exact h1, h2⟩)
  | take g it h =>
    obtain ⟨_, _, _, _, hv0, hv⟩ := view_step hd h hh
    refine keep (t := { s with home := _, stage := _ }) h nofun (fun g' c id h1 h2 => ?_)
    have e : g' ≠ g := fun e => by subst e; rw [hv0] at h1; cases h1
    dsimp only
    rw [hv, upd, upd, if_neg e, if_neg e]
    exact ⟨h1, h2⟩
  | ask g c id hw h0 h =>
    obtain ⟨_, _, hv⟩ := view_step hd h hh
    obtain ⟨_, _, v3⟩ := opView_step h
    intro c' id' ho
    dsimp only at ho ⊢
    rw [hv]
    by_cases e : cfg.key c' id' = cfg.key c id
    · obtain ⟨rfl, rfl⟩ := hk.inj _ _ _ _ e
      exact .inr ⟨g, cur_some.mpr ⟨_, hw⟩, if_pos rfl⟩
    · rw [v3 _ e] at ho
      rcases hi c' id' ho with h1 | ⟨g', h1, h2⟩
      · exact .inl ((mono_step h).2.2.2 h1)
      · refine .inr ⟨g', h1, ?_⟩
        rw [upd, if_neg (fun e => by subst e; rw [h0] at h2; cases h2)]; exact h2
  | register g c id hw h0 h =>
    obtain ⟨_, _, hv⟩ := view_step hd h hh
    intro c' id' ho
    dsimp only at ho ⊢
    rw [opView_step h] at ho
    rw [hv]
    rcases hi c' id' ho with h1 | ⟨g', h1, h2⟩
    · exact .inl ((mono_step h).2.2.2 h1)
    · by_cases e : g' = g
      · subst e
        obtain ⟨pc, h1⟩ := cur_some.mp h1
        rw [hw] at h1
        cases h1
        left
        cases h <;> simp_all [AsyncHome.State.setRes, AsyncHome.State.setWorker, upd]
      · exact .inr ⟨g', h1, by rw [upd, if_neg e]; exact h2⟩
  | finishMsg g c id h0 h =>
    obtain ⟨_, _, _, hv⟩ := view_step hd h hh
    refine keep (t := { s with home := _, pool := _ }) h nofun (fun g' c id h1 h2 => ?_)
    have e : g' ≠ g := fun e => by subst e; rw [h0] at h2; cases h2
    dsimp only
    rw [hv, upd, if_neg e]
    exact ⟨h1, h2⟩
  | finishCall g k h0 h =>
    obtain ⟨_, _, _, hv⟩ := view_step hd h hh
    refine keep (t := { s with home := _ }) h nofun (fun g' c id h1 h2 => ?_)
    have e : g' ≠ g := fun e => by subst e; rw [h0] at h2; cases h2
    dsimp only
    rw [hv, upd, if_neg e]
    exact ⟨h1, h2⟩
  | reply g c id hw h0 _ =>
    intro c' id' ho
    rcases hi c' id' ho with h1 | ⟨g', h1, h2⟩
    · exact .inl h1
    · refine .inr ⟨g', h1, ?_⟩
      dsimp only
      rw [upd, if_neg (fun e => by subst e; rw [h0] at h2; cases h2)]; exact h2
  | silent g c id hw h0 _ =>
    intro c' id' ho
    rcases hi c' id' ho with h1 | ⟨g', h1, h2⟩
    · exact .inl h1
    · refine .inr ⟨g', h1, ?_⟩
      dsimp only
      rw [upd, if_neg (fun e => by subst e; rw [h0] at h2; cases h2)]; exact h2
  | op c id rest h0 h =>
    obtain ⟨_, _, hv⟩ := view_step hd h hh
    exact keep (t := { s with home := _, stored := _, ops := _ }) h nofun (fun g c id h1 h2 => ⟨by dsimp only; rw [hv]; exact h1, h2⟩)
  | opPush c id g rest h0 h =>
    obtain ⟨_, _, _, hv⟩ := view_step hd h hh
    exact keep (t := { s with home := _, ops := _ }) h nofun (fun g c id h1 h2 => ⟨by dsimp only; rw [hv]; exact h1, h2⟩)

/-! ## A callback that has been claimed is on its way or has been put -/

def PutInv (k : Nat) (ls : List AsyncHome.Label) (s : AsyncHome.State) : Prop :=
  (s.res k).called = true → 0 < ls.countP (isPush k) ∨ (∃ h, (s.res k).op = .send h) ∨ ∃ h, At s.worker (.send k h)

theorem put_inv {cfg : AsyncHome.Cfg} (hd : FixedPool cfg) {ls : List AsyncHome.Label} {s : AsyncHome.State} (h : Steps (AsyncHome.Step cfg) (AsyncHome.init cfg) ls s) (k : Nat) : DutyInv k s ∧ PutInv k ls s := by
  refine (h.invariant_trace (P := fun ls s => HomeInv cfg s ∧ DutyInv k s ∧ PutInv k ls s) ?_ ⟨home_init cfg, ⟨?_, nofun, nofun⟩, nofun⟩).2
  · rintro ls s l t ⟨hh, hdu, hp⟩ hs
    refine ⟨home_step hd hs hh, duty_step hs hh hd hdu, ?_⟩
    have ht := fun c g => target_home (c := c) (g := g) hd hh
    have hc := hh.closed
    have ha : AsyncHome.after cfg = .idle := if_neg (by have := hd.some; omega)
    have hfix := hd.fixed
    have hpos := hd.some
    have hb := hh.busy
    have hp' := hh.pcOwn
    have hf := hh.ops
    have hn := fun g it => at_new s.worker g it
    have ho := fun g pc X => at_other (f := s.worker) (g := g) (pc := pc) X
    have hu : ∀ (r : Nat → AsyncHome.Result) i x, upd r i x k = if k = i then x else r k := fun _ _ _ => rfl
    unfold PutInv at *
    cases hs <;> simp only [AsyncHome.State.setRes, AsyncHome.State.setWorker, AsyncHome.State.push, hu, List.countP_append, List.countP_cons, List.countP_nil, isPush] <;> grind [AsyncHome.HPc.result]
  · intro h; exact absurd rfl h

end Zinx.Login
