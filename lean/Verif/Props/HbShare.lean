import Verif.Model.HbShare

/-! # C134: the heartbeat checker of a client that connects again -/

namespace Zinx.Props

open Zinx Zinx.HbShare

/-- The last thing known about connection `k` is that nothing has been received on it for the limit. -/
def fellSilent (k : Nat) (ls : List HbShare.Label) : Bool :=
  ls.foldl (fun b l => match l with | .up i => if i = k then false else b | .heard i => if i = k then false else b | .fallSilent i => if i = k then true else b | _ => b) false

/-- There is a reason to call connection `k` dead: it was stopped, or nothing has been received on it for the limit. -/
def HasReason (k : Nat) (ls : List HbShare.Label) : Prop := .stop k ∈ ls ∨ fellSilent k ls = true

/-- A connection is there, and its finalizer has not passed the checker. -/
def HbLive (s : HbShare.State) (k : Nat) : Prop := s.conn k ≠ .none ∧ s.conn k ≠ .done

/-- One connection at a time; and no tick of the checker comes before `updateActivity`, the next statement after its start. -/
def OneConnAtATime (s : HbShare.State) : Prop :=
  (∀ i k, HbLive s i → HbLive s k → i = k) ∧ ∀ k, s.conn k = .watched → s.gor k = .select

/-- A goroutine of the checker is there. -/
def hbRunning (s : HbShare.State) (j : Nat) : Bool := decide (s.gor j ≠ .none ∧ s.gor j ≠ .gone)

/-- A goroutine of the checker has been started for the connection, and the connection has not yet ended one. -/
def hbWatched (s : HbShare.State) (k : Nat) : Bool := decide (s.conn k = .watched ∨ s.conn k = .up ∨ s.conn k = .hook ∨ s.conn k = .quit)

theorem hb_self {α : Type} (f : Nat → α) (i : Nat) (a : α) : HbShare.upd f i a i = a := by simp [HbShare.upd]
theorem hb_other {α : Type} (f : Nat → α) {i j : Nat} (a : α) (h : j ≠ i) : HbShare.upd f i a j = f j := by simp [HbShare.upd, h]

/-- What holds in every reachable state. -/
structure HbInv (s : HbShare.State) : Prop where
  made : ∀ k, s.conn k = .none ↔ s.n ≤ k
  bound : ∀ k, s.bound = some k ↔ k + 1 = s.n
  gor : ∀ k, s.gor k = .none ↔ s.conn k = .none ∨ s.conn k = .made ∨ s.conn k = .begun

theorem hbInv_init : HbInv {} := ⟨fun k => by simp, fun k => by simp, fun k => by simp⟩

theorem hbInv_gor {s : HbShare.State} (hi : HbInv s) {j : Nat} (h : s.gor j ≠ .none) (g : GPc) (hg : g ≠ .none) : HbInv { s with gor := HbShare.upd s.gor j g } := by
  refine ⟨hi.made, hi.bound, fun k => ?_⟩
  dsimp only
  by_cases hk : k = j
  · subst hk; rw [hb_self]; exact ⟨fun h' => absurd h' hg, fun h' => absurd ((hi.gor k).2 h') h⟩
  · rw [hb_other _ _ hk]; exact hi.gor k

theorem hbInv_conn {s : HbShare.State} (hi : HbInv s) {i : Nat} (c : CPc) (h : s.conn i ≠ .none) (hc : c ≠ .none)
    (hg : (s.conn i = .made ∨ s.conn i = .begun) ↔ (c = .made ∨ c = .begun)) : HbInv { s with conn := HbShare.upd s.conn i c } := by
  refine ⟨fun k => ?_, hi.bound, fun k => ?_⟩ <;> dsimp only <;> by_cases hk : k = i
  · subst hk; rw [hb_self]; exact ⟨fun h' => absurd h' hc, fun h' => absurd ((hi.made k).2 h') h⟩
  · rw [hb_other _ _ hk]; exact hi.made k
  · subst hk; rw [hb_self, hi.gor k, hg]; simp [h, hc]
  · rw [hb_other _ _ hk]; exact hi.gor k

theorem hbInv_step (s : HbShare.State) (l : HbShare.Label) (t : HbShare.State) (hi : HbInv s) (h : HbShare.Step s l t) : HbInv t := by
  obtain ⟨-, h⟩ := h
  cases h with
  | bind =>
    have hn : s.conn s.n = .none := (hi.made _).2 (Nat.le_refl _)
    refine ⟨fun k => ?_, fun k => ?_, fun k => ?_⟩ <;> dsimp only
    · by_cases hk : k = s.n
      · subst hk; rw [hb_self]; simp
      · rw [hb_other _ _ hk, hi.made]; omega
    · simp; omega
    · by_cases hk : k = s.n
      · subst hk; rw [hb_self]; simpa using (hi.gor s.n).2 (.inl hn)
      · rw [hb_other _ _ hk]; exact hi.gor k
  | begin h => exact hbInv_conn hi _ (by simp [h]) (by simp) (by simp [h])
  | @watch k h =>
    refine ⟨fun i => ?_, hi.bound, fun i => ?_⟩ <;> dsimp only <;> by_cases hk : i = k
    · subst hk; rw [hb_self]; exact ⟨(fun h' => by cases h'), fun h' => absurd ((hi.made i).2 h') (by simp [h])⟩
    · rw [hb_other _ _ hk]; exact hi.made i
    · subst hk; simp [hb_self]
    · rw [hb_other _ _ hk, hb_other _ _ hk]; exact hi.gor i
  | up h => exact ⟨(hbInv_conn hi .up (by simp [h]) (by simp) (by simp [h])).made, hi.bound, (hbInv_conn hi .up (by simp [h]) (by simp) (by simp [h])).gor⟩
  | heard h => exact ⟨hi.made, hi.bound, hi.gor⟩
  | fallSilent => exact ⟨hi.made, hi.bound, hi.gor⟩
  | stop _ _ => exact ⟨hi.made, hi.bound, hi.gor⟩
  | hook h _ => exact hbInv_conn hi _ (by simp [h]) (by simp) (by simp [h])
  | hookDone h => exact hbInv_conn hi _ (by simp [h]) (by simp) (by simp [h])
  | @quit k j h hg =>
    have h1 := hbInv_conn hi (i := k) .done (by simp [h]) (by simp) (by simp [h])
    exact hbInv_gor h1 (by dsimp only; rw [hg]; simp) .gone (by simp)
  | tick h => exact hbInv_gor hi (by simp [h]) _ (by simp)
  | judge h _ => exact hbInv_gor hi (by simp [h]) _ (by split <;> simp)
  | notAlive h _ => exact hbInv_gor hi (by simp [h]) _ (by simp)
  | stopped h _ _ => exact ⟨hi.made, hi.bound, (hbInv_gor hi (by simp [h]) .select (by simp)).gor⟩
  | crash _ _ => exact ⟨hi.made, hi.bound, hi.gor⟩
  | beat h _ => exact hbInv_gor hi (by simp [h]) _ (by simp)

/-! ## One connection at a time -/

structure HbOne (s : HbShare.State) (tr : List HbShare.Label) : Prop where
  base : HbInv s
  earlier : ∀ k, k + 1 < s.n → s.conn k = .done
  own : ∀ j, hbRunning s j = true → hbWatched s j = true
  cancelled : ∀ k, s.cancelled k = true → .stop k ∈ tr
  silent : ∀ k, s.silent k = true → s.conn k = .up ∨ s.conn k = .hook ∨ s.conn k = .quit → fellSilent k tr = true
  reason : ∀ j, s.gor j = .dead → ∃ a b, tr = a ++ .judge j :: b ∧ .judge j ∉ b ∧ HasReason j a
  stopping : ∀ j k, s.gor j = .stopping k → k = j
  safe : s.crashed = false

theorem hbOne_init : HbOne {} [] :=
  ⟨hbInv_init, fun k h => absurd h (by simp), fun j h => by simp [hbRunning] at h, fun k h => by simp at h, fun k _ h => by simp at h, fun j h => by simp at h, fun j k h => by simp at h, rfl⟩

theorem hb_watched_live {s : HbShare.State} {k : Nat} (h : hbWatched s k = true) : HbLive s k := by
  simp [hbWatched] at h
  constructor <;> intro h' <;> rw [h'] at h <;> simp at h

/-- The connection whose checker is running is the one the checker is bound to. -/
theorem hb_bound {s : HbShare.State} {tr : List HbShare.Label} (hi : HbOne s tr) {j k : Nat} (hr : hbRunning s j = true) (hb : s.bound = some k) : j = k := by
  have hl := hb_watched_live (hi.own j hr)
  have h1 : ¬ s.n ≤ j := fun h => hl.1 ((hi.base.made j).2 h)
  have h2 := (hi.base.bound k).1 hb
  by_cases h3 : j + 1 < s.n
  · exact absurd (hi.earlier j h3) hl.2
  · omega

theorem fellSilent_snoc (k : Nat) (tr : List HbShare.Label) (l : HbShare.Label) : fellSilent k (tr ++ [l]) =
    (match l with | .up i => if i = k then false else fellSilent k tr | .heard i => if i = k then false else fellSilent k tr | .fallSilent i => if i = k then true else fellSilent k tr | _ => fellSilent k tr) := by
  simp only [fellSilent, List.foldl_append, List.foldl_cons, List.foldl_nil]

/-- A reason found earlier stays on record, as long as the goroutine does not judge again. -/
theorem hb_reason_snoc {j : Nat} {tr : List HbShare.Label} {l : HbShare.Label} (hl : l ≠ .judge j) (h : ∃ a b, tr = a ++ .judge j :: b ∧ .judge j ∉ b ∧ HasReason j a) :
    ∃ a b, tr ++ [l] = a ++ .judge j :: b ∧ .judge j ∉ b ∧ HasReason j a := by
  obtain ⟨a, b, e, h1, h2⟩ := h
  refine ⟨a, b ++ [l], by rw [e]; simp, ?_, h2⟩
  simp only [List.mem_append, List.mem_singleton, not_or]
  exact ⟨h1, fun h => hl h.symm⟩

theorem hbOne_step {s : HbShare.State} {l : HbShare.Label} {t : HbShare.State} {tr : List HbShare.Label} (hq : OneConnAtATime s) (hqt : OneConnAtATime t) (hi : HbOne s tr)
    (h : HbShare.Step s l t) : HbOne t (tr ++ [l]) ∧ l ≠ .crash := by
  have hb := hbInv_step s l t hi.base h
  obtain ⟨-, h⟩ := h
  have hmem : ∀ {k}, HbShare.Label.stop k ∈ tr → HbShare.Label.stop k ∈ tr ++ [l] := fun h => List.mem_append_left _ h
  cases h with
  | bind =>
    have hn : s.conn s.n = .none := (hi.base.made _).2 (Nat.le_refl _)
    have hd : ∀ k, k < s.n → s.conn k = .done := by
      intro k hk
      by_cases hd : s.conn k = .done
      · exact hd
      have hl1 : HbLive { s with n := s.n + 1, bound := some s.n, conn := HbShare.upd s.conn s.n .made } k := by
        refine ⟨?_, ?_⟩ <;> dsimp only <;> rw [hb_other _ _ (by omega)]
        · intro h; have := (hi.base.made k).1 h; omega
        · exact hd
      have hl2 : HbLive { s with n := s.n + 1, bound := some s.n, conn := HbShare.upd s.conn s.n .made } s.n := by
        refine ⟨?_, ?_⟩ <;> dsimp only <;> rw [hb_self] <;> simp
      have := hqt.1 _ _ hl1 hl2
      omega
    refine ⟨⟨hb, fun k hk => ?_, fun j hj => ?_, fun k h => hmem (hi.cancelled k h), fun k h hc => ?_, fun j h => hb_reason_snoc (by simp) (hi.reason j h), hi.stopping, hi.safe⟩, by simp⟩
    · dsimp only at hk ⊢
      rw [hb_other _ _ (by omega)]; exact hd k (by omega)
    · have := hi.own j hj
      have hl := hb_watched_live this
      have hjn : j ≠ s.n := by intro e; subst e; exact hl.1 hn
      simp only [hbWatched, hb_other _ _ hjn] at this ⊢
      exact this
    · dsimp only at h hc
      by_cases hk : k = s.n
      · subst hk; rw [hb_self] at hc; simp at hc
      · rw [hb_other _ _ hk] at hc; rw [fellSilent_snoc]; exact hi.silent k h hc
  | @begin k h =>
    refine ⟨⟨hb, fun i hi' => ?_, fun j hj => ?_, fun k h => hmem (hi.cancelled k h), fun i h' hc => ?_, fun j h => hb_reason_snoc (by simp) (hi.reason j h), hi.stopping, hi.safe⟩, by simp⟩
    · have := hi.earlier i hi'
      dsimp only
      rw [hb_other _ _ (by intro e; subst e; rw [h] at this; cases this)]; exact this
    · have := hi.own j hj
      have hjn : j ≠ k := by intro e; subst e; simp [hbWatched, h] at this
      simp only [hbWatched, hb_other _ _ hjn] at this ⊢
      exact this
    · dsimp only at h' hc
      by_cases hk : i = k
      · subst hk; rw [hb_self] at hc; simp at hc
      · rw [hb_other _ _ hk] at hc; rw [fellSilent_snoc]; exact hi.silent i h' hc
  | @watch k h =>
    refine ⟨⟨hb, fun i hi' => ?_, fun j hj => ?_, fun k h => hmem (hi.cancelled k h), fun i h' hc => ?_, fun j h' => ?_, fun j i h' => ?_, hi.safe⟩, by simp⟩
    · have := hi.earlier i hi'
      dsimp only
      rw [hb_other _ _ (by intro e; subst e; rw [h] at this; cases this)]; exact this
    · by_cases hjk : j = k
      · subst hjk; simp [hbWatched, hb_self]
      · simp only [hbRunning, hb_other _ _ hjk] at hj
        have := hi.own j hj
        simp only [hbWatched, hb_other _ _ hjk] at this ⊢
        exact this
    · dsimp only at h' hc
      by_cases hk : i = k
      · subst hk; rw [hb_self] at hc; simp at hc
      · rw [hb_other _ _ hk] at hc; rw [fellSilent_snoc]; exact hi.silent i h' hc
    · dsimp only at h'
      by_cases hk : j = k
      · subst hk; rw [hb_self] at h'; cases h'
      · rw [hb_other _ _ hk] at h'; exact hb_reason_snoc (by simp) (hi.reason j h')
    · dsimp only at h'
      by_cases hk : j = k
      · subst hk; rw [hb_self] at h'; cases h'
      · rw [hb_other _ _ hk] at h'; exact hi.stopping j i h'
  | @up k h =>
    refine ⟨⟨hb, fun i hi' => ?_, fun j hj => ?_, fun k h => hmem (hi.cancelled k h), fun i h' hc => ?_, fun j h => hb_reason_snoc (by simp) (hi.reason j h), hi.stopping, hi.safe⟩, by simp⟩
    · have := hi.earlier i hi'
      dsimp only
      rw [hb_other _ _ (by intro e; subst e; rw [h] at this; cases this)]; exact this
    · have := hi.own j hj
      by_cases hjk : j = k
      · subst hjk; simp [hbWatched, hb_self]
      · simp only [hbWatched, hb_other _ _ hjk] at this ⊢
        exact this
    · dsimp only at h' hc
      by_cases hk : i = k
      · subst hk; rw [hb_self] at h'; simp at h'
      · rw [hb_other _ _ hk] at h' hc; rw [fellSilent_snoc]; simp only [if_neg (Ne.symm hk)]; exact hi.silent i h' hc
  | @heard k h =>
    refine ⟨⟨hb, hi.earlier, hi.own, fun k h => hmem (hi.cancelled k h), fun i h' hc => ?_, fun j h => hb_reason_snoc (by simp) (hi.reason j h), hi.stopping, hi.safe⟩, by simp⟩
    dsimp only at h' hc
    by_cases hk : i = k
    · subst hk; rw [hb_self] at h'; simp at h'
    · rw [hb_other _ _ hk] at h'; rw [fellSilent_snoc]; simp only [if_neg (Ne.symm hk)]; exact hi.silent i h' hc
  | @fallSilent k =>
    refine ⟨⟨hb, hi.earlier, hi.own, fun k h => hmem (hi.cancelled k h), fun i h' hc => ?_, fun j h => hb_reason_snoc (by simp) (hi.reason j h), hi.stopping, hi.safe⟩, by simp⟩
    dsimp only at h' hc
    rw [fellSilent_snoc]
    by_cases hk : k = i
    · simp [hk]
    · rw [hb_other _ _ (Ne.symm hk)] at h'; simp only [if_neg hk]; exact hi.silent i h' hc
  | @stop k h1 h2 =>
    refine ⟨⟨hb, hi.earlier, hi.own, fun i h => ?_, fun i h' hc => ?_, fun j h => hb_reason_snoc (by simp) (hi.reason j h), hi.stopping, hi.safe⟩, by simp⟩
    · dsimp only at h
      by_cases hk : i = k
      · subst hk; simp
      · rw [hb_other _ _ hk] at h; exact hmem (hi.cancelled i h)
    · rw [fellSilent_snoc]; exact hi.silent i h' hc
  | @hook k h hc0 =>
    refine ⟨⟨hb, fun i hi' => ?_, fun j hj => ?_, fun k h => hmem (hi.cancelled k h), fun i h' hc => ?_, fun j h => hb_reason_snoc (by simp) (hi.reason j h), hi.stopping, hi.safe⟩, by simp⟩
    · have := hi.earlier i hi'
      dsimp only
      rw [hb_other _ _ (by intro e; subst e; rw [h] at this; cases this)]; exact this
    · have := hi.own j hj
      by_cases hjk : j = k
      · subst hjk; simp [hbWatched, hb_self]
      · simp only [hbWatched, hb_other _ _ hjk] at this ⊢
        exact this
    · dsimp only at h' hc
      rw [fellSilent_snoc]
      by_cases hk : i = k
      · subst hk; exact hi.silent i h' (.inl h)
      · rw [hb_other _ _ hk] at hc; exact hi.silent i h' hc
  | @hookDone k h =>
    refine ⟨⟨hb, fun i hi' => ?_, fun j hj => ?_, fun k h => hmem (hi.cancelled k h), fun i h' hc => ?_, fun j h => hb_reason_snoc (by simp) (hi.reason j h), hi.stopping, hi.safe⟩, by simp⟩
    · have := hi.earlier i hi'
      dsimp only
      rw [hb_other _ _ (by intro e; subst e; rw [h] at this; cases this)]; exact this
    · have := hi.own j hj
      by_cases hjk : j = k
      · subst hjk; simp [hbWatched, hb_self]
      · simp only [hbWatched, hb_other _ _ hjk] at this ⊢
        exact this
    · dsimp only at h' hc
      rw [fellSilent_snoc]
      by_cases hk : i = k
      · subst hk; exact hi.silent i h' (.inr (.inl h))
      · rw [hb_other _ _ hk] at hc; exact hi.silent i h' hc
  | @quit k j h hg =>
    have hjk : j = k := hq.1 _ _ (hb_watched_live (hi.own j (by simp [hbRunning, hg]))) ⟨by simp [h], by simp [h]⟩
    subst hjk
    refine ⟨⟨hb, fun i hi' => ?_, fun i hj => ?_, fun k h => hmem (hi.cancelled k h), fun i h' hc => ?_, fun i h' => ?_, fun i i' h' => ?_, hi.safe⟩, by simp⟩
    · dsimp only
      by_cases hij : i = j
      · subst hij; rw [hb_self]
      · rw [hb_other _ _ hij]; exact hi.earlier i hi'
    · by_cases hij : i = j
      · subst hij; simp [hbRunning, hb_self] at hj
      · simp only [hbRunning, hb_other _ _ hij] at hj
        have := hi.own i hj
        simp only [hbWatched, hb_other _ _ hij] at this ⊢
        exact this
    · dsimp only at h' hc
      rw [fellSilent_snoc]
      by_cases hk : i = j
      · subst hk; rw [hb_self] at hc; simp at hc
      · rw [hb_other _ _ hk] at hc; exact hi.silent i h' hc
    · dsimp only at h'
      by_cases hk : i = j
      · subst hk; rw [hb_self] at h'; cases h'
      · rw [hb_other _ _ hk] at h'; exact hb_reason_snoc (by simp) (hi.reason i h')
    · dsimp only at h'
      by_cases hk : i = j
      · subst hk; rw [hb_self] at h'; cases h'
      · rw [hb_other _ _ hk] at h'; exact hi.stopping i i' h'
  | @tick j h =>
    refine ⟨⟨hb, hi.earlier, fun i hj => ?_, fun k h => hmem (hi.cancelled k h), fun i h' hc => ?_, fun i h' => ?_, fun i i' h' => ?_, hi.safe⟩, by simp⟩
    · by_cases hij : i = j
      · subst hij; exact hi.own i (by simp [hbRunning, h])
      · simp only [hbRunning, hb_other _ _ hij] at hj; exact hi.own i hj
    · rw [fellSilent_snoc]; exact hi.silent i h' hc
    · dsimp only at h'
      by_cases hk : i = j
      · subst hk; rw [hb_self] at h'; cases h'
      · rw [hb_other _ _ hk] at h'; exact hb_reason_snoc (by simp) (hi.reason i h')
    · dsimp only at h'
      by_cases hk : i = j
      · subst hk; rw [hb_self] at h'; cases h'
      · rw [hb_other _ _ hk] at h'; exact hi.stopping i i' h'
  | @judge j k h hk0 =>
    have hrun : hbRunning s j = true := by simp [hbRunning, h]
    have hjk : j = k := hb_bound hi hrun hk0
    subst hjk
    refine ⟨⟨hb, hi.earlier, fun i hj => ?_, fun k h => hmem (hi.cancelled k h), fun i h' hc => ?_, fun i h' => ?_, fun i i' h' => ?_, hi.safe⟩, by simp⟩
    · by_cases hij : i = j
      · subst hij; exact hi.own i hrun
      · simp only [hbRunning, hb_other _ _ hij] at hj; exact hi.own i hj
    · rw [fellSilent_snoc]; exact hi.silent i h' hc
    · dsimp only at h'
      by_cases hk : i = j
      · subst hk
        rw [hb_self] at h'
        refine ⟨tr, [], rfl, by simp, ?_⟩
        have hw := hi.own i hrun
        have hup : s.conn i = .up ∨ s.conn i = .hook ∨ s.conn i = .quit := by
          simp [hbWatched] at hw
          rcases hw with hw | hw
          · have := hq.2 i hw; rw [h] at this; cases this
          · exact hw
        by_cases ha : s.alive i = true
        · rw [if_pos ha] at h'; cases h'
        · simp only [State.alive, State.closed, Bool.and_eq_true, Bool.not_eq_true', Bool.or_eq_false_iff, decide_eq_false_iff_not, not_and] at ha
          by_cases hcn : s.cancelled i = true
          · exact .inl (hi.cancelled i hcn)
          · refine .inr (hi.silent i ?_ hup)
            have := ha ⟨by rcases hup with e | e | e <;> rw [e] <;> simp, by simpa using hcn⟩
            simpa using this
      · rw [hb_other _ _ hk] at h'; exact hb_reason_snoc (by simp; exact Ne.symm hk) (hi.reason i h')
    · dsimp only at h'
      by_cases hk : i = j
      · subst hk; rw [hb_self] at h'; split at h' <;> cases h'
      · rw [hb_other _ _ hk] at h'; exact hi.stopping i i' h'
  | @notAlive j k h hk0 =>
    have hrun : hbRunning s j = true := by simp [hbRunning, h]
    have hjk : j = k := hb_bound hi hrun hk0
    subst hjk
    refine ⟨⟨hb, hi.earlier, fun i hj => ?_, fun k h => hmem (hi.cancelled k h), fun i h' hc => ?_, fun i h' => ?_, fun i i' h' => ?_, hi.safe⟩, by simp⟩
    · by_cases hij : i = j
      · subst hij; exact hi.own i hrun
      · simp only [hbRunning, hb_other _ _ hij] at hj; exact hi.own i hj
    · rw [fellSilent_snoc]; exact hi.silent i h' hc
    · dsimp only at h'
      by_cases hk : i = j
      · subst hk; rw [hb_self] at h'; cases h'
      · rw [hb_other _ _ hk] at h'; exact hb_reason_snoc (by simp) (hi.reason i h')
    · dsimp only at h'
      by_cases hk : i = j
      · subst hk; rw [hb_self] at h'; cases h'; rfl
      · rw [hb_other _ _ hk] at h'; exact hi.stopping i i' h'
  | @stopped j k h h1 h2 =>
    have hrun : hbRunning s j = true := by simp [hbRunning, h]
    refine ⟨⟨hb, hi.earlier, fun i hj => ?_, fun i h => ?_, fun i h' hc => ?_, fun i h' => ?_, fun i i' h' => ?_, hi.safe⟩, by simp⟩
    · by_cases hij : i = j
      · subst hij; exact hi.own i hrun
      · simp only [hbRunning, hb_other _ _ hij] at hj; exact hi.own i hj
    · dsimp only at h
      by_cases hk : i = k
      · subst hk; simp
      · rw [hb_other _ _ hk] at h; exact hmem (hi.cancelled i h)
    · rw [fellSilent_snoc]; exact hi.silent i h' hc
    · dsimp only at h'
      by_cases hk : i = j
      · subst hk; rw [hb_self] at h'; cases h'
      · rw [hb_other _ _ hk] at h'; exact hb_reason_snoc (by simp) (hi.reason i h')
    · dsimp only at h'
      by_cases hk : i = j
      · subst hk; rw [hb_self] at h'; cases h'
      · rw [hb_other _ _ hk] at h'; exact hi.stopping i i' h'
  | @crash j k h h1 =>
    exfalso
    have hrun : hbRunning s j = true := by simp [hbRunning, h]
    have := hi.own j hrun
    rw [hi.stopping j k h] at h1
    simp [hbWatched] at this
    rcases h1 with h1 | h1 <;> rw [h1] at this <;> simp at this
  | @beat j k h hk0 =>
    have hrun : hbRunning s j = true := by simp [hbRunning, h]
    refine ⟨⟨hb, hi.earlier, fun i hj => ?_, fun k h => hmem (hi.cancelled k h), fun i h' hc => ?_, fun i h' => ?_, fun i i' h' => ?_, hi.safe⟩, by simp⟩
    · by_cases hij : i = j
      · subst hij; exact hi.own i hrun
      · simp only [hbRunning, hb_other _ _ hij] at hj; exact hi.own i hj
    · rw [fellSilent_snoc]; exact hi.silent i h' hc
    · dsimp only at h'
      by_cases hk : i = j
      · subst hk; rw [hb_self] at h'; cases h'
      · rw [hb_other _ _ hk] at h'; exact hb_reason_snoc (by simp) (hi.reason i h')
    · dsimp only at h'
      by_cases hk : i = j
      · subst hk; rw [hb_self] at h'; cases h'
      · rw [hb_other _ _ hk] at h'; exact hi.stopping i i' h'

theorem hb_head {s t : HbShare.State} {ls : List HbShare.Label} (h : StepsAll HbShare.Step OneConnAtATime s ls t) : OneConnAtATime s := by
  cases h with
  | nil h => exact h
  | cons h _ _ => exact h

theorem hb_alone_split : ∀ (l1 : List HbShare.Label) (s t : HbShare.State) (tr l2 : List HbShare.Label), HbOne s tr → StepsAll HbShare.Step OneConnAtATime s (l1 ++ l2) t →
    ∃ u, HbOne u (tr ++ l1) ∧ .crash ∉ l1 ∧ StepsAll HbShare.Step OneConnAtATime u l2 t := by
  intro l1
  induction l1 with
  | nil => intro s t tr l2 hi h; exact ⟨s, by simpa using hi, by simp, h⟩
  | cons l l1 ih =>
    intro s t tr l2 hi h
    cases h with
    | cons hq hs h =>
      obtain ⟨h1, h2⟩ := hbOne_step hq (hb_head h) hi hs
      obtain ⟨u, h3, h4, h5⟩ := ih _ _ _ _ h1 h
      exact ⟨u, by simpa using h3, by simp only [List.mem_cons, not_or]; exact ⟨Ne.symm h2, h4⟩, h5⟩

/-- **C134 as far as it holds.** If the client connects again only when the finalizer of its last connection has passed the checker, and no tick comes before `updateActivity`, then: the process does
not end; a connection is called dead only by its own goroutine, and only if at the last look it had been stopped or nothing had been received on it for the limit; and heartbeats are sent by the
goroutine of the connection they are sent on. -/
theorem C134_partial {ls : List HbShare.Label} {t : HbShare.State} (h : StepsAll HbShare.Step OneConnAtATime {} ls t) :
    .crash ∉ ls ∧
    (∀ l1 l2 j k, ls = l1 ++ .notAlive j k :: l2 → j = k ∧ ∃ a b, l1 = a ++ .judge k :: b ∧ .judge k ∉ b ∧ HasReason k a) ∧
    ∀ l1 l2 j k, ls = l1 ++ .beat j k :: l2 → j = k := by
  refine ⟨?_, ?_, ?_⟩
  · obtain ⟨_, _, h1, _⟩ := hb_alone_split ls {} t [] [] hbOne_init (by simpa using h)
    exact h1
  · intro l1 l2 j k e
    subst e
    obtain ⟨u, hi, _, h⟩ := hb_alone_split l1 {} t [] _ hbOne_init h
    cases h with
    | cons hq hs h =>
      obtain ⟨-, hs⟩ := hs
      cases hs with
      | notAlive hg hk =>
        have hjk := hb_bound hi (j := j) (by simp [hbRunning, hg]) hk
        subst hjk
        exact ⟨rfl, by simpa using hi.reason j hg⟩
  · intro l1 l2 j k e
    subst e
    obtain ⟨u, hi, _, h⟩ := hb_alone_split l1 {} t [] _ hbOne_init h
    cases h with
    | cons hq hs h =>
      obtain ⟨-, hs⟩ := hs
      cases hs with
      | beat hg hk => exact hb_bound hi (j := j) (by simp [hbRunning, hg]) hk

/-! ## Any number of connections -/

/-- How many of the numbers below `n` have the property. -/
def countTo (p : Nat → Bool) : Nat → Nat
  | 0 => 0
  | n + 1 => countTo p n + if p n then 1 else 0

theorem countTo_congr {p q : Nat → Bool} : ∀ {n : Nat}, (∀ i, i < n → p i = q i) → countTo p n = countTo q n
  | 0, _ => rfl
  | n + 1, h => by rw [countTo, countTo, countTo_congr (n := n) fun i hi => h i (by omega), h n (by omega)]

theorem countTo_one {p q : Nat → Bool} {i : Nat} (hp : p i = true) (hq : q i = false) (h : ∀ j, j ≠ i → p j = q j) : ∀ {n : Nat}, i < n → countTo p n = countTo q n + 1
  | 0, hi => by omega
  | n + 1, hi => by
    by_cases hn : i = n
    · subst hn
      rw [countTo, countTo, hp, hq, countTo_congr (n := i) fun j hj => h j (by omega)]
      simp
    · rw [countTo, countTo, countTo_one hp hq h (n := n) (by omega), h n (Ne.symm hn)]
      omega

theorem countTo_pos {p : Nat → Bool} : ∀ {n : Nat}, 0 < countTo p n → ∃ j, j < n ∧ p j = true
  | 0, h => by simp [countTo] at h
  | n + 1, h => by
    by_cases hp : p n = true
    · exact ⟨n, by omega, hp⟩
    · rw [countTo, if_neg hp] at h
      obtain ⟨j, hj, hpj⟩ := countTo_pos (n := n) (by omega)
      exact ⟨j, by omega, hpj⟩

theorem countTo_unique {p : Nat → Bool} {n j : Nat} (hj : j < n) (hp : p j = true) (h : countTo p n = 1) : ∀ i, i < n → p i = true → i = j := by
  intro i hi hpi
  by_cases e : i = j
  · exact e
  exfalso
  have h1 := countTo_one (p := p) (q := fun k => if k = j then false else p k) (i := j) hp (by simp) (fun k hk => by simp [hk]) hj
  have h2 : 0 < countTo (fun k => if k = j then false else p k) n := by
    have := countTo_one (p := fun k => if k = j then false else p k) (q := fun k => if k = i then false else if k = j then false else p k) (i := i) (by simp [e, hpi]) (by simp)
      (fun k hk => by simp [hk]) hi
    omega
  omega

/-- As many goroutines of the checker as connections that are to be watched. -/
def HbEven (s : HbShare.State) : Prop := countTo (hbRunning s) s.n = countTo (hbWatched s) s.n

theorem hb_running_lt {s : HbShare.State} (hi : HbInv s) {j : Nat} (h : hbRunning s j = true) : j < s.n := by
  by_cases hj : s.n ≤ j
  · have := (hi.gor j).2 (.inl ((hi.made j).2 hj))
    simp [hbRunning, this] at h
  · omega

theorem hbEven_step (s : HbShare.State) (l : HbShare.Label) (t : HbShare.State) (hi : HbInv s ∧ HbEven s) (h : HbShare.Step s l t) : HbInv t ∧ HbEven t := by
  refine ⟨hbInv_step s l t hi.1 h, ?_⟩
  obtain ⟨hi, he⟩ := hi
  obtain ⟨-, h⟩ := h
  have hlt : ∀ {k}, s.conn k ≠ .none → k < s.n := by
    intro k hk
    by_cases h : s.n ≤ k
    · exact absurd ((hi.made k).2 h) hk
    · omega
  -- a step that changes neither who runs nor who is watched
  have same : ∀ t : HbShare.State, t.n = s.n → (∀ i, hbRunning t i = hbRunning s i) → (∀ i, hbWatched t i = hbWatched s i) → HbEven t := by
    intro t hn h1 h2
    unfold HbEven
    rw [hn, countTo_congr (fun i _ => h1 i), countTo_congr (fun i _ => h2 i)]
    exact he
  have gor : ∀ (j : Nat) (g : GPc), s.gor j ≠ .none → s.gor j ≠ .gone → g ≠ .none → g ≠ .gone → ∀ i, hbRunning { s with gor := HbShare.upd s.gor j g } i = hbRunning s i := by
    intro j g h1 h2 h3 h4 i
    by_cases hij : i = j
    · subst hij; simp [hbRunning, hb_self, h1, h2, h3, h4]
    · simp [hbRunning, hb_other _ _ hij]
  have conn : ∀ (k : Nat) (c : CPc), ((c = .watched ∨ c = .up ∨ c = .hook ∨ c = .quit) ↔ (s.conn k = .watched ∨ s.conn k = .up ∨ s.conn k = .hook ∨ s.conn k = .quit)) →
      ∀ i, hbWatched { s with conn := HbShare.upd s.conn k c } i = hbWatched s i := by
    intro k c h i
    by_cases hik : i = k
    · subst hik
      unfold hbWatched
      refine decide_eq_decide.2 ?_
      dsimp only
      rw [hb_self]
      exact h
    · simp [hbWatched, hb_other _ _ hik]
  cases h with
  | bind =>
    have hn : s.conn s.n = .none := (hi.made _).2 (Nat.le_refl _)
    have hg : s.gor s.n = .none := (hi.gor _).2 (.inl hn)
    unfold HbEven at he ⊢
    dsimp only
    rw [countTo, countTo]
    rw [if_neg (by simp [hbRunning, hg]), if_neg (by simp [hbWatched, hb_self])]
    have e : ∀ i, i < s.n → hbWatched { s with n := s.n + 1, bound := some s.n, conn := HbShare.upd s.conn s.n .made } i = hbWatched s i :=
      fun i hi' => by simp [hbWatched, hb_other _ _ (Nat.ne_of_lt hi')]
    rw [countTo_congr e]
    simp only [Nat.add_zero]
    exact he
  | begin h => exact same _ rfl (fun _ => rfl) (conn _ _ (by simp [h]))
  | @watch k h =>
    have hg : s.gor k = .none := (hi.gor _).2 (.inr (.inr h))
    have hk := hlt (k := k) (by simp [h])
    have h1 := countTo_one (p := hbRunning { s with conn := HbShare.upd s.conn k .watched, gor := HbShare.upd s.gor k .select }) (q := hbRunning s) (i := k) (by simp [hbRunning, hb_self]) (by simp [hbRunning, hg])
      (fun j hj => by simp [hbRunning, hb_other _ _ hj]) hk
    have h2 := countTo_one (p := hbWatched { s with conn := HbShare.upd s.conn k .watched, gor := HbShare.upd s.gor k .select }) (q := hbWatched s) (i := k) (by simp [hbWatched, hb_self]) (by simp [hbWatched, h])
      (fun j hj => by simp [hbWatched, hb_other _ _ hj]) hk
    unfold HbEven at he ⊢
    dsimp only
    omega
  | @up k h => exact same _ rfl (fun _ => rfl) (conn k .up (by simp [h]))
  | heard h => exact same _ rfl (fun _ => rfl) (fun _ => rfl)
  | fallSilent => exact same _ rfl (fun _ => rfl) (fun _ => rfl)
  | stop _ _ => exact same _ rfl (fun _ => rfl) (fun _ => rfl)
  | hook h _ => exact same _ rfl (fun _ => rfl) (conn _ _ (by simp [h]))
  | hookDone h => exact same _ rfl (fun _ => rfl) (conn _ _ (by simp [h]))
  | @quit k j h hg =>
    have hk := hlt (k := k) (by simp [h])
    have hj := hb_running_lt hi (j := j) (by simp [hbRunning, hg])
    have h1 := countTo_one (p := hbRunning s) (q := hbRunning { s with conn := HbShare.upd s.conn k .done, gor := HbShare.upd s.gor j .gone }) (i := j) (by simp [hbRunning, hg]) (by simp [hbRunning, hb_self])
      (fun i hij => by simp [hbRunning, hb_other _ _ hij]) hj
    have h2 := countTo_one (p := hbWatched s) (q := hbWatched { s with conn := HbShare.upd s.conn k .done, gor := HbShare.upd s.gor j .gone }) (i := k) (by simp [hbWatched, h]) (by simp [hbWatched, hb_self])
      (fun i hik => by simp [hbWatched, hb_other _ _ hik]) hk
    unfold HbEven at he ⊢
    dsimp only
    omega
  | @tick j h => exact same _ rfl (gor j .check (by simp [h]) (by simp [h]) (by simp) (by simp)) (fun _ => rfl)
  | @judge j k h _ => exact same _ rfl (gor j _ (by simp [h]) (by simp [h]) (by split <;> simp) (by split <;> simp)) (fun _ => rfl)
  | @notAlive j k h _ => exact same _ rfl (gor j (.stopping k) (by simp [h]) (by simp [h]) (by simp) (by simp)) (fun _ => rfl)
  | @stopped j k h _ _ => exact same _ rfl (gor j .select (by simp [h]) (by simp [h]) (by simp) (by simp)) (fun _ => rfl)
  | crash _ _ => exact same _ rfl (fun _ => rfl) (fun _ => rfl)
  | @beat j k h _ => exact same _ rfl (gor j .select (by simp [h]) (by simp [h]) (by simp) (by simp)) (fun _ => rfl)

/-- **When things have settled.** However often and whenever the client has connected again: once the finalizers of all its earlier connections have passed the checker and the last one is
running, exactly one goroutine of the checker is there, and it looks at that last connection. (It need not be the one that was started for it.) -/
theorem C134_settled {ls : List HbShare.Label} {s : HbShare.State} (h : Steps HbShare.Step {} ls s) {m : Nat} (hn : s.n = m + 1) (hd : ∀ k, k < m → s.conn k = .done)
    (hm : s.conn m = .watched ∨ s.conn m = .up) : s.bound = some m ∧ ∃ j, hbRunning s j = true ∧ ∀ i, hbRunning s i = true → i = j := by
  obtain ⟨hi, he⟩ := Steps.invariant (P := fun s => HbInv s ∧ HbEven s) (fun s l t hp hs => hbEven_step s l t hp hs) h ⟨hbInv_init, rfl⟩
  refine ⟨(hi.bound m).2 hn.symm, ?_⟩
  unfold HbEven at he
  have h0 : countTo (hbWatched s) m = 0 := by
    cases hc : countTo (hbWatched s) m with
    | zero => rfl
    | succ c =>
      obtain ⟨j, hj, hw⟩ := countTo_pos (p := hbWatched s) (n := m) (by omega)
      simp [hbWatched, hd j hj] at hw
  have h1 : countTo (hbWatched s) s.n = 1 := by
    rw [hn, countTo, h0]
    rcases hm with hm | hm <;> simp [hbWatched, hm]
  rw [h1] at he
  obtain ⟨j, hj, hr⟩ := countTo_pos (p := hbRunning s) (n := s.n) (by omega)
  exact ⟨j, hr, fun i hi' => countTo_unique hj hr he i (hb_running_lt hi hi') hi'⟩

/-- **Earlier connections are forgotten.** Once the client has connected again, no earlier connection is called dead and no heartbeat is sent on one, even if the client is still using it. -/
theorem C134_forgotten_refuted {ls ls' : List HbShare.Label} {s t : HbShare.State} (h : Steps HbShare.Step {} ls s) (h' : Steps HbShare.Step s ls' t) {j k : Nat}
    (hl : .notAlive j k ∈ ls' ∨ .beat j k ∈ ls') : s.n ≤ k + 1 := by
  have hi := Steps.invariant (P := HbInv) (fun s l t hp hs => hbInv_step s l t hp hs) h hbInv_init
  clear h
  induction h' with
  | nil => simp at hl
  | @cons s u t l ls hs _ ih =>
    have hiu := hbInv_step s l u hi hs
    have hle : s.n ≤ u.n := by
      obtain ⟨-, hs⟩ := hs
      cases hs <;> first | exact Nat.le_refl _ | exact Nat.le_succ _
    by_cases hm : HbShare.Label.notAlive j k ∈ ls ∨ HbShare.Label.beat j k ∈ ls
    · have := ih hm hiu; omega
    · have : l = .notAlive j k ∨ l = .beat j k := by
        simp only [List.mem_cons] at hl
        rcases hl with (e | e) | (e | e)
        · exact .inl e.symm
        · exact absurd (.inl e) hm
        · exact .inr e.symm
        · exact absurd (.inr e) hm
      obtain ⟨-, hs⟩ := hs
      rcases this with rfl | rfl
      · cases hs with
        | notAlive _ hb => have := (hi.bound k).1 hb; omega
      · cases hs with
        | beat _ hb => have := (hi.bound k).1 hb; omega

/-- **C134 fails: the process ends.** The client connects again from its stop hook (or after `Stop`, which does not wait for the finalizer). Nothing was ever silent, and yet a tick of the first
connection's goroutine before `Start` of the new connection has begun calls that one dead, and `Stop` calls a nil function. -/
theorem C134_crash_refuted : ∃ s, Steps HbShare.Step {} [.bind 0, .begin 0, .watch 0, .up 0, .stop 0, .hook 0, .bind 1, .tick 0, .judge 0, .notAlive 0 1, .crash] s ∧ s.crashed = true :=
  ⟨_, .cons ⟨rfl, .bind⟩ (.cons ⟨rfl, .begin (k := 0) rfl⟩ (.cons ⟨rfl, .watch (k := 0) rfl⟩ (.cons ⟨rfl, .up (k := 0) rfl⟩ (.cons ⟨rfl, .stop (k := 0) (by decide) (by decide)⟩
    (.cons ⟨rfl, .hook (k := 0) rfl rfl⟩ (.cons ⟨rfl, .bind⟩ (.cons ⟨rfl, .tick (j := 0) rfl⟩ (.cons ⟨rfl, .judge (j := 0) (k := 1) rfl rfl⟩ (.cons ⟨rfl, .notAlive (j := 0) (k := 1) rfl rfl⟩
    (.cons ⟨rfl, .crash (j := 0) (k := 1) rfl (.inr rfl)⟩ (.nil _))))))))))), rfl⟩

/-- **C134 fails: the new connection is stopped** although something has just been received on it: `check` has found the old one stopped, and reads the field again after the client has connected
again. -/
theorem C134_wrong_refuted : ∃ s, Steps HbShare.Step {} [.bind 0, .begin 0, .watch 0, .up 0, .stop 0, .tick 0, .judge 0, .hook 0, .bind 1, .begin 1, .watch 1, .up 1, .heard 1, .notAlive 0 1, .stop 1] s ∧
    s.cancelled 1 = true ∧ s.silent 1 = false :=
  ⟨_, .cons ⟨rfl, .bind⟩ (.cons ⟨rfl, .begin (k := 0) rfl⟩ (.cons ⟨rfl, .watch (k := 0) rfl⟩ (.cons ⟨rfl, .up (k := 0) rfl⟩ (.cons ⟨rfl, .stop (k := 0) (by decide) (by decide)⟩
    (.cons ⟨rfl, .tick (j := 0) rfl⟩ (.cons ⟨rfl, .judge (j := 0) (k := 0) rfl rfl⟩ (.cons ⟨rfl, .hook (k := 0) rfl rfl⟩ (.cons ⟨rfl, .bind⟩ (.cons ⟨rfl, .begin (k := 1) rfl⟩
    (.cons ⟨rfl, .watch (k := 1) rfl⟩ (.cons ⟨rfl, .up (k := 1) rfl⟩ (.cons ⟨rfl, .heard (k := 1) (.inl rfl)⟩ (.cons ⟨rfl, .notAlive (j := 0) (k := 1) rfl rfl⟩
    (.cons ⟨rfl, .stopped (j := 0) (k := 1) rfl (by decide) (by decide)⟩ (.nil _))))))))))))))), rfl, rfl⟩

/-- Whose quit message ends whose goroutine is open: here the new connection's goroutine ends, and the old one's goes on for the new connection. This meets the hypotheses of `C134_settled`. -/
example : ∃ s, Steps HbShare.Step {} [.bind 0, .begin 0, .watch 0, .up 0, .stop 0, .hook 0, .bind 1, .begin 1, .watch 1, .up 1, .hookDone 0, .quit 0 1, .tick 0, .judge 0, .beat 0 1] s ∧
    s.n = 1 + 1 ∧ (∀ k, k < 1 → s.conn k = .done) ∧ s.conn 1 = .up :=
  ⟨_, .cons ⟨rfl, .bind⟩ (.cons ⟨rfl, .begin (k := 0) rfl⟩ (.cons ⟨rfl, .watch (k := 0) rfl⟩ (.cons ⟨rfl, .up (k := 0) rfl⟩ (.cons ⟨rfl, .stop (k := 0) (by decide) (by decide)⟩
    (.cons ⟨rfl, .hook (k := 0) rfl rfl⟩ (.cons ⟨rfl, .bind⟩ (.cons ⟨rfl, .begin (k := 1) rfl⟩ (.cons ⟨rfl, .watch (k := 1) rfl⟩ (.cons ⟨rfl, .up (k := 1) rfl⟩
    (.cons ⟨rfl, .hookDone (k := 0) rfl⟩ (.cons ⟨rfl, .quit (k := 0) (j := 1) rfl rfl⟩ (.cons ⟨rfl, .tick (j := 0) rfl⟩ (.cons ⟨rfl, .judge (j := 0) (k := 1) rfl rfl⟩
    (.cons ⟨rfl, .beat (j := 0) (k := 1) rfl rfl⟩ (.nil _))))))))))))))), rfl, fun k hk => by (have : k = 0 := by omega); subst this; rfl, rfl⟩

/-- The hypothesis of `C134_partial` is met: two connections one after the other, the first of which falls silent and is stopped by the checker. -/
example : ∃ t, StepsAll HbShare.Step OneConnAtATime {} [.bind 0, .begin 0, .watch 0, .up 0, .heard 0, .tick 0, .judge 0, .beat 0 0, .fallSilent 0, .tick 0, .judge 0, .notAlive 0 0, .stop 0, .hook 0, .hookDone 0, .quit 0 0,
    .bind 1, .begin 1, .watch 1, .up 1, .tick 1, .judge 1, .beat 1 1] t := by
  refine ⟨_, .cons ?_ ⟨rfl, .bind⟩ (.cons ?_ ⟨rfl, .begin (k := 0) rfl⟩ (.cons ?_ ⟨rfl, .watch (k := 0) rfl⟩ (.cons ?_ ⟨rfl, .up (k := 0) rfl⟩ (.cons ?_ ⟨rfl, .heard (k := 0) (.inl rfl)⟩
    (.cons ?_ ⟨rfl, .tick (j := 0) rfl⟩ (.cons ?_ ⟨rfl, .judge (j := 0) (k := 0) rfl rfl⟩ (.cons ?_ ⟨rfl, .beat (j := 0) (k := 0) rfl rfl⟩ (.cons ?_ ⟨rfl, .fallSilent (k := 0)⟩
    (.cons ?_ ⟨rfl, .tick (j := 0) rfl⟩ (.cons ?_ ⟨rfl, .judge (j := 0) (k := 0) rfl rfl⟩ (.cons ?_ ⟨rfl, .notAlive (j := 0) (k := 0) rfl rfl⟩
    (.cons ?_ ⟨rfl, .stopped (j := 0) (k := 0) rfl (by decide) (by decide)⟩ (.cons ?_ ⟨rfl, .hook (k := 0) rfl rfl⟩ (.cons ?_ ⟨rfl, .hookDone (k := 0) rfl⟩
    (.cons ?_ ⟨rfl, .quit (k := 0) (j := 0) rfl rfl⟩ (.cons ?_ ⟨rfl, .bind⟩ (.cons ?_ ⟨rfl, .begin (k := 1) rfl⟩ (.cons ?_ ⟨rfl, .watch (k := 1) rfl⟩ (.cons ?_ ⟨rfl, .up (k := 1) rfl⟩
    (.cons ?_ ⟨rfl, .tick (j := 1) rfl⟩ (.cons ?_ ⟨rfl, .judge (j := 1) (k := 1) rfl rfl⟩ (.cons ?_ ⟨rfl, .beat (j := 1) (k := 1) rfl rfl⟩ (.nil ?_)))))))))))))))))))))))⟩
  all_goals
    refine ⟨?_, ?_⟩
    · rintro i k ⟨h1, h2⟩ ⟨h3, h4⟩
      simp only [HbShare.upd] at h1 h2 h3 h4
      rcases i with _ | _ | i <;> rcases k with _ | _ | k <;> simp_all
    · intro k hk
      simp only [HbShare.upd] at hk ⊢
      rcases k with _ | _ | k <;> simp_all

/-- The finalizer of a connection begins only after the connection was stopped; until `Start` has called `updateActivity`, the connection counts as dead for want of activity alone. -/
theorem C134_finalizer {ls : List HbShare.Label} {s : HbShare.State} (h : Steps HbShare.Step {} ls s) :
    (∀ k, .hook k ∈ ls → .stop k ∈ ls) ∧ (∀ k, .hook k ∈ ls ↔ s.conn k = .hook ∨ s.conn k = .quit ∨ s.conn k = .done) ∧
    ∀ k, s.conn k = .none ∨ s.conn k = .made ∨ s.conn k = .begun ∨ s.conn k = .watched → s.silent k = true := by
  have inv : HbInv s ∧ (∀ k, s.cancelled k = true → HbShare.Label.stop k ∈ ls) ∧ (∀ k, HbShare.Label.hook k ∈ ls → HbShare.Label.stop k ∈ ls) ∧
      (∀ k, HbShare.Label.hook k ∈ ls ↔ s.conn k = .hook ∨ s.conn k = .quit ∨ s.conn k = .done) ∧
      ∀ k, s.conn k = .none ∨ s.conn k = .made ∨ s.conn k = .begun ∨ s.conn k = .watched → s.silent k = true := by
    refine h.invariant_trace (P := fun ls s => HbInv s ∧ (∀ k, s.cancelled k = true → HbShare.Label.stop k ∈ ls) ∧ (∀ k, HbShare.Label.hook k ∈ ls → HbShare.Label.stop k ∈ ls) ∧
      (∀ k, HbShare.Label.hook k ∈ ls ↔ s.conn k = .hook ∨ s.conn k = .quit ∨ s.conn k = .done) ∧
      ∀ k, s.conn k = .none ∨ s.conn k = .made ∨ s.conn k = .begun ∨ s.conn k = .watched → s.silent k = true) ?_ ⟨hbInv_init, by simp, by simp, by simp, by simp⟩
    intro ls s l t ⟨hi, h1, h2, h3, h4⟩ hs
    refine ⟨hbInv_step _ _ _ hi hs, ?_⟩
    obtain ⟨-, hs⟩ := hs
    cases hs with
    | bind =>
      have hn : s.conn s.n = .none := (hi.made _).2 (Nat.le_refl _)
      simp only [List.mem_append, List.mem_singleton, HbShare.upd]
      grind
    | _ => simp only [List.mem_append, List.mem_singleton, HbShare.upd]; grind
  exact ⟨inv.2.2.1, inv.2.2.2⟩

/-- Something can be received on a connection from the moment its start is done, also while it is being shut down and after that. -/
theorem C134_heard {ls : List HbShare.Label} {s : HbShare.State} (h : Steps HbShare.Step {} ls s) (k : Nat) : (∃ t, HbShare.Step s (.heard k) t) ↔ s.crashed = false ∧ .up k ∈ ls := by
  have inv : HbInv s ∧ ∀ k, HbShare.Label.up k ∈ ls ↔ s.conn k = .up ∨ s.conn k = .hook ∨ s.conn k = .quit ∨ s.conn k = .done := by
    refine h.invariant_trace (P := fun ls s => HbInv s ∧ ∀ k, HbShare.Label.up k ∈ ls ↔ s.conn k = .up ∨ s.conn k = .hook ∨ s.conn k = .quit ∨ s.conn k = .done) ?_ ⟨hbInv_init, by simp⟩
    intro ls s l t ⟨hi, h1⟩ hs
    refine ⟨hbInv_step _ _ _ hi hs, ?_⟩
    obtain ⟨-, hs⟩ := hs
    cases hs with
    | bind =>
      have hn : s.conn s.n = .none := (hi.made _).2 (Nat.le_refl _)
      simp only [List.mem_append, List.mem_singleton, HbShare.upd]
      grind
    | _ => simp only [List.mem_append, List.mem_singleton, HbShare.upd]; grind
  rw [inv.2 k]
  constructor
  · rintro ⟨t, hc, hs⟩
    cases hs with
    | heard hk => exact ⟨hc, hk⟩
  · exact fun ⟨hc, hk⟩ => ⟨_, hc, .heard hk⟩

/-- Connection 0 is in the hook of its end and can still be heard. -/
example : ∃ s t, Steps HbShare.Step {} [.bind 0, .begin 0, .watch 0, .up 0, .stop 0, .hook 0] s ∧ HbShare.Step s (.heard 0) t :=
  ⟨_, _, .cons ⟨rfl, .bind⟩ (.cons ⟨rfl, .begin (k := 0) rfl⟩ (.cons ⟨rfl, .watch (k := 0) rfl⟩ (.cons ⟨rfl, .up (k := 0) rfl⟩ (.cons ⟨rfl, .stop (k := 0) (by decide) (by decide)⟩
    (.cons ⟨rfl, .hook (k := 0) rfl rfl⟩ (.nil _)))))), rfl, .heard (.inr (.inl rfl))⟩

end Zinx.Props
