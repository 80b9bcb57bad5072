import Verif.Lemmas.LoginView

/-! # Messages of a connection are handled in order, each handler starting its operation before the next, for C149 -/

namespace Zinx.Login

open Zinx.AsyncHome (Item HPc SPc upd)
open Zinx.Props (FixedPool HomeInv target_home home_step home_init)

def takesMsg (c : Nat) : Label → Bool
  | .take _ (.msg c' _) => c' = c
  | _ => false

def asks (c : Nat) : Label → Bool
  | .ask _ c' _ => c' = c
  | _ => false

def msgOf (c : Nat) : Item → Option Nat
  | .msg c' id => if c' = c then some id else none
  | .call _ => none

structure MsgInv (c : Nat) (ls : List Label) (s : State) : Prop where
  fresh : s.home.num c = none → s.next c = ls.countP (takesMsg c)
  le : ls.countP (takesMsg c) ≤ s.next c
  queue : ∀ g, s.home.num c = some g → (s.home.queue g).filterMap (msgOf c) = List.range' (ls.countP (takesMsg c)) (s.next c - ls.countP (takesMsg c))
  work : ∀ g id, cur s.home g = some (.msg c id) → id + 1 = ls.countP (takesMsg c) ∧ (s.stage g = .start → ls.countP (asks c) = id) ∧ (s.stage g ≠ .start → ls.countP (asks c) = id + 1)
  idle : (∀ g id, cur s.home g ≠ some (.msg c id)) → ls.countP (asks c) = ls.countP (takesMsg c)

theorem no_msg {cfg : AsyncHome.Cfg} {s : AsyncHome.State} (hh : HomeInv cfg s) {c g : Nat} (hn : s.num c ≠ some g) : (s.queue g).filterMap (msgOf c) = [] := by
  rw [List.filterMap_eq_nil_iff]
  intro it hm
  have := (hh.queued g it hm).1
  cases it with
  | call => rfl
  | msg c' id =>
    refine if_neg fun e => ?_
    subst e
    exact hn this

/-- Two workers are not busy with the same connection. -/
theorem cur_one {cfg : AsyncHome.Cfg} {s : AsyncHome.State} (hh : HomeInv cfg s) {g g' : Nat} {it it' : Item} (h : cur s g = some it) (h' : cur s g' = some it') (ho : it.owner cfg = it'.owner cfg) : g = g' := by
  obtain ⟨pc, h⟩ := cur_some.mp h
  obtain ⟨pc', h'⟩ := cur_some.mp h'
  have a := (hh.busy g it pc h).1
  have b := (hh.busy g' it' pc' h').1
  rw [← ho, a] at b
  exact Option.some.inj b

theorem MsgInv.same {c : Nat} {ls : List Label} {s t : State} {l : Label} (hi : MsgInv c ls s) (h1 : takesMsg c l = false) (h2 : asks c l = false) (h3 : t.home.num c = s.home.num c) (h4 : t.next c = s.next c)
    (h5 : ∀ g, (t.home.queue g).filterMap (msgOf c) = (s.home.queue g).filterMap (msgOf c)) (h6 : ∀ g id, cur t.home g = some (.msg c id) ↔ cur s.home g = some (.msg c id))
    (h7 : ∀ g id, cur s.home g = some (.msg c id) → (t.stage g = .start ↔ s.stage g = .start)) : MsgInv c (ls ++ [l]) t := by
  have e1 : (ls ++ [l]).countP (takesMsg c) = ls.countP (takesMsg c) := by simp [List.countP_append, h1]
  have e2 : (ls ++ [l]).countP (asks c) = ls.countP (asks c) := by simp [List.countP_append, h2]
  constructor <;> rw [e1]
  · rw [h3, h4]; exact hi.fresh
  · rw [h4]; exact hi.le
  · intro g hg; rw [h3] at hg; rw [h4, h5]; exact hi.queue g hg
  · intro g id hw
    have hw' := (h6 g id).mp hw
    rw [e2, ne_eq, h7 g id hw']
    exact hi.work g id hw'
  · intro h
    rw [e2]
    exact hi.idle fun g id hw => h g id ((h6 g id).mpr hw)

theorem msg_quiet {cfg : Cfg} {c : Nat} {ls : List Label} {s : State} {h : AsyncHome.State} {l : AsyncHome.Label} (hh : HomeInv cfg.home s.home) (hi : MsgInv c ls s) (hq : isQuiet l = true)
    (hv : View cfg.home s.home l h) : MsgInv c (ls ++ [.quiet l]) { s with home := h } := by
  cases l with
  | connect c' w =>
    obtain ⟨v1, v2, v3, v4⟩ := hv
    by_cases e : c' = c
    · subst e
      have e1 : (ls ++ [Label.quiet (.connect c' w)]).countP (takesMsg c') = ls.countP (takesMsg c') := by simp [List.countP_append, takesMsg]
      have e2 : (ls ++ [Label.quiet (.connect c' w)]).countP (asks c') = ls.countP (asks c') := by simp [List.countP_append, asks]
      have z := hi.fresh v1
      constructor <;> rw [e1] <;> dsimp only
      · intro hn; rw [v2] at hn; simp [upd] at hn
      · exact hi.le
      · intro g hg
        rw [v3, no_msg hh (by rw [v1]; nofun), z]
        simp
      · rw [v4, e2]; exact hi.work
      · rw [v4, e2]; exact hi.idle
    · exact hi.same rfl rfl (by dsimp only; rw [v2]; unfold upd; rw [if_neg (fun h => e h.symm)]) rfl (fun g => by dsimp only; rw [v3]) (fun g id => by dsimp only; rw [v4]) (fun _ _ _ => Iff.rfl)
  | goOn => exact hi.same rfl rfl (by dsimp only; rw [hv.1]) rfl (fun g => by dsimp only; rw [hv.2.1]) (fun g id => by dsimp only; rw [hv.2.2]) (fun _ _ _ => Iff.rfl)
  | push g' k h' =>
    obtain ⟨v1, v2, v3, v4⟩ := hv
    refine hi.same rfl rfl (by dsimp only; rw [v2]) rfl (fun g => ?_) (fun g id => by dsimp only; rw [v4]) (fun _ _ _ => Iff.rfl)
    dsimp only
    rw [v3]
    unfold upd
    split
    · rename_i e; rw [List.filterMap_append, e]; simp [msgOf]
    · rfl
  | _ => first | exact hv.elim | cases hq

theorem msg_arrive {cfg : Cfg} {c c' o : Nat} {ls : List Label} {s t : State} (hi : MsgInv c ls s) (hv : View cfg.home s.home (.arrive c' (s.next c')) t.home) (hn : t.next = upd s.next c' (s.next c' + 1))
    (hst : t.stage = s.stage) : MsgInv c (ls ++ [.arrive c' (s.next c') o]) t := by
  obtain ⟨g', v1, v2, v3, v4⟩ := hv
  by_cases e : c' = c
  · subst e
    have e1 : (ls ++ [Label.arrive c' (s.next c') o]).countP (takesMsg c') = ls.countP (takesMsg c') := by simp [List.countP_append, takesMsg]
    have e2 : (ls ++ [Label.arrive c' (s.next c') o]).countP (asks c') = ls.countP (asks c') := by simp [List.countP_append, asks]
    have e3 : t.next c' = s.next c' + 1 := by rw [hn]; simp [upd]
    have hle := hi.le
    constructor <;> rw [e1]
    · intro h; rw [v2, v1] at h; cases h
    · omega
    · intro g hg
      rw [v2, v1] at hg
      cases hg
      rw [v3, e3]
      have : s.next c' + 1 - ls.countP (takesMsg c') = (s.next c' - ls.countP (takesMsg c')) + 1 := by omega
      rw [this, List.range'_concat, ← hi.queue g' v1]
      simp only [upd, if_pos, List.filterMap_append]
      simp [msgOf]
      omega
    · rw [v4, e2, hst]; exact hi.work
    · rw [v4, e2]; exact hi.idle
  · refine hi.same rfl rfl (by rw [v2]) (by rw [hn]; unfold upd; rw [if_neg (fun h => e h.symm)]) (fun g => ?_) (fun g id => by rw [v4]) (fun _ _ _ => by rw [hst])
    rw [v3]
    unfold upd
    split
    · rename_i e1; rw [List.filterMap_append, e1]; simp [msgOf, e]
    · rfl

theorem msg_take {cfg : Cfg} {c g' : Nat} {it : Item} {ls : List Label} {s t : State} (hh : HomeInv cfg.home s.home) (hi : MsgInv c ls s) (hv : View cfg.home s.home (.take g' it) t.home) (hn : t.next = s.next)
    (hst : t.stage = upd s.stage g' .start) : MsgInv c (ls ++ [.take g' it]) t := by
  obtain ⟨rest, v1, v2, v3, v4, v5⟩ := hv
  have ho := (hh.queued g' it (by rw [v1]; simp)).1
  by_cases e : ∃ id, it = .msg c id
  · obtain ⟨id, rfl⟩ := e
    have hnum : s.home.num c = some g' := ho
    have hle := hi.le
    have hq := hi.queue g' hnum
    have hone : ∀ g id', cur s.home g ≠ some (.msg c id') := by
      intro g id' hw
      obtain ⟨pc, hb⟩ := cur_some.mp hw
      have hg := (hh.busy g _ pc hb).1
      have hg : s.home.num c = some g := hg
      rw [hnum] at hg
      cases hg
      rw [v4] at hw
      cases hw
    have ha := hi.idle hone
    rw [v1, List.filterMap_cons] at hq
    simp only [msgOf, if_pos] at hq
    generalize hm : ls.countP (takesMsg c) = m at *
    obtain ⟨j, hj⟩ : ∃ j, s.next c - m = j + 1 := by
      cases hz : s.next c - m with
      | zero => rw [hz] at hq; cases hq
      | succ j => exact ⟨j, rfl⟩
    rw [hj, List.range'_succ] at hq
    obtain ⟨hid, hrest⟩ := List.cons.inj hq
    subst hid
    have e1 : (ls ++ [Label.take g' (.msg c id)]).countP (takesMsg c) = id + 1 := by simp [List.countP_append, takesMsg, hm]
    have e2 : (ls ++ [Label.take g' (.msg c id)]).countP (asks c) = id := by simp [List.countP_append, asks, ha]
    constructor <;> rw [e1] <;> (try rw [e2])
    · intro h; rw [v2, hnum] at h; cases h
    · rw [hn]; omega
    · intro g hg
      rw [v2, hnum] at hg
      cases hg
      rw [v3, hn]
      have : s.next c - (id + 1) = j := by omega
      rw [this]
      simp only [upd, if_pos]
      exact hrest
    · intro g id' hw
      rw [v5] at hw
      rw [hst]
      unfold upd at hw ⊢
      split at hw
      · cases hw
        rename_i eg
        rw [if_pos eg]
        exact ⟨rfl, fun _ => rfl, fun h => absurd rfl h⟩
      · exact absurd hw (hone g id')
    · intro h
      exact absurd (by rw [v5]; unfold upd; rw [if_pos rfl]) (h g' id)
  · have hno : ∀ id, it ≠ .msg c id := fun id he => e ⟨id, he⟩
    have h0 : msgOf c it = none := by
      cases it with
      | call => rfl
      | msg c' id => exact if_neg fun he => hno id (by rw [he])
    refine hi.same ?_ rfl (by rw [v2]) (by rw [hn]) (fun g => ?_) (fun g id => ?_) (fun g id hw => ?_)
    · cases it with
      | call => rfl
      | msg c' id =>
        have : c' ≠ c := fun he => hno id (by rw [he])
        simp [takesMsg, this]
    · rw [v3]
      unfold upd
      split
      · rename_i e1; rw [e1, v1, List.filterMap_cons, h0]
      · rfl
    · rw [v5]
      unfold upd
      split
      · rename_i e1
        rw [e1, v4]
        constructor
        · intro h; exact absurd (Option.some.inj h) (hno id)
        · nofun
      · rfl
    · rw [hst]
      unfold upd
      split
      · rename_i e1; rw [e1, v4] at hw; cases hw
      · rfl

theorem msg_inv {cfg : Cfg} (hd : FixedPool cfg.home) {ls : List Label} {s : State} (h : Steps (Step cfg) (init cfg) ls s) (c : Nat) : MsgInv c ls s := by
  refine (h.invariant_trace (P := fun ls s => Steps (Step cfg) (init cfg) ls s ∧ MsgInv c ls s) ?_ ⟨.nil _, ?_⟩).2
  · rintro ls s l t ⟨hr, hi⟩ hs
    refine ⟨hr.snoc hs, ?_⟩
    have hh := home_inv hd hr
    cases hs with
    | quiet hq h => exact msg_quiet hh hi hq (view_step hd h hh)
    | arriveOld c' o l1 l2 _ _ h => exact msg_arrive (cfg := cfg) hi (view_step hd h hh) rfl rfl
    | arriveNew c' h => exact msg_arrive (cfg := cfg) hi (view_step hd h hh) rfl rfl
    | take g it h => exact msg_take hh hi (view_step hd h hh) rfl rfl
    | ask g c' id hw h0 h =>
      obtain ⟨v1, v2, v3⟩ := view_step hd h hh
      have hc : cur s.home g = some (.msg c' id) := cur_some.mpr ⟨_, hw⟩
      by_cases e : c' = c
      · subst e
        have e1 : (ls ++ [Label.ask g c' id]).countP (takesMsg c') = ls.countP (takesMsg c') := by simp [List.countP_append, takesMsg]
        have e2 : (ls ++ [Label.ask g c' id]).countP (asks c') = ls.countP (asks c') + 1 := by simp [List.countP_append, asks]
        have z := hi.work g id hc
        have z1 := z.2.1 h0
        constructor <;> rw [e1] <;> (try rw [e2]) <;> dsimp only
        · rw [v1]; exact hi.fresh
        · exact hi.le
        · rw [v1, v2]; exact hi.queue
        · rw [v3]
          intro g' id' hw'
          have hg := cur_one hh hw' hc rfl
          subst hg
          rw [hc] at hw'
          cases hw'
          refine ⟨z.1, fun h => ?_, fun _ => by omega⟩
          simp [upd] at h
        · rw [v3]
          intro h
          exact absurd hc (h g id)
      · refine hi.same rfl (by simp [asks, e]) (by dsimp only; rw [v1]) rfl (fun g => by dsimp only; rw [v2]) (fun g id => by dsimp only; rw [v3]) (fun g' id' hw' => ?_)
        dsimp only
        unfold upd
        split
        · rename_i e1
          rw [e1, hc] at hw'
          cases hw'
          exact absurd rfl e
        · rfl
    | register g c' id hw h0 h =>
      obtain ⟨v1, v2, v3⟩ := view_step hd h hh
      refine hi.same rfl rfl (by dsimp only; rw [v1]) rfl (fun g => by dsimp only; rw [v2]) (fun g id => by dsimp only; rw [v3]) (fun g' id' hw' => ?_)
      dsimp only
      unfold upd
      split
      · rename_i e1
        rw [e1, h0]
        exact ⟨nofun, nofun⟩
      · rfl
    | finishMsg g c' id h0 h =>
      obtain ⟨v0, v1, v2, v3⟩ := view_step hd h hh
      have hc : cur s.home g = some (.msg c' id) := cur_some.mpr ⟨_, v0⟩
      by_cases e : c' = c
      · subst e
        have e1 : (ls ++ [Label.finish g (.msg c' id)]).countP (takesMsg c') = ls.countP (takesMsg c') := by simp [List.countP_append, takesMsg]
        have e2 : (ls ++ [Label.finish g (.msg c' id)]).countP (asks c') = ls.countP (asks c') := by simp [List.countP_append, asks]
        have z := hi.work g id hc
        have z1 := z.2.2 (by rw [h0]; nofun)
        constructor <;> rw [e1] <;> (try rw [e2]) <;> dsimp only
        · rw [v1]; exact hi.fresh
        · exact hi.le
        · rw [v1, v2]; exact hi.queue
        · rw [v3]
          intro g' id' hw'
          unfold upd at hw'
          split at hw'
          · cases hw'
          · rename_i hne
            exact absurd (cur_one hh hw' hc rfl) hne
        · intro _; omega
      · refine hi.same rfl rfl (by dsimp only; rw [v1]) rfl (fun g => by dsimp only; rw [v2]) (fun g' id' => ?_) (fun _ _ _ => Iff.rfl)
        dsimp only
        rw [v3]
        unfold upd
        split
        · rename_i e1
          rw [e1, hc]
          constructor
          · nofun
          · intro h; cases h; exact absurd rfl e
        · rfl
    | finishCall g k h0 h =>
      obtain ⟨v0, v1, v2, v3⟩ := view_step hd h hh
      have hc : cur s.home g = some (.call k) := cur_some.mpr ⟨_, v0⟩
      refine hi.same rfl rfl (by dsimp only; rw [v1]) rfl (fun g => by dsimp only; rw [v2]) (fun g' id' => ?_) (fun _ _ _ => Iff.rfl)
      dsimp only
      rw [v3]
      unfold upd
      split
      · rename_i e1
        rw [e1, hc]
        exact ⟨nofun, nofun⟩
      · rfl
    | reply g c' id hw h0 h1 =>
      have hc : cur s.home g = some (.call (cfg.key c' id)) := cur_some.mpr ⟨_, hw⟩
      refine hi.same rfl rfl rfl rfl (fun _ => rfl) (fun _ _ => Iff.rfl) (fun g' id' hw' => ?_)
      dsimp only
      unfold upd
      split
      · rename_i e1; rw [e1, hc] at hw'; cases hw'
      · rfl
    | silent g c' id hw h0 h1 =>
      have hc : cur s.home g = some (.call (cfg.key c' id)) := cur_some.mpr ⟨_, hw⟩
      refine hi.same rfl rfl rfl rfl (fun _ => rfl) (fun _ _ => Iff.rfl) (fun g' id' hw' => ?_)
      dsimp only
      unfold upd
      split
      · rename_i e1; rw [e1, hc] at hw'; cases hw'
      · rfl
    | op c' id rest _ h =>
      obtain ⟨v1, v2, v3⟩ := view_step hd h hh
      exact hi.same rfl rfl (by dsimp only; rw [v1]) rfl (fun g => by dsimp only; rw [v2]) (fun g id => by dsimp only; rw [v3]) (fun _ _ _ => Iff.rfl)
    | opPush c' id g' rest _ h =>
      obtain ⟨v0, v1, v2, v3⟩ := view_step hd h hh
      refine hi.same rfl rfl (by dsimp only; rw [v1]) rfl (fun g => ?_) (fun g id => by dsimp only; rw [v3]) (fun _ _ _ => Iff.rfl)
      dsimp only
      rw [v2]
      unfold upd
      split
      · rename_i e; rw [List.filterMap_append, e]; simp [msgOf]
      · rfl
  · have hcur : ∀ g, cur (init cfg).home g = none := by
      intro g
      simp only [init, AsyncHome.init, cur]
      split <;> rfl
    constructor
    · intro _; rfl
    · exact Nat.le_refl _
    · intro g hg; cases hg
    · intro g id hw; rw [hcur] at hw; cases hw
    · intro _; rfl

end Zinx.Login
