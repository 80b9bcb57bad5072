import Verif.Lemmas.HeartbeatConf

/-! # C44: heartbeat configuration -/

namespace Zinx.Props

open Zinx.HeartbeatConf

variable {H : Type}

/-- The checker an operation changes; creating and cloning change none. -/
def hbTarget : Op H → Option Nat
  | .new _ => none
  | .clone _ => none
  | .setOnRemoteNotAlive i _ => some i
  | .setHeartbeatMsgFunc i _ => some i
  | .setHeartbeatFunc i _ => some i
  | .bindRouter i _ _ => some i
  | .bindRouterSlices i _ _ => some i
  | .bindConn i _ => some i

/-- A new checker has the defaults, its own channel and no connection. -/
theorem C44_new (d : Defaults H) (spare : Nat → Nat) (ops : List (Op H)) (interval : Int) :
    let st := State.empty.run d spare ops
    let st' := st.step d spare (.new interval)
    st'.view st.checkers.length = some ⟨interval, some d.makeMsg, some d.notAlive, 99999, some d.router, [some d.handle], none, none⟩ ∧
      ∀ i, i < st.checkers.length → st'.quit st.checkers.length ≠ st'.quit i := by
  dsimp only
  have hi := inv_run d spare ops (inv_empty (H := H))
  generalize State.empty.run d spare ops = st at hi
  refine ⟨?_, ?_⟩
  · show Option.map _ ((st.checkers ++ [_])[st.checkers.length]?) = _
    rw [List.getElem?_append_right (Nat.le_refl _), Nat.sub_self]
    show some _ = some _
    congr 1
    dsimp only
    have : Router.read (State.step d spare st (Op.new interval)).heap ⟨st.heap.length, 1⟩ = [some d.handle] := ?_
    rw [this]; rfl
    show Router.read (st.heap ++ [[some d.handle] ++ []]) ⟨st.heap.length, 1⟩ = _
    exact read_last rfl
  · intro i hl he
    have hj := inv_step hi d spare (.new interval)
    have h1 : ∃ c, (st.step d spare (.new interval)).checkers[i]? = some c :=
      ⟨_, List.getElem?_eq_getElem (show i < (st.checkers ++ [_]).length by rw [List.length_append]; exact Nat.lt_of_lt_of_le hl (Nat.le_add_right _ _))⟩
    have h2 : ∃ c, (st.step d spare (.new interval)).checkers[st.checkers.length]? = some c :=
      ⟨_, List.getElem?_eq_getElem (show st.checkers.length < (st.checkers ++ [_]).length by rw [List.length_append]; exact Nat.lt_succ_self _)⟩
    obtain ⟨c1, h1⟩ := h1
    obtain ⟨c2, h2⟩ := h2
    unfold State.quit at he
    rw [h1, h2] at he
    exact hj.chans _ _ c2 c1 h2 h1 (by omega) (Option.some.inj he)

/-- Calls with nil functions, nil routers, no handlers, or the default message ID change nothing. -/
theorem C44_nil (d : Defaults H) (spare : Nat → Nat) (st : State H) (i : Nat) (m : UInt32) (r : Option H) (hs : List (Option H)) :
    st.step d spare (.setOnRemoteNotAlive i none) = st ∧ st.step d spare (.setHeartbeatMsgFunc i none) = st ∧
      st.step d spare (.setHeartbeatFunc i none) = st ∧ st.step d spare (.bindRouter i m none) = st ∧
      st.step d spare (.bindRouter i 99999 r) = st ∧ st.step d spare (.bindRouterSlices i m []) = st ∧
      st.step d spare (.bindRouterSlices i 99999 hs) = st := by
  refine ⟨rfl, rfl, rfl, ?_, ?_, ?_, ?_⟩
  · unfold State.step; dsimp only
    exact if_neg fun h => Bool.noConfusion h.1
  · exact if_neg fun h => h.2 rfl
  · unfold State.step State.bindRouterSlices; dsimp only
    split
    · rfl
    · exact if_neg nofun
  · unfold State.step State.bindRouterSlices; dsimp only
    split
    · rfl
    · exact if_neg fun h => h.2 rfl

theorem view_modify (st : State H) (i : Nat) (f : Checker H → Checker H) (c : Checker H) (hc : st.checkers[i]? = some c) :
    (st.modify i f).view i = some ⟨(f c).interval, (f c).makeMsg, (f c).onRemoteNotAlive, (f c).msgID, (f c).router,
      Router.read st.heap (f c).routerSlices, (f c).conn, (f c).beatFunc⟩ := by
  unfold State.view State.modify
  dsimp only
  rw [getElem?_modify_same hc]
  rfl

/-- Effective calls set exactly what they name, and keep every other setting of the checker. Handlers are added to those present. -/
theorem C44_set (d : Defaults H) (spare : Nat → Nat) (ops : List (Op H)) (i : Nat) (v : View H) (f : H) (m : UInt32) (hm : m ≠ 99999)
    (hs : List (Option H)) (hne : hs ≠ []) :
    let st := State.empty.run d spare ops
    st.view i = some v →
      (st.step d spare (.setOnRemoteNotAlive i (some f))).view i = some { v with onRemoteNotAlive := some f } ∧
      (st.step d spare (.setHeartbeatMsgFunc i (some f))).view i = some { v with makeMsg := some f } ∧
      (st.step d spare (.setHeartbeatFunc i (some f))).view i = some { v with beatFunc := some f } ∧
      (st.step d spare (.bindRouter i m (some f))).view i = some { v with msgID := m, router := some f } ∧
      (st.step d spare (.bindRouterSlices i m hs)).view i = some { v with msgID := m, handlers := v.handlers ++ hs } ∧
      (st.step d spare (.bindConn i f)).view i = some { v with conn := some f } := by
  dsimp only
  have hi := inv_run d spare ops (inv_empty (H := H))
  generalize State.empty.run d spare ops = st at hi
  intro hv
  cases hc : st.checkers[i]? with
  | none => unfold State.view at hv; rw [hc] at hv; cases hv
  | some c =>
    have hv' : v = ⟨c.interval, c.makeMsg, c.onRemoteNotAlive, c.msgID, c.router, Router.read st.heap c.routerSlices, c.conn, c.beatFunc⟩ := by
      unfold State.view at hv; rw [hc] at hv; exact (Option.some.inj hv).symm
    subst hv'
    refine ⟨view_modify st i _ c hc, view_modify st i _ c hc, view_modify st i _ c hc, ?_, ?_, view_modify st i _ c hc⟩
    · have : st.step d spare (.bindRouter i m (some f)) = st.modify i fun c => { c with msgID := m, router := some f } := if_pos ⟨rfl, hm⟩
      rw [this]
      exact view_modify st i _ c hc
    · obtain ⟨_, h2, _⟩ := inv_bindSlices hi spare hc m hs
      have hl : hs.length > 0 := by
        cases hs with
        | nil => exact absurd rfl hne
        | cons _ _ => exact Nat.succ_pos _
      have : st.step d spare (.bindRouterSlices i m hs) =
          { st with heap := (Router.append spare st.heap c.routerSlices hs).1,
                    checkers := st.checkers.modify i fun x => { x with msgID := m, routerSlices := (Router.append spare st.heap c.routerSlices hs).2 } } := by
        unfold State.step State.bindRouterSlices
        dsimp only
        rw [hc]
        exact if_pos ⟨hl, hm⟩
      rw [this]
      unfold State.view
      dsimp only
      rw [getElem?_modify_same hc]
      show some _ = some _
      dsimp only
      rw [h2]

/-- Operations on other checkers, and creating and cloning, leave a checker's settings and its channel as they are. -/
theorem C44_independent (d : Defaults H) (spare : Nat → Nat) (ops later : List (Op H)) (j : Nat)
    (hj : j < (State.empty.run d spare ops).checkers.length) (hl : ∀ o ∈ later, hbTarget o ≠ some j) :
    (State.empty.run d spare (ops ++ later)).view j = (State.empty.run d spare ops).view j ∧
      (State.empty.run d spare (ops ++ later)).quit j = (State.empty.run d spare ops).quit j := by
  have hi := inv_run d spare ops (inv_empty (H := H))
  have hrun : State.empty.run d spare (ops ++ later) = (State.empty.run d spare ops).run d spare later := by
    unfold State.run; rw [List.foldl_append]
  rw [hrun]
  clear hrun
  generalize State.empty.run d spare ops = st at hi hj
  induction later generalizing st with
  | nil => exact ⟨rfl, rfl⟩
  | cons o os ih =>
    have hmod : ∀ (i : Nat) (f : Checker H → Checker H), i ≠ j →
        (st.modify i f).view j = st.view j ∧ (st.modify i f).quit j = st.quit j ∧ j < (st.modify i f).checkers.length := by
      intro i f hne
      have e : (st.checkers.modify i f)[j]? = st.checkers[j]? := getElem?_modify_ne _ _ hne
      refine ⟨?_, ?_, ?_⟩
      · unfold State.view State.modify; dsimp only; rw [e]
      · unfold State.quit State.modify; dsimp only; rw [e]
      · unfold State.modify; dsimp only; rw [List.length_modify]; exact hj
    have hpush : ∀ (x : List (Option H)) (c : Checker H),
        (State.mk (st.heap ++ [x]) (st.chans + 1) (st.checkers ++ [c])).view j = st.view j ∧
          (State.mk (st.heap ++ [x]) (st.chans + 1) (st.checkers ++ [c])).quit j = st.quit j ∧ j < (st.checkers ++ [c]).length := by
      intro x c
      have e : (st.checkers ++ [c])[j]? = st.checkers[j]? := List.getElem?_append_left hj
      refine ⟨?_, ?_, by rw [List.length_append]; omega⟩
      · unfold State.view
        dsimp only
        rw [e]
        cases hx : st.checkers[j]? with
        | none => rfl
        | some y =>
          show some _ = some _
          dsimp only
          rw [Router.read_congr (heap_new_same st x _ (hi.wf j y hx).1.1)]
      · unfold State.quit; dsimp only; rw [e]
    have hstep : (st.step d spare o).view j = st.view j ∧ (st.step d spare o).quit j = st.quit j ∧ j < (st.step d spare o).checkers.length := by
      have ho := hl o List.mem_cons_self
      cases o with
      | new n => exact hpush _ _
      | setOnRemoteNotAlive i f =>
        unfold State.step; dsimp only; split; exact hmod i _ (fun e => ho (e ▸ rfl)); exact ⟨rfl, rfl, hj⟩
      | setHeartbeatMsgFunc i f =>
        unfold State.step; dsimp only; split; exact hmod i _ (fun e => ho (e ▸ rfl)); exact ⟨rfl, rfl, hj⟩
      | setHeartbeatFunc i f =>
        unfold State.step; dsimp only; split; exact hmod i _ (fun e => ho (e ▸ rfl)); exact ⟨rfl, rfl, hj⟩
      | bindRouter i m r =>
        unfold State.step; dsimp only; split; exact hmod i _ (fun e => ho (e ▸ rfl)); exact ⟨rfl, rfl, hj⟩
      | bindConn i c => exact hmod i _ (fun e => ho (e ▸ rfl))
      | clone i =>
        cases hc : st.checkers[i]? with
        | none =>
          have : st.step d spare (.clone i) = st := by unfold State.step State.clone; dsimp only; rw [hc]
          rw [this]; exact ⟨rfl, rfl, hj⟩
        | some c =>
          have : st.step d spare (.clone i) = _ := clone_eq hi spare hc
          rw [this]; exact hpush _ _
      | bindRouterSlices i m hs =>
        have hne : i ≠ j := fun e => ho (e ▸ rfl)
        unfold State.step State.bindRouterSlices
        dsimp only
        cases hc : st.checkers[i]? with
        | none => exact ⟨rfl, rfl, hj⟩
        | some c =>
          dsimp only
          split
          · obtain ⟨_, _, h3⟩ := inv_bindSlices hi spare hc m hs
            obtain ⟨_, m2, m3⟩ := hmod i (fun x => { x with msgID := m, routerSlices := (Router.append spare st.heap c.routerSlices hs).2 }) hne
            refine ⟨?_, m2, m3⟩
            have e : (st.checkers.modify i fun x => { x with msgID := m, routerSlices := (Router.append spare st.heap c.routerSlices hs).2 })[j]? =
                st.checkers[j]? := getElem?_modify_ne _ _ hne
            unfold State.view
            dsimp only
            rw [e]
            cases hx : st.checkers[j]? with
            | none => rfl
            | some y =>
              show some _ = some _
              dsimp only
              rw [h3 j y hx (Ne.symm hne)]
          · exact ⟨rfl, rfl, hj⟩
    obtain ⟨s1, s2, s3⟩ := hstep
    have hi' := inv_step hi d spare o
    obtain ⟨r1, r2⟩ := ih (fun o' ho' => hl o' (List.mem_cons_of_mem _ ho')) (st.step d spare o) hi' s3
    exact ⟨r1.trans s1, r2.trans s2⟩

/-- A clone has the settings of the original, no connection, and a quit channel that no other checker has. -/
theorem C44_clone (d : Defaults H) (spare : Nat → Nat) (ops : List (Op H)) (i : Nat) (v : View H) :
    let st := State.empty.run d spare ops
    let st' := st.step d spare (.clone i)
    st.view i = some v →
      st'.view st.checkers.length = some { v with conn := none } ∧ (∃ q, st'.quit st.checkers.length = some q) ∧
      ∀ j, j < st.checkers.length → st'.quit st.checkers.length ≠ st'.quit j := by
  dsimp only
  have hi := inv_run d spare ops (inv_empty (H := H))
  generalize State.empty.run d spare ops = st at hi
  intro hv
  cases hc : st.checkers[i]? with
  | none => unfold State.view at hv; rw [hc] at hv; cases hv
  | some c =>
    have hv' : v = ⟨c.interval, c.makeMsg, c.onRemoteNotAlive, c.msgID, c.router, Router.read st.heap c.routerSlices, c.conn, c.beatFunc⟩ := by
      unfold State.view at hv; rw [hc] at hv; exact (Option.some.inj hv).symm
    subst hv'
    have hst : st.step d spare (.clone i) = _ := clone_eq hi spare hc
    have hj := inv_clone hi spare i
    have hj' : HeartbeatConf.Inv (st.step d spare (.clone i)) := hj
    rw [hst] at hj' ⊢
    have hlast : ∀ x : Checker H, (st.checkers ++ [x])[st.checkers.length]? = some x := by
      intro x; rw [List.getElem?_append_right (Nat.le_refl _), Nat.sub_self]; rfl
    have hlen : (Router.read st.heap c.routerSlices).length = c.routerSlices.len := by
      have w := (hi.wf i c hc).1
      unfold Router.read; rw [List.length_take]; have := w.2; omega
    refine ⟨?_, ?_, ?_⟩
    · unfold State.view
      dsimp only
      rw [hlast]
      show some _ = some _
      dsimp only
      rw [read_last hlen]
    · unfold State.quit
      dsimp only
      rw [hlast]
      exact ⟨_, rfl⟩
    · intro j hjl he
      unfold State.quit at he
      dsimp only at he
      rw [hlast] at he
      have hg : ∃ e, st.checkers[j]? = some e := ⟨_, List.getElem?_eq_getElem hjl⟩
      obtain ⟨e, hg⟩ := hg
      rw [List.getElem?_append_left hjl, hg] at he
      have h1 := hi.chan j e hg
      have h2 : st.chans = e.quitChan := Option.some.inj he
      omega

/-- A concrete history: the original gets another handler after it was cloned, which the clone does not see (with spare capacity in both arrays), and the other
way round. -/
example : let st := (State.empty (H := Nat)).run ⟨1, 2, 3, 4⟩ (fun _ => 5) [.new 10, .bindRouterSlices 0 7 [some 40], .bindConn 0 50, .clone 0,
      .bindRouterSlices 0 8 [some 41], .bindRouterSlices 1 9 [some 42], .bindRouter 1 99999 (some 6)]
    st.view 0 = some ⟨10, some 1, some 2, 8, some 3, [some 4, some 40, some 41], some 50, none⟩ ∧
    st.view 1 = some ⟨10, some 1, some 2, 9, some 3, [some 4, some 40, some 42], none, none⟩ := by decide

example : let st := (State.empty (H := Nat)).run ⟨1, 2, 3, 4⟩ (fun _ => 5) [.new 10, .clone 0]
    1 < st.checkers.length ∧ ∀ o ∈ [Op.bindRouterSlices (H := Nat) 0 7 [some 40]], hbTarget o ≠ some 1 := by decide

end Zinx.Props
