import Verif.Lemmas.LoginPush

/-! # C149: replies from completion callbacks come in the order of the requests -/

namespace Zinx.Props

open Zinx.AsyncHome (upd)
open Zinx.Login (Keyed answered)

/-- **C149 (order).** Without dynamic binding, with or without pooled requests: the messages of a connection are answered (or left without an answer for want of a result) in the order in which they arrived, without
gaps, however the handlers, the operations and the callbacks of this and other connections are scheduled and whichever side calls a callback. -/
theorem C149_order (cfg : Login.Cfg) (hk : Keyed cfg) (hd : FixedPool cfg.home) (ls : List Login.Label) (s : Login.State) (h : Steps (Login.Step cfg) (Login.init cfg) ls s) (c : Nat) :
    ∃ n, ls.filterMap (answered c) = List.range n :=
  ⟨_, Login.answers_range hk hd h c⟩

/-- The message that a reply sent on connection `d` is for. -/
def sentOn (d : Nat) : Login.Label → Option Nat
  | .reply _ _ id d' => if d' = d then some id else none
  | _ => none

/-- **C149 (order of what a connection gets).** Without dynamic binding and without pooled requests: the replies sent on a connection are for ever later messages of that connection. -/
theorem C149_sent_partial (cfg : Login.Cfg) (hk : Keyed cfg) (hd : FixedPool cfg.home) (hp : cfg.poolMode = false) (ls : List Login.Label) (s : Login.State)
    (h : Steps (Login.Step cfg) (Login.init cfg) ls s) (d : Nat) : (ls.filterMap (sentOn d)).Pairwise (· < ·) := by
  have hsub : (ls.filterMap (sentOn d)).Sublist (ls.filterMap (answered d)) := by
    refine (h.invariant_trace (P := fun ls s => Steps (Login.Step cfg) (Login.init cfg) ls s ∧ (ls.filterMap (sentOn d)).Sublist (ls.filterMap (answered d))) ?_ ⟨.nil _, List.Sublist.refl _⟩).2
    rintro ls s l t ⟨hr, hi⟩ hs
    refine ⟨hr.snoc hs, ?_⟩
    rw [List.filterMap_append, List.filterMap_append]
    refine hi.append ?_
    cases l with
    | reply g c id d' =>
      have := C149_own_partial cfg hk hp ls s t hr g c id d' hs
      subst this
      exact List.Sublist.refl _
    | _ => exact List.nil_sublist _
  obtain ⟨n, hn⟩ := C149_order cfg hk hd ls s h d
  rw [hn] at hsub
  exact List.pairwise_lt_range.sublist hsub

theorem login_fixed (b : Bool) : FixedPool (loginCfg b).home := ⟨by simp [loginCfg], by simp [loginCfg], rfl⟩

set_option maxHeartbeats 4000000 in
/-- Two logins of one connection are asked for before either is answered; both are answered, and nothing is left to do. -/
theorem two_logins_run {cfg : Login.Cfg} (hk : Keyed cfg) (hd : FixedPool cfg.home) (hcap : 2 ≤ max cfg.home.cap 1) :
    ∃ ls s, Steps (Login.Step cfg) (Login.init cfg) ls s ∧ ls.filterMap (answered 0) = [0, 1] ∧ ls.filterMap (sentOn 0) = [0, 1] ∧ ls.length = 33 ∧ ls[1]? = some (.arrive 0 0 0) ∧
      (∀ g, Login.cur s.home g = none) ∧ (∀ g, s.home.queue g = []) ∧ s.ops = [] := by
  have hp := hd.some
  have ht : cfg.home.taskLen ≠ 0 := by have := hd.fits; omega
  have hp' : cfg.home.pool ≠ 0 := by omega
  have hc : ∀ id, cfg.home.conn (cfg.key 0 id) = 0 := hk.conn 0
  have hne : cfg.key 0 0 ≠ cfg.key 0 1 := fun e => absurd (hk.inj _ _ _ _ e).2 (by decide)
  have hne' := hne.symm
  have hc1 : 0 < max cfg.home.cap 1 := by omega
  have hc2 : 1 < max cfg.home.cap 1 := by omega
  refine ⟨_, _, .cons (.quiet rfl (.connect 0 0 ?_ ?_))
    (.cons (.arriveNew 0 (.arrive 0 _ 0 0 ?_ ?_ ?_ ?_))
    (.cons (.arriveNew 0 (.arrive 0 _ 0 0 ?_ ?_ ?_ ?_))
    (.cons (.take 0 (.msg 0 0) (.take 0 _ [.msg 0 1] ?_ ?_))
    (.cons (.ask 0 0 0 ?_ ?_ (.process 0 _ (.msg 0 0) ?_ ?_ ?_))
    (.cons (.register 0 0 0 ?_ ?_ (.on 0 _ (.msg 0 0) ?_ ?_ ?_))
    (.cons (.quiet rfl (.onStore 0 (cfg.key 0 0) (.msg 0 0) ?_))
    (.cons (.quiet rfl (.onLoad 0 (cfg.key 0 0) (.msg 0 0) ?_))
    (.cons (.finishMsg 0 0 0 ?_ (.finish 0 _ ?_))
    (.cons (.take 0 (.msg 0 1) (.take 0 _ [] ?_ ?_))
    (.cons (.ask 0 0 1 ?_ ?_ (.process 0 _ (.msg 0 1) ?_ ?_ ?_))
    (.cons (.register 0 0 1 ?_ ?_ (.on 0 _ (.msg 0 1) ?_ ?_ ?_))
    (.cons (.quiet rfl (.onStore 0 (cfg.key 0 1) (.msg 0 1) ?_))
    (.cons (.quiet rfl (.onLoad 0 (cfg.key 0 1) (.msg 0 1) ?_))
    (.cons (.finishMsg 0 0 1 ?_ (.finish 0 _ ?_))
    (.cons (.op 0 0 [cfg.key 0 1] ?_ (.opBegin _ ?_))
    (.cons (.op 0 0 [cfg.key 0 1] ?_ (.opWin _ ?_))
    (.cons (.op 0 0 [cfg.key 0 1] ?_ (.opStore _ ?_))
    (.cons (.op 0 0 [cfg.key 0 1] ?_ (.opRead _ ?_))
    (.cons (.op 0 0 [cfg.key 0 1] ?_ (.opFire _ ?_ ?_))
    (.cons (.opPush 0 0 0 [cfg.key 0 1] ?_ (.opSend _ 0 ?_ ?_ ?_))
    (.cons (.op 0 1 [] ?_ (.opBegin _ ?_))
    (.cons (.op 0 1 [] ?_ (.opWin _ ?_))
    (.cons (.op 0 1 [] ?_ (.opStore _ ?_))
    (.cons (.op 0 1 [] ?_ (.opRead _ ?_))
    (.cons (.op 0 1 [] ?_ (.opFire _ ?_ ?_))
    (.cons (.opPush 0 1 0 [] ?_ (.opSend _ 0 ?_ ?_ ?_))
    (.cons (.take 0 (.call (cfg.key 0 0)) (.take 0 _ [.call (cfg.key 0 1)] ?_ ?_))
    (.cons (.reply 0 0 0 ?_ ?_ ?_)
    (.cons (.finishCall 0 (cfg.key 0 0) ?_ (.finish 0 _ ?_))
    (.cons (.take 0 (.call (cfg.key 0 1)) (.take 0 _ [] ?_ ?_))
    (.cons (.reply 0 0 1 ?_ ?_ ?_)
    (.cons (.finishCall 0 (cfg.key 0 1) ?_ (.finish 0 _ ?_))
    (.nil _))))))))))))))))))))))))))))))))), ?_, ?_, ?_, ?_, ?_, ?_, ?_⟩
  all_goals first
    | rfl
    | (intro g
       by_cases e : g = 0
       · subst e; rfl
       · simp [Login.init, AsyncHome.init, upd, AsyncHome.State.push, AsyncHome.State.setRes, AsyncHome.State.setWorker, e]; done)
    | (intro g
       by_cases e : g = 0
       · subst e; simp [Login.cur, Login.itemOf, AsyncHome.after, upd, AsyncHome.State.push, AsyncHome.State.setRes, AsyncHome.State.setWorker, hp']
       · simp only [Login.cur, Login.init, AsyncHome.init, upd, AsyncHome.State.push, AsyncHome.State.setRes, AsyncHome.State.setWorker, e, if_false]
         split <;> rfl)
    | simp [Login.init, AsyncHome.init, AsyncHome.after, upd, AsyncHome.State.target, AsyncHome.State.room, AsyncHome.State.push, AsyncHome.State.setRes, AsyncHome.State.setWorker, AsyncHome.Item.owner, *]

example : ∃ ls s, Steps (Login.Step (loginCfg false)) (Login.init (loginCfg false)) ls s ∧ ls.filterMap (answered 0) = [0, 1] ∧ ls.filterMap (sentOn 0) = [0, 1] := by
  obtain ⟨ls, s, h, h1, h2, _⟩ := two_logins_run (login_keyed false) (login_fixed false) (by simp [loginCfg])
  exact ⟨ls, s, h, h1, h2⟩

end Zinx.Props
