import Verif.Lemmas.LoginOpsLive
import Verif.Lemmas.ExecOf
import Verif.Props.LoginOrder

/-! # C149: every login is answered -/

namespace Zinx.Props

open Zinx.AsyncHome (upd)
open Zinx.Login (Keyed answered LoginFair)

/-- **C149 (answered).** Without dynamic binding, with or without pooled requests, in every fair execution in which no worker waits for room on its own full channel: for every message that has arrived the handler is run,
the operation is started and ends, and the callback is run and answers (or finds no result). -/
theorem C149_live_partial (cfg : Login.Cfg) (hk : Keyed cfg) (hd : FixedPool cfg.home) (e : Exec (Login.Step cfg)) (h0 : e.run 0 = Login.init cfg) (hf : LoginFair e)
    (hj : ∀ m g, ¬ Jam cfg.home (e.run m).home g) (n c id o : Nat) (ha : e.act n = some (.arrive c id o)) : ∃ m l, n < m ∧ e.act m = some l ∧ answered c l = some id := by
  have h0' : (Login.homeExec e).run 0 = AsyncHome.init cfg.home := by show (e.run 0).home = _; rw [h0]; rfl
  have hF := Login.live_fair hk hd e h0 hf hj
  have hstep := e.next n
  rw [ha] at hstep
  have hstep : Login.Step cfg (e.run n) (.arrive c id o) (e.run (n + 1)) := hstep
  have hh := Login.home_inv hd (Login.live_reach e h0 n)
  have hnext : id = (e.run n).next c := by
    generalize e.run (n + 1) = t at hstep
    cases hstep <;> rfl
  have hin : AsyncHome.Step cfg.home (e.run n).home (.arrive c id) (e.run (n + 1)).home := by
    rcases Login.inner_step hstep with ⟨l', h1, h2⟩ | ⟨h1, _⟩
    · cases h1; exact h2
    · cases h1
  obtain ⟨g, v1, v2, v3, _⟩ := Login.view_step hd hin hh
  have hh1 := Login.home_inv hd (Login.live_reach e h0 (n + 1))
  have hq : (e.run (n + 1)).home.queue g = (e.run n).home.queue g ++ .msg c id :: [] := by rw [v3, upd, if_pos rfl]
  have hg : g < cfg.home.pool := (hh1.queued g (.msg c id) (by rw [hq]; simp)).2
  obtain ⟨n1, hn1, h1⟩ := exec_drain hd (Login.homeExec e) h0' hF.toWorkerFair hg (.msg c id) _ (n + 1) _ _ (fun m _ => hj m g) hq (Nat.le_refl _)
  /- what begins with an item -/
  have begins : ∀ m it, (Login.homeExec e).act m = some (.take g it) → Login.cur (e.run (m + 1)).home g = some it ∧ (e.run (m + 1)).stage g = .start := by
    intro m it hm
    have hm : (e.act m).bind (Login.inner cfg) = some (.take g it) := hm
    cases hl : e.act m with
    | none => rw [hl] at hm; cases hm
    | some l =>
      rw [hl, Option.bind_some] at hm
      have hs := e.next m
      rw [hl] at hs
      have hs : Login.Step cfg (e.run m) l (e.run (m + 1)) := hs
      have hh := Login.home_inv hd (Login.live_reach e h0 m)
      rcases Login.inner_step hs with ⟨l', h2, h3⟩ | ⟨h2, _⟩
      · rw [h2] at hm
        cases hm
        obtain ⟨_, _, _, _, w0, _⟩ := Login.view_step hd h3 hh
        rcases Login.idle_step hd hs hh w0 with h4 | ⟨it', h4, h5, h6⟩
        · obtain ⟨_, _, _, _, _, w1⟩ := Login.view_step hd h3 hh
          rw [w1, upd, if_pos rfl] at h4
          cases h4
        · subst h4
          cases h2
          exact ⟨h5, h6⟩
      · rw [h2] at hm; cases hm
  obtain ⟨b1, b2⟩ := begins n1 _ h1
  obtain ⟨n2, hn2, b3, b4⟩ := Login.live_ask hk hd e h0 hf b1 b2
  obtain ⟨n3, hn3, b5, b6⟩ := Login.live_register hk hd e h0 hf b3 b4
  have hr3 := Login.live_reach e h0 n3
  have hh3 := Login.home_inv hd hr3
  have ha3 := ((Login.msg_inv hd hr3 c).work g id b5).2.2 (by rw [b6]; nofun)
  obtain ⟨_, d, hsq⟩ := Login.ops_inv hk hd hr3 c
  have hop := (hsq.started id).mpr (by omega)
  have hfn : ((e.run n3).home.res (cfg.key c id)).hasFn = true := by
    rcases Login.reg_inv hk hd hr3 c id hop with h | ⟨g', h, h'⟩
    · exact h
    · have := Login.cur_one hh3 b5 h rfl
      subst this
      rw [b6] at h'; cases h'
  have hnum : (e.run n3).home.num (cfg.home.conn (cfg.key c id)) = some g := by
    obtain ⟨pc, hw⟩ := Login.cur_some.mp b5
    rw [hk.conn]
    exact (hh3.busy g _ pc hw).1
  obtain ⟨n4, h4⟩ := C107_partial hd (Login.homeExec e) h0' hF hop hfn hnum (fun m => hj m g)
  obtain ⟨b7, b8⟩ := begins n4 _ h4
  obtain ⟨m, _, j, l, _, hj1, hj2, _⟩ := Login.live_answer hk hd e h0 hf b7 b8
  refine ⟨j, l, ?_, hj1, hj2⟩
  /- not before the message has arrived -/
  apply Nat.lt_of_not_le
  intro hle
  have hs := e.next j
  rw [hj1] at hs
  have hs : Login.Step cfg (e.run j) l (e.run (j + 1)) := hs
  have hlow := Login.low_inv (Login.live_reach e h0 j)
  have hlt : id < (e.run j).next c := by
    generalize e.run (j + 1) = t at hs
    cases hs with
    | reply g' c' id' hw _ _ =>
      obtain ⟨c2, id2, he, hlt⟩ := hlow.workCall g' _ _ hw
      obtain ⟨rfl, rfl⟩ := hk.inj _ _ _ _ he
      simp only [answered] at hj2
      split at hj2
      · rename_i e1; cases hj2; subst e1; exact hlt
      · cases hj2
    | silent g' c' id' hw _ _ =>
      obtain ⟨c2, id2, he, hlt⟩ := hlow.workCall g' _ _ hw
      obtain ⟨rfl, rfl⟩ := hk.inj _ _ _ _ he
      simp only [answered] at hj2
      split at hj2
      · rename_i e1; cases hj2; subst e1; exact hlt
      · cases hj2
    | _ => cases hj2
  have hmono : (e.run n).next c > id := by
    refine e.invariant (P := fun s => id < s.next c) ?_ (n := j) hlt n hle
    intro s l t hp hs
    cases hs <;> first | exact hp | (dsimp only; unfold upd; split <;> first | (subst_vars; omega) | exact hp)
  omega

theorem queue_le {cfg : AsyncHome.Cfg} {ls : List AsyncHome.Label} {s : AsyncHome.State} (h : Steps (AsyncHome.Step cfg) (AsyncHome.init cfg) ls s) (g : Nat) : (s.queue g).length ≤ ls.length := by
  refine h.invariant_trace (P := fun ls s => (s.queue g).length ≤ ls.length) ?_ (Nat.le_refl _)
  intro ls s l t hp hs
  rcases queue_step hs g with ⟨h1 | ⟨it, h1⟩, _⟩ | ⟨it, h1, _⟩
  · rw [h1]; simp; omega
  · rw [h1]; simp; omega
  · rw [h1] at hp; simp at hp ⊢; omega

/-- Nobody has anything to do. -/
theorem login_quiet_fair {cfg : Login.Cfg} {e : Exec (Login.Step cfg)} {t : Login.State} {N : Nat} (h : ∀ n, N ≤ n → e.run n = t) (h1 : ∀ g, Login.cur t.home g = none) (h2 : ∀ g, t.home.queue g = []) (h3 : t.ops = []) :
    LoginFair e := by
  have h1 := fun g => Login.cur_none.mp (h1 g)
  refine ⟨fun g => Exec.weakFair_of_end h ?_, fun g => Exec.weakFair_of_end h ?_, fun g => Exec.weakFair_of_end h ?_, fun g => Exec.weakFair_of_end h ?_, Exec.weakFair_of_end h ?_, Exec.strongFair_of_end h ?_⟩
  · rintro ⟨_, u, rfl, hs⟩
    cases hs with
    | quiet _ hs => cases hs <;> exact absurd (by assumption) (h1 _ _ _)
  · rintro ⟨_, u, ⟨k, x, rfl⟩, hs⟩
    cases hs with
    | quiet _ hs => cases hs with | onSend _ _ _ it hw => exact h1 _ _ _ hw
  · rintro ⟨_, u, ⟨it, rfl⟩, hs⟩
    cases hs with
    | take _ _ hs => cases hs with | take _ _ _ _ hq => rw [h2] at hq; cases hq
  · rintro ⟨l, u, hl, hs⟩
    cases hs with
    | ask _ _ _ hw => exact h1 _ _ _ hw
    | register _ _ _ hw => exact h1 _ _ _ hw
    | reply _ _ _ hw => exact h1 _ _ _ hw
    | silent _ _ _ hw => exact h1 _ _ _ hw
    | finishMsg _ _ _ _ hs => cases hs with | finish _ _ hw => exact h1 _ _ _ hw
    | finishCall _ _ _ hs => cases hs with | finish _ _ hw => exact h1 _ _ _ hw
    | _ => exact hl
  · rintro ⟨_, u, ⟨c, id, rfl⟩, hs⟩
    cases hs with
    | op _ _ _ ho => rw [h3] at ho; cases ho
  · rintro ⟨_, u, ⟨c, id, x, rfl⟩, hs⟩
    cases hs with
    | opPush _ _ _ _ ho => rw [h3] at ho; cases ho

/-- A fair execution in which two logins arrive. -/
example : ∃ e : Exec (Login.Step (loginCfg true)), e.run 0 = Login.init (loginCfg true) ∧ LoginFair e ∧ (∀ m g, ¬ Jam (loginCfg true).home (e.run m).home g) ∧ e.act 1 = some (.arrive 0 0 0) := by
  obtain ⟨ls, s, h, _, _, h3, h4, h5, h6, h7⟩ := two_logins_run (login_keyed true) (login_fixed true) (by simp [loginCfg])
  obtain ⟨e, e1, e2, e3, e4⟩ := Exec.ofSteps h
  refine ⟨e, e1, login_quiet_fair e4 h5 h6 h7, ?_, by rw [e2]; exact h4⟩
  rintro m g ⟨it, k, _, hr⟩
  apply hr
  have h8 := queue_le (Login.inner_steps (Login.live_reach e e1 m)) g
  have h9 := List.length_filterMap_le (Login.inner (loginCfg true)) (e.trace m)
  rw [e3] at h9
  have h10 : (ls.take m).length ≤ 33 := by rw [List.length_take]; omega
  show ((e.run m).home.queue g).length < max (loginCfg true).home.cap 1
  have : max (loginCfg true).home.cap 1 = 1024 := by simp [loginCfg]
  rw [e3] at h8
  omega

end Zinx.Props
