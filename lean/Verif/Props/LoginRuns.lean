import Verif.Props.Login

/-! # C149, continued: callbacks without a result, at most one answer, and the runs that go wrong -/

namespace Zinx.Props

open Zinx.Login
open Zinx.AsyncHome (Item HPc SPc upd)

theorem got_inv {cfg : Login.Cfg} {ls : List Login.Label} {s : Login.State} (h : Steps (Login.Step cfg) (Login.init cfg) ls s) : GotInv s := by
  refine h.invariant (P := GotInv) ?_ ?_
  · intro s l t hi hs
    cases hs with
    | quiet hq h => exact got_home hi h (fun _ h => h) (fun k he => by subst he; cases hq)
    | arriveOld c o l1 l2 _ _ h => exact (got_home hi h (fun _ h => h) nofun).same rfl rfl
    | arriveNew c h => exact (got_home hi h (fun _ h => h) nofun).same rfl rfl
    | take g it h => exact (got_home hi h (fun _ h => h) nofun).same rfl rfl
    | ask g c id _ _ h => exact (got_home hi h (fun _ h => h) nofun).same rfl rfl
    | register g c id _ _ h => exact (got_home hi h (fun _ h => h) nofun).same rfl rfl
    | finishMsg g c id _ h => exact (got_home hi h (fun _ h => h) nofun).same rfl rfl
    | finishCall g k _ h => exact got_home hi h (fun _ h => h) nofun
    | reply => exact hi.same rfl rfl
    | silent => exact hi.same rfl rfl
    | opPush c id g rest _ h => exact (got_home hi h (fun _ h => h) nofun).same rfl rfl
    | op c id rest _ h =>
      refine (got_home hi h (st := if (s.home.res (cfg.key c id)).op = .won then upd s.stored (cfg.key c id) true else s.stored) ?_ ?_).same rfl rfl
      · intro k hk
        split
        · unfold upd; split <;> simp_all
        · exact hk
      · intro k he hw
        cases he
        rw [if_pos hw]
        simp [upd]
  · constructor <;> simp only [Login.init, AsyncHome.init] <;> grind

/-- **C149 (silent).** A callback that finds no result, and so sends nothing, is one that ran while the operation was between claiming the result and storing it. -/
theorem C149_silent (cfg : Login.Cfg) (ls : List Login.Label) (s t : Login.State) (h : Steps (Login.Step cfg) (Login.init cfg) ls s) (g c id : Nat) (hs : Login.Step cfg s (.silent g c id) t) :
    (s.home.res (cfg.key c id)).op = .won := by
  have hi := got_inv h
  cases hs with
  | silent _ _ _ hw _ hn =>
    have h1 := hi.ret _ (hi.called _ (hi.work g _ _ hw))
    have h2 := hi.stored (cfg.key c id)
    rw [hn] at h2
    cases ho : (s.home.res (cfg.key c id)).op <;> simp_all

/-! ## At most one answer -/

/-- Is this the callback for message `id` of connection `c` deciding what to answer? -/
def answers (c id : Nat) : Login.Label → Bool
  | .reply _ c' id' _ => c' = c ∧ id' = id
  | .silent _ c' id' => c' = c ∧ id' = id
  | _ => false

/-- Invariant: a callback that has been begun has one decision to make. -/
structure AnsInv (cfg : Login.Cfg) (c id : Nat) (ls : List Login.Label) (s : Login.State) : Prop where
  once : ls.countP (answers c id) ≤ 1
  before : (ls.filterMap (inner cfg)).countP (beginsCall (cfg.key c id)) = 0 → ls.countP (answers c id) = 0
  begun : ∀ g pc, s.home.worker g = .busy (.call (cfg.key c id)) pc → 0 < (ls.filterMap (inner cfg)).countP (beginsCall (cfg.key c id)) ∧ (s.stage g = .start → ls.countP (answers c id) = 0)
  one : ∀ g g' pc pc', s.home.worker g = .busy (.call (cfg.key c id)) pc → s.home.worker g' = .busy (.call (cfg.key c id)) pc' → g = g'

theorem call_home {cfg : AsyncHome.Cfg} {s h : AsyncHome.State} {l : AsyncHome.Label} (hs : AsyncHome.Step cfg s l h) (ht : ∀ g it, l ≠ .take g it) {g k : Nat} {pc : HPc}
    (hw : h.worker g = .busy (.call k) pc) : ∃ pc', s.worker g = .busy (.call k) pc' := by
  have haf : ∀ it pc, AsyncHome.after cfg ≠ .busy it pc := by unfold AsyncHome.after; split <;> nofun
  revert hw
  cases hs <;> simp only [AsyncHome.State.setRes, AsyncHome.State.setWorker, AsyncHome.State.push, upd] <;> grind

theorem ans_same {cfg : Login.Cfg} {c id : Nat} {ls : List Login.Label} {s t : Login.State} {l : Login.Label} (hi : AnsInv cfg c id ls s) (ha : answers c id l = false)
    (hb : ∀ l', inner cfg l = some l' → beginsCall (cfg.key c id) l' = false)
    (hw : ∀ g pc, t.home.worker g = .busy (.call (cfg.key c id)) pc → (∃ pc', s.home.worker g = .busy (.call (cfg.key c id)) pc') ∧ (t.stage g = .start → s.stage g = .start)) :
    AnsInv cfg c id (ls ++ [l]) t := by
  have e1 : (ls ++ [l]).countP (answers c id) = ls.countP (answers c id) := by simp [List.countP_append, ha]
  have e2 : ((ls ++ [l]).filterMap (inner cfg)).countP (beginsCall (cfg.key c id)) = (ls.filterMap (inner cfg)).countP (beginsCall (cfg.key c id)) := by
    rw [List.filterMap_append, List.countP_append, List.filterMap_cons]
    cases hn : inner cfg l with
    | none => simp
    | some l' => simp [hb l' hn]
  refine ⟨by rw [e1]; exact hi.once, by rw [e1, e2]; exact hi.before, ?_, ?_⟩
  · intro g pc h
    obtain ⟨⟨pc', h1⟩, h2⟩ := hw g pc h
    rw [e1, e2]
    exact ⟨(hi.begun g pc' h1).1, fun h3 => (hi.begun g pc' h1).2 (h2 h3)⟩
  · intro g g' pc pc' h h'
    obtain ⟨⟨p1, h1⟩, _⟩ := hw g pc h
    obtain ⟨⟨p2, h2⟩, _⟩ := hw g' pc' h'
    exact hi.one g g' p1 p2 h1 h2

theorem ans_answer {cfg : Login.Cfg} {c id g c' id' : Nat} {ls : List Login.Label} {s t : Login.State} {l : Login.Label} (hi : AnsInv cfg c id ls s) (ha : answers c id l = true → c' = c ∧ id' = id)
    (hn : inner cfg l = none) (hw : s.home.worker g = .busy (.call (cfg.key c' id')) .code) (h0 : s.stage g = .start) (hh : t.home = s.home) (hst : t.stage = upd s.stage g .answered) :
    AnsInv cfg c id (ls ++ [l]) t := by
  by_cases hal : answers c id l = true
  · obtain ⟨rfl, rfl⟩ := ha hal
    have z := hi.begun g _ hw
    have z1 := z.2 h0
    have e1 : (ls ++ [l]).countP (answers c' id') = 1 := by simp [List.countP_append, hal, z1]
    have e2 : (ls ++ [l]).filterMap (inner cfg) = ls.filterMap (inner cfg) := by simp [List.filterMap_append, hn]
    refine ⟨by omega, by rw [e2]; have := z.1; omega, ?_, by rw [hh]; exact hi.one⟩
    rw [hh, hst, e2]
    intro g' pc h
    have hg := hi.one g' g _ _ h hw
    subst hg
    exact ⟨z.1, fun h => by simp [upd] at h⟩
  · refine ans_same hi (by simpa using hal) (fun l' h => by rw [hn] at h; cases h) ?_
    rw [hh, hst]
    intro g' pc h
    refine ⟨⟨pc, h⟩, fun h' => ?_⟩
    unfold upd at h'
    split at h'
    · cases h'
    · exact h'

theorem ans_inv {cfg : Login.Cfg} {ls : List Login.Label} {s : Login.State} (h : Steps (Login.Step cfg) (Login.init cfg) ls s) (c id : Nat) : AnsInv cfg c id ls s := by
  refine (h.invariant_trace (P := fun ls s => Steps (Login.Step cfg) (Login.init cfg) ls s ∧ AnsInv cfg c id ls s) ?_ ⟨.nil _, ?_⟩).2
  · rintro ls s l t ⟨hr, hi⟩ hs
    have hr' := hr.snoc hs
    refine ⟨hr', ?_⟩
    cases hs with
    | quiet hq h =>
      rename_i l' _
      refine ans_same hi rfl (fun l'' he => ?_) (fun g pc hw => ⟨call_home h (fun g it he => by subst he; cases hq) hw, fun h => h⟩)
      cases he
      cases l' <;> first | rfl | cases hq
    | arriveOld c' o l1 l2 _ _ h => exact ans_same hi rfl (fun _ he => by cases he; rfl) (fun g pc hw => ⟨call_home h nofun hw, fun h => h⟩)
    | arriveNew c' h => exact ans_same hi rfl (fun _ he => by cases he; rfl) (fun g pc hw => ⟨call_home h nofun hw, fun h => h⟩)
    | finishMsg g' c' id' _ h => exact ans_same hi rfl (fun _ he => by cases he; rfl) (fun g pc hw => ⟨call_home h nofun hw, fun h => h⟩)
    | finishCall g' k _ h => exact ans_same hi rfl (fun _ he => by cases he; rfl) (fun g pc hw => ⟨call_home h nofun hw, fun h => h⟩)
    | opPush c' id' g' rest _ h => exact ans_same hi rfl (fun _ he => by cases he; rfl) (fun g pc hw => ⟨call_home h nofun hw, fun h => h⟩)
    | op c' id' rest _ h => exact ans_same hi rfl (fun _ he => by cases he; rfl) (fun g pc hw => ⟨call_home h nofun hw, fun h => h⟩)
    | ask g' c' id' _ _ h =>
      refine ans_same hi rfl (fun _ he => by cases he; rfl) (fun g pc hw => ⟨call_home h nofun hw, fun h => ?_⟩)
      simp only [upd] at h
      split at h
      · cases h
      · exact h
    | register g' c' id' _ _ h =>
      refine ans_same hi rfl (fun _ he => by cases he; rfl) (fun g pc hw => ⟨call_home h nofun hw, fun h => ?_⟩)
      simp only [upd] at h
      split at h
      · cases h
      · exact h
    | reply g' c' id' hw h0 _ => exact ans_answer hi (fun h => by simpa [answers] using h) rfl hw h0 rfl rfl
    | silent g' c' id' hw h0 _ => exact ans_answer hi (fun h => by simpa [answers] using h) rfl hw h0 rfl rfl
    | take g' it h =>
      rename_i h2
      by_cases hit : it = .call (cfg.key c id)
      · subst hit
        have h1 := C107_once cfg.home _ _ (inner_steps hr') (cfg.key c id)
        have e1 : (ls ++ [Login.Label.take g' (.call (cfg.key c id))]).countP (answers c id) = ls.countP (answers c id) := by simp [List.countP_append, answers]
        have e2 : ((ls ++ [Login.Label.take g' (.call (cfg.key c id))]).filterMap (inner cfg)).countP (beginsCall (cfg.key c id)) = (ls.filterMap (inner cfg)).countP (beginsCall (cfg.key c id)) + 1 := by
          simp [List.filterMap_append, inner, List.countP_append, beginsCall]
        rw [e2] at h1
        have z := hi.before (by omega)
        have nb : ∀ g pc, s.home.worker g ≠ .busy (.call (cfg.key c id)) pc := fun g pc hw => by
          have := (hi.begun g pc hw).1
          omega
        have wk : ∀ g pc, h2.worker g = .busy (.call (cfg.key c id)) pc → g = g' := by
          intro g pc hw
          cases h
          simp only [upd] at hw
          split at hw
          · assumption
          · exact absurd hw (nb g pc)
        refine ⟨by omega, fun _ => by omega, fun g pc hw => ⟨by omega, fun _ => by omega⟩, fun g g2 pc pc' hw hw' => (wk g pc hw).trans (wk g2 pc' hw').symm⟩
      · refine ans_same hi rfl (fun _ he => ?_) (fun g pc hw => ?_)
        · cases he
          cases it with
          | msg => rfl
          | call k =>
            have : k ≠ cfg.key c id := fun e => hit (by rw [e])
            simp [beginsCall, this]
        · cases h
          simp only [upd] at hw ⊢
          by_cases eg : g = g'
          · rw [if_pos eg] at hw
            cases hw
            exact absurd rfl hit
          · rw [if_neg eg] at hw ⊢
            exact ⟨⟨pc, hw⟩, fun h => h⟩
  · constructor <;> simp [Login.init, AsyncHome.init] <;> grind

/-- **C149 (at most once).** In both modes: a login is answered at most once. -/
theorem C149_once (cfg : Login.Cfg) (ls : List Login.Label) (s : Login.State) (h : Steps (Login.Step cfg) (Login.init cfg) ls s) (c id : Nat) : ls.countP (answers c id) ≤ 1 :=
  (ans_inv h c id).once

/-! ## Runs -/

/-- Connections 0 and 1 have worker 0, and the handler of the login of connection 0 has started the operation and registered the callback's function. -/
def askRun : List Login.Label :=
  [.quiet (.connect 0 0), .quiet (.connect 1 0), .arrive 0 0 0, .take 0 (.msg 0 0), .ask 0 0 0, .register 0 0 0, .quiet (.goOn 0)]

/-- What a state after `askRun` is like. -/
structure LoginAsked (cfg : Login.Cfg) (s : Login.State) : Prop where
  worker : s.home.worker 0 = .busy (.msg 0 0) (.wrote (cfg.key 0 0))
  num0 : s.home.num 0 = some 0
  num1 : s.home.num 1 = some 0
  cur : s.home.cur 0 = some 0
  closed : s.home.closed 0 = false
  queue : s.home.queue 0 = []
  op : (s.home.res (cfg.key 0 0)).op = .queued
  fn : (s.home.res (cfg.key 0 0)).fn = true
  hasRet : (s.home.res (cfg.key 0 0)).hasRet = false
  called : (s.home.res (cfg.key 0 0)).called = false
  ops : s.ops = [cfg.key 0 0]
  stage : s.stage 0 = .registered
  pool : s.pool = []
  obj : s.obj 0 0 = 0
  conn : s.conn 0 = 0
  next1 : s.next 1 = 0
  stored : s.stored (cfg.key 0 0) = false

theorem asked_run {cfg : Login.Cfg} (hk : Keyed cfg) (hp : 0 < cfg.home.pool) (ht : 0 < cfg.home.taskLen) : ∃ s, Steps (Login.Step cfg) (Login.init cfg) askRun s ∧ LoginAsked cfg s := by
  have hc : cfg.home.conn (cfg.key 0 0) = 0 := hk.conn 0 0
  have ht' : cfg.home.taskLen ≠ 0 := by omega
  have hpos : 0 < max cfg.home.cap 1 := by omega
  refine ⟨_, .cons (.quiet rfl (.connect 0 0 ?_ ?_)) (.cons (.quiet rfl (.connect 1 0 ?_ ?_)) (.cons (.arriveNew 0 (.arrive 0 _ 0 0 ?_ ?_ ?_ ?_)) (.cons (.take 0 (.msg 0 0) (.take 0 _ [] ?_ ?_))
    (.cons (.ask 0 0 0 ?_ ?_ (.process 0 _ (.msg 0 0) ?_ ?_ ?_)) (.cons (.register 0 0 0 ?_ ?_ (.on 0 _ (.msg 0 0) ?_ ?_ ?_)) (.cons (.quiet rfl (.onStore 0 (cfg.key 0 0) (.msg 0 0) ?_)) (.nil _))))))), ?_⟩
  all_goals first
    | rfl
    | exact .inl hp
    | exact hpos
    | (simp [Login.init, AsyncHome.init, upd, AsyncHome.State.target, AsyncHome.State.push, AsyncHome.State.setRes, AsyncHome.State.setWorker, AsyncHome.Item.owner, hp, ht', hc]; done)
    | (constructor <;> simp [Login.init, AsyncHome.init, upd, AsyncHome.State.push, AsyncHome.State.setRes, AsyncHome.State.setWorker, hp])

/-- The rest of a run in pool mode: the handler returns and its request goes to the pool, the operation ends and sends the callback, which is begun; then a message of connection 1 arrives, in the same request. -/
theorem mix_run {cfg : Login.Cfg} (hk : Keyed cfg) (hm : cfg.poolMode = true) (hp : 0 < cfg.home.pool) (ht : 0 < cfg.home.taskLen) :
    ∃ ls s t, Steps (Login.Step cfg) (Login.init cfg) ls s ∧ Login.Step cfg s (.reply 0 0 0 1) t := by
  obtain ⟨s, hs, a⟩ := asked_run hk hp ht
  obtain ⟨a1, a2, a3, a4, a5, a6, a7, a8, a9, a10, a11, a12, a13, a14, a15, a16, a17⟩ := a
  have hc : cfg.home.conn (cfg.key 0 0) = 0 := hk.conn 0 0
  have hp' : cfg.home.pool ≠ 0 := by omega
  have ht' : cfg.home.taskLen ≠ 0 := by omega
  have hpos : 0 < max cfg.home.cap 1 := by omega
  suffices h : ∃ ls t, Steps (Login.Step cfg) s ls t ∧ t.home.worker 0 = .busy (.call (cfg.key 0 0)) .code ∧ t.stage 0 = .start ∧ t.stored (cfg.key 0 0) = true ∧ t.conn (t.obj 0 0) = 1 by
    obtain ⟨ls, t, h3, h4, h5, h6, h7⟩ := h
    have h8 := Login.Step.reply (cfg := cfg) 0 0 0 h4 h5 h6
    rw [h7] at h8
    exact ⟨_, t, _, hs.append h3, h8⟩
  refine ⟨_, _, .cons (.quiet rfl (.onLoad 0 (cfg.key 0 0) (.msg 0 0) ?_)) (.cons (.finishMsg 0 0 0 ?_ (.finish 0 _ ?_)) (.cons (.op 0 0 [] ?_ (.opBegin _ ?_)) (.cons (.op 0 0 [] ?_ (.opWin _ ?_))
    (.cons (.op 0 0 [] ?_ (.opStore _ ?_)) (.cons (.op 0 0 [] ?_ (.opRead _ ?_)) (.cons (.op 0 0 [] ?_ (.opFire _ ?_ ?_)) (.cons (.opPush 0 0 0 [] ?_ (.opSend _ 0 ?_ ?_ ?_))
    (.cons (.take 0 (.call (cfg.key 0 0)) (.take 0 _ [] ?_ ?_)) (.cons (.arriveOld 1 0 [] [] hm ?_ (.arrive 1 _ 0 0 ?_ ?_ ?_ ?_)) (.nil _)))))))))), ?_, ?_, ?_, ?_⟩
  all_goals simp [AsyncHome.after, upd, AsyncHome.State.target, AsyncHome.State.room, AsyncHome.State.push, AsyncHome.State.setRes, AsyncHome.State.setWorker, *]

/-- **C149, as one would want it, is false with pooled requests.** Whatever the sizes: a reply that connection 0 asked for can go to connection 1. -/
theorem C149_refuted (cfg : Login.Cfg) (hk : Keyed cfg) (hm : cfg.poolMode = true) (hp : 0 < cfg.home.pool) (ht : 0 < cfg.home.taskLen) :
    ¬ ∀ ls s t g c id d, Steps (Login.Step cfg) (Login.init cfg) ls s → Login.Step cfg s (.reply g c id d) t → d = c := by
  intro h
  obtain ⟨ls, s, t, h1, h2⟩ := mix_run hk hm hp ht
  exact absurd (h ls s t 0 0 0 1 h1 h2) (by decide)

/-- **C149 (exactly when).** Replies go to the connections that asked for them if and only if request objects are not pooled. -/
theorem C149_exact (cfg : Login.Cfg) (hk : Keyed cfg) (hp : 0 < cfg.home.pool) (ht : 0 < cfg.home.taskLen) :
    (∀ ls s t g c id d, Steps (Login.Step cfg) (Login.init cfg) ls s → Login.Step cfg s (.reply g c id d) t → d = c) ↔ cfg.poolMode = false := by
  constructor
  · intro h
    cases hm : cfg.poolMode with
    | false => rfl
    | true => exact absurd h (C149_refuted cfg hk hm hp ht)
  · exact fun hm ls s t g c id d h hs => C149_own_partial cfg hk hm ls s t h g c id d hs

/-- **A callback can find no result.** In both modes, whatever the sizes: `OnComplete` sees the flag that the operation has set, and its callback is run, before the operation has stored the result. -/
theorem C149_silent_refuted (cfg : Login.Cfg) (hk : Keyed cfg) (hp : 0 < cfg.home.pool) (ht : 0 < cfg.home.taskLen) :
    ¬ ∀ ls s t g c id, Steps (Login.Step cfg) (Login.init cfg) ls s → ¬ Login.Step cfg s (.silent g c id) t := by
  intro hno
  obtain ⟨s, hs, a⟩ := asked_run hk hp ht
  obtain ⟨a1, a2, a3, a4, a5, a6, a7, a8, a9, a10, a11, a12, a13, a14, a15, a16, a17⟩ := a
  have hc : cfg.home.conn (cfg.key 0 0) = 0 := hk.conn 0 0
  have hp' : cfg.home.pool ≠ 0 := by omega
  have ht' : cfg.home.taskLen ≠ 0 := by omega
  have hpos : 0 < max cfg.home.cap 1 := by omega
  suffices h : ∃ ls t, Steps (Login.Step cfg) s ls t ∧ t.home.worker 0 = .busy (.call (cfg.key 0 0)) .code ∧ t.stage 0 = .start ∧ t.stored (cfg.key 0 0) = false by
    obtain ⟨ls, t, h3, h4, h5, h6⟩ := h
    exact hno _ t _ 0 0 0 (hs.append h3) (.silent 0 0 0 h4 h5 h6)
  refine ⟨_, _, .cons (.op 0 0 [] ?_ (.opBegin _ ?_)) (.cons (.op 0 0 [] ?_ (.opWin _ ?_)) (.cons (.quiet rfl (.onLoad 0 (cfg.key 0 0) (.msg 0 0) ?_)) (.cons (.quiet rfl (.onWin 0 (cfg.key 0 0) (.msg 0 0) ?_ ?_))
    (.cons (.quiet rfl (.onSend 0 (cfg.key 0 0) 0 (.msg 0 0) ?_ ?_ ?_)) (.cons (.finishMsg 0 0 0 ?_ (.finish 0 _ ?_)) (.cons (.take 0 (.call (cfg.key 0 0)) (.take 0 _ [] ?_ ?_)) (.nil _))))))), ?_, ?_, ?_⟩
  all_goals simp [AsyncHome.after, upd, AsyncHome.State.target, AsyncHome.State.room, AsyncHome.State.push, AsyncHome.State.setRes, AsyncHome.State.setWorker, *]

/-! ## The assumptions can be met -/

theorem square_lt {a b c d : Nat} (h : a + b < c + d) : (a + b) * (a + b) + a < (c + d) * (c + d) + c := by
  have h1 : (a + b + 1) * (a + b + 1) ≤ (c + d) * (c + d) := Nat.mul_le_mul h h
  have h2 : (a + b + 1) * (a + b + 1) = (a + b) * (a + b) + 2 * (a + b) + 1 := by
    rw [Nat.add_mul, Nat.mul_add]; omega
  omega

theorem square_inj {a b c d : Nat} (h : (a + b) * (a + b) + a = (c + d) * (c + d) + c) : a = c ∧ b = d := by
  rcases Nat.lt_trichotomy (a + b) (c + d) with h1 | h1 | h1
  · have := square_lt h1; omega
  · rw [h1] at h; omega
  · have := square_lt h1; omega

open Classical in
/-- Eight workers, queues of 1024; all results different. -/
noncomputable def loginCfg (poolMode : Bool) : Login.Cfg where
  home := { pool := 8, taskLen := 8, cap := 1024, dynamic := false, conn := fun k => if h : ∃ c id, k = (c + id) * (c + id) + c then h.choose else 0 }
  poolMode := poolMode
  key c id := (c + id) * (c + id) + c

theorem login_keyed (b : Bool) : Keyed (loginCfg b) where
  conn c id := by
    have h : ∃ c' id', (c + id) * (c + id) + c = (c' + id') * (c' + id') + c' := ⟨c, id, rfl⟩
    have h2 := h.choose_spec
    simp only [loginCfg]
    rw [dif_pos h]
    obtain ⟨id', h3⟩ := h2
    exact (square_inj h3).1.symm
  inj c id c' id' h := square_inj h

example : ¬ ∀ ls s t g c id d, Steps (Login.Step (loginCfg true)) (Login.init (loginCfg true)) ls s → Login.Step (loginCfg true) s (.reply g c id d) t → d = c :=
  C149_refuted _ (login_keyed true) rfl (by decide) (by decide)

/-- Without the pool a reply is reached, and goes to connection 0; the request was asked for on connection 0. -/
example : ∃ ls s t, Steps (Login.Step (loginCfg false)) (Login.init (loginCfg false)) ls s ∧ Login.Step (loginCfg false) s (.reply 0 0 0 0) t ∧ s.conn (s.obj 0 0) = 0 := by
  have hk := login_keyed false
  generalize hcfg : loginCfg false = cfg at hk
  have hp : 0 < cfg.home.pool := by rw [← hcfg]; decide
  have ht : 0 < cfg.home.taskLen := by rw [← hcfg]; decide
  obtain ⟨s, hs, a⟩ := asked_run hk hp ht
  obtain ⟨a1, a2, a3, a4, a5, a6, a7, a8, a9, a10, a11, a12, a13, a14, a15, a16, a17⟩ := a
  have hc : cfg.home.conn (cfg.key 0 0) = 0 := hk.conn 0 0
  have hp' : cfg.home.pool ≠ 0 := by omega
  have ht' : cfg.home.taskLen ≠ 0 := by omega
  have hpos : 0 < max cfg.home.cap 1 := by omega
  suffices h : ∃ ls t, Steps (Login.Step cfg) s ls t ∧ t.home.worker 0 = .busy (.call (cfg.key 0 0)) .code ∧ t.stage 0 = .start ∧ t.stored (cfg.key 0 0) = true ∧ t.conn (t.obj 0 0) = 0 by
    obtain ⟨ls, t, h3, h4, h5, h6, h7⟩ := h
    have h8 := Login.Step.reply (cfg := cfg) 0 0 0 h4 h5 h6
    rw [h7] at h8
    exact ⟨_, t, _, hs.append h3, h8, h7⟩
  refine ⟨_, _, .cons (.quiet rfl (.onLoad 0 (cfg.key 0 0) (.msg 0 0) ?_)) (.cons (.finishMsg 0 0 0 ?_ (.finish 0 _ ?_)) (.cons (.op 0 0 [] ?_ (.opBegin _ ?_)) (.cons (.op 0 0 [] ?_ (.opWin _ ?_))
    (.cons (.op 0 0 [] ?_ (.opStore _ ?_)) (.cons (.op 0 0 [] ?_ (.opRead _ ?_)) (.cons (.op 0 0 [] ?_ (.opFire _ ?_ ?_)) (.cons (.opPush 0 0 0 [] ?_ (.opSend _ 0 ?_ ?_ ?_))
    (.cons (.take 0 (.call (cfg.key 0 0)) (.take 0 _ [] ?_ ?_)) (.nil _))))))))), ?_, ?_, ?_, ?_⟩
  all_goals simp [AsyncHome.after, upd, AsyncHome.State.target, AsyncHome.State.room, AsyncHome.State.push, AsyncHome.State.setRes, AsyncHome.State.setWorker, *]

/-- A callback that finds no result is reached; and an operation that is asked for, in pool mode. -/
example : (∃ ls s t g c id, Steps (Login.Step (loginCfg true)) (Login.init (loginCfg true)) ls s ∧ Login.Step (loginCfg true) s (.silent g c id) t) ∧
    ∃ s, Steps (Login.Step (loginCfg true)) (Login.init (loginCfg true)) askRun s := by
  constructor
  · have h := C149_silent_refuted _ (login_keyed true) (by decide) (by decide)
    simpa only [Classical.not_forall, Classical.not_not, exists_prop] using h
  · obtain ⟨s, h, _⟩ := asked_run (login_keyed true) (by decide) (by decide)
    exact ⟨s, h⟩

end Zinx.Props
