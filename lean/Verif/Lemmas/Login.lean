import Verif.Model.Login
import Verif.Props.AsyncHome

/-! # Invariants of the login example, for C149 -/

namespace Zinx.Login

open Zinx.AsyncHome (Item HPc SPc upd)

/-- Each handler makes a result of its own, for its connection. -/
structure Keyed (cfg : Cfg) : Prop where
  conn : ∀ c id, cfg.home.conn (cfg.key c id) = c
  inj : ∀ c id c' id', cfg.key c id = cfg.key c' id' → c = c' ∧ id = id'

/-- The step of `AsyncHome` in a step. -/
def inner (cfg : Cfg) : Label → Option AsyncHome.Label
  | .quiet l => some l
  | .arrive c id _ => some (.arrive c id)
  | .take g it => some (.take g it)
  | .ask g c id => some (.process g (cfg.key c id))
  | .register g c id => some (.on g (cfg.key c id))
  | .finish g it => some (.finish g it)
  | .op c id => some (.op (cfg.key c id))
  | .opPush c id h => some (.opPush (cfg.key c id) h)
  | .reply .. => none
  | .silent .. => none

theorem inner_step {cfg : Cfg} {s t : State} {l : Label} (h : Step cfg s l t) :
    (∃ l', inner cfg l = some l' ∧ AsyncHome.Step cfg.home s.home l' t.home) ∨ inner cfg l = none ∧ t.home = s.home := by
  cases h with
  | quiet _ h => exact .inl ⟨_, rfl, h⟩
  | arriveOld _ _ _ _ _ _ h => exact .inl ⟨_, rfl, h⟩
  | arriveNew _ h => exact .inl ⟨_, rfl, h⟩
  | take _ _ h => exact .inl ⟨_, rfl, h⟩
  | ask _ _ _ _ _ h => exact .inl ⟨_, rfl, h⟩
  | register _ _ _ _ _ h => exact .inl ⟨_, rfl, h⟩
  | finishMsg _ _ _ _ h => exact .inl ⟨_, rfl, h⟩
  | finishCall _ _ _ h => exact .inl ⟨_, rfl, h⟩
  | reply => exact .inr ⟨rfl, rfl⟩
  | silent => exact .inr ⟨rfl, rfl⟩
  | op _ _ _ _ h => exact .inl ⟨_, rfl, h⟩
  | opPush _ _ _ _ _ h => exact .inl ⟨_, rfl, h⟩

/-- What the workers, queues and results do is a run of `AsyncHome`. -/
theorem inner_steps {cfg : Cfg} {ls : List Label} {s : State} (h : Steps (Step cfg) (init cfg) ls s) :
    Steps (AsyncHome.Step cfg.home) (AsyncHome.init cfg.home) (ls.filterMap (inner cfg)) s.home := by
  refine h.invariant_trace (P := fun ls s => Steps (AsyncHome.Step cfg.home) (AsyncHome.init cfg.home) (ls.filterMap (inner cfg)) s.home) ?_ (.nil _)
  intro ls s l t hp hs
  rw [List.filterMap_append]
  rcases inner_step hs with ⟨l', h1, h2⟩ | ⟨h1, h2⟩
  · rw [List.filterMap_cons, h1, List.filterMap_nil]
    exact hp.snoc h2
  · rw [List.filterMap_cons, h1, List.filterMap_nil, List.append_nil, h2]
    exact hp

/-- Result `k` belongs to a message that has arrived. -/
def Used (cfg : Cfg) (s : State) (k : Nat) : Prop := ∃ c id, k = cfg.key c id ∧ id < s.next c

/-- Invariant: whatever is under way belongs to messages that have arrived. -/
structure LowInv (cfg : Cfg) (s : State) : Prop where
  queueMsg : ∀ g c id, .msg c id ∈ s.home.queue g → id < s.next c
  queueCall : ∀ g k, .call k ∈ s.home.queue g → Used cfg s k
  workMsg : ∀ g c id pc, s.home.worker g = .busy (.msg c id) pc → id < s.next c
  workCall : ∀ g k pc, s.home.worker g = .busy (.call k) pc → Used cfg s k
  pc : ∀ g it pc k, s.home.worker g = .busy it pc → pc.result = some k → Used cfg s k
  op : ∀ k, (s.home.res k).op ≠ .notStarted → Used cfg s k

theorem low_home {cfg : Cfg} {s : State} {h : AsyncHome.State} {l : AsyncHome.Label} (hi : LowInv cfg s) (hs : AsyncHome.Step cfg.home s.home l h)
    (ha : ∀ c id, l ≠ .arrive c id) (ho : ∀ c id, l ≠ .own c id) (hp : ∀ g k, l = .process g k → Used cfg s k) (hon : ∀ g k, l = .on g k → Used cfg s k) : LowInv cfg { s with home := h } := by
  obtain ⟨a, b, c, d, e, f⟩ := hi
  have hU : ∀ k, Used cfg { s with home := h } k ↔ Used cfg s k := fun _ => Iff.rfl
  have haf : ∀ it pc, AsyncHome.after cfg.home ≠ .busy it pc := by unfold AsyncHome.after; split <;> nofun
  refine ⟨?_, ?_, ?_, ?_, ?_, ?_⟩ <;> simp only [hU] <;> cases hs <;>
    simp only [AsyncHome.State.setRes, AsyncHome.State.setWorker, AsyncHome.State.push, upd] <;> grind [AsyncHome.HPc.result]

theorem low_more {cfg : Cfg} {s t : State} (hi : LowInv cfg s) (hh : t.home = s.home) (hn : ∀ c, s.next c ≤ t.next c) : LowInv cfg t := by
  have hU : ∀ k, Used cfg s k → Used cfg t k := fun k ⟨c, id, h1, h2⟩ => ⟨c, id, h1, Nat.lt_of_lt_of_le h2 (hn c)⟩
  refine ⟨?_, ?_, ?_, ?_, ?_, ?_⟩ <;> rw [hh]
  · exact fun g c id h => Nat.lt_of_lt_of_le (hi.queueMsg g c id h) (hn c)
  · exact fun g k h => hU k (hi.queueCall g k h)
  · exact fun g c id pc h => Nat.lt_of_lt_of_le (hi.workMsg g c id pc h) (hn c)
  · exact fun g k pc h => hU k (hi.workCall g k pc h)
  · exact fun g it pc k h h' => hU k (hi.pc g it pc k h h')
  · exact fun k h => hU k (hi.op k h)

theorem low_arrive {cfg : Cfg} {s t : State} {c : Nat} (hi : LowInv cfg s) (hs : AsyncHome.Step cfg.home s.home (.arrive c (s.next c)) t.home) (hn : t.next = upd s.next c (s.next c + 1)) : LowInv cfg t := by
  have hle : ∀ c', s.next c' ≤ t.next c' := by intro c'; rw [hn]; unfold upd; split <;> simp_all
  have hi' : LowInv cfg { t with home := s.home } := low_more hi rfl hle
  obtain ⟨a, b, c', d, e, f⟩ := hi'
  have hU : ∀ k, Used cfg { t with home := s.home } k ↔ Used cfg t k := fun _ => Iff.rfl
  have hlt : s.next c < t.next c := by rw [hn]; simp [upd]
  simp only [hU] at b d e f
  generalize ht : t.home = h at hs
  cases hs
  refine ⟨?_, ?_, ?_, ?_, ?_, ?_⟩ <;> rw [ht] <;> simp only [AsyncHome.State.push, upd] <;> grind

theorem low_inv {cfg : Cfg} {ls : List Label} {s : State} (h : Steps (Step cfg) (init cfg) ls s) : LowInv cfg s := by
  refine h.invariant (P := LowInv cfg) ?_ ?_
  · intro s l t hi hs
    cases hs with
    | quiet hq h =>
      refine low_home hi h ?_ ?_ ?_ ?_
      · intro _ _ he; subst he; cases hq
      · intro _ _ he; subst he; cases hq
      · intro _ _ he; subst he; cases hq
      · intro _ _ he; subst he; cases hq
    | arriveOld c o l1 l2 _ _ h => exact low_arrive (t := { s with home := _, pool := _, conn := _, next := _, obj := _ }) hi h rfl
    | arriveNew c h => exact low_arrive (t := { s with home := _, fresh := _, conn := _, next := _, obj := _ }) hi h rfl
    | take g it h => exact low_more (low_home hi h nofun nofun nofun nofun) rfl (fun _ => Nat.le_refl _)
    | ask g c id hw _ h =>
      refine low_more (low_home hi h nofun nofun (fun g' k he => ?_) nofun) rfl (fun _ => Nat.le_refl _)
      cases he
      exact ⟨c, id, rfl, hi.workMsg g c id _ hw⟩
    | register g c id hw _ h =>
      refine low_more (low_home hi h nofun nofun nofun (fun g' k he => ?_)) rfl (fun _ => Nat.le_refl _)
      cases he
      exact ⟨c, id, rfl, hi.workMsg g c id _ hw⟩
    | finishMsg g c id _ h => exact low_more (low_home hi h nofun nofun nofun nofun) rfl (fun _ => Nat.le_refl _)
    | finishCall g k _ h => exact low_home hi h nofun nofun nofun nofun
    | reply => exact low_more hi rfl (fun _ => Nat.le_refl _)
    | silent => exact low_more hi rfl (fun _ => Nat.le_refl _)
    | op c id rest _ h => exact low_more (low_home hi h nofun nofun nofun nofun) rfl (fun _ => Nat.le_refl _)
    | opPush c id g rest _ h => exact low_more (low_home hi h nofun nofun nofun nofun) rfl (fun _ => Nat.le_refl _)
  · refine ⟨?_, ?_, ?_, ?_, ?_, ?_⟩ <;> simp only [init, AsyncHome.init] <;> grind

/-- Without the pool, the request of a message that has arrived keeps its connection. -/
theorem obj_inv {cfg : Cfg} (hp : cfg.poolMode = false) {ls : List Label} {s : State} (h : Steps (Step cfg) (init cfg) ls s) :
    ∀ c id, id < s.next c → s.obj c id < s.fresh ∧ s.conn (s.obj c id) = c := by
  refine h.invariant (P := fun s => ∀ c id, id < s.next c → s.obj c id < s.fresh ∧ s.conn (s.obj c id) = c) ?_ (fun c id h => by simp [init] at h)
  intro s l t hi hs
  cases hs with
  | arriveOld _ _ _ _ h' => rw [hp] at h'; cases h'
  | arriveNew c h' =>
    intro c' id hid
    by_cases e1 : c' = c
    · subst e1
      by_cases e2 : id = s.next c'
      · subst e2
        simp [upd]
      · have hlt : id < s.next c' := by simp [upd] at hid; omega
        have h1 := hi c' id hlt
        simp only [upd, if_pos, if_neg e2]
        rw [if_neg (by omega)]
        exact ⟨by omega, h1.2⟩
    · simp only [upd, if_neg e1] at hid ⊢
      grind
  | _ => exact hi

/-- Invariant on request objects: those of messages that wait or are being handled are not in the pool, belong to one message only, and have its connection. -/
structure ObjInv (s : State) : Prop where
  pool : s.pool.Nodup ∧ ∀ o ∈ s.pool, o < s.fresh
  queue : ∀ g c id, .msg c id ∈ s.home.queue g → s.obj c id < s.fresh ∧ s.obj c id ∉ s.pool ∧ s.conn (s.obj c id) = c
  work : ∀ g c id pc, s.home.worker g = .busy (.msg c id) pc → s.obj c id < s.fresh ∧ s.obj c id ∉ s.pool ∧ s.conn (s.obj c id) = c
  nodup : ∀ g c id, (s.home.queue g).count (.msg c id) ≤ 1
  queues : ∀ g c id g' c' id', .msg c id ∈ s.home.queue g → .msg c' id' ∈ s.home.queue g' → s.obj c id = s.obj c' id' → g = g' ∧ c = c' ∧ id = id'
  apart : ∀ g c id g' c' id' pc, .msg c id ∈ s.home.queue g → s.home.worker g' = .busy (.msg c' id') pc → s.obj c id ≠ s.obj c' id'
  works : ∀ g c id pc g' c' id' pc', s.home.worker g = .busy (.msg c id) pc → s.home.worker g' = .busy (.msg c' id') pc' → s.obj c id = s.obj c' id' → g = g'

theorem ObjInv.same {s t : State} (hi : ObjInv s) (h1 : t.home = s.home) (h2 : t.fresh = s.fresh) (h3 : t.pool = s.pool) (h4 : t.conn = s.conn) (h5 : t.obj = s.obj) : ObjInv t := by
  obtain ⟨a, b, c, d, e, f, k⟩ := hi
  constructor <;> simp only [h1, h2, h3, h4, h5] <;> assumption

set_option maxHeartbeats 1000000 in
theorem objs_home {cfg : Cfg} {s : State} {h : AsyncHome.State} {l : AsyncHome.Label} (hi : ObjInv s) (hs : AsyncHome.Step cfg.home s.home l h)
    (ha : ∀ c id, l ≠ .arrive c id) (ho : ∀ c id, l ≠ .own c id) : ObjInv { s with home := h } := by
  obtain ⟨a, b, c, d, e, f, k⟩ := hi
  have haf : ∀ it pc, AsyncHome.after cfg.home ≠ .busy it pc := by unfold AsyncHome.after; split <;> nofun
  cases hs with
  | take g it rest h1 h2 =>
    have d1 : ∀ c id, rest.count (.msg c id) ≤ 1 := fun c id => by
      have := d g c id
      rw [h2, List.count_cons] at this
      omega
    have d2 : ∀ c id, it = .msg c id → .msg c id ∉ rest := fun c id he hm => by
      have := d g c id
      rw [h2, List.count_cons, he, if_pos (by simp)] at this
      have := List.count_pos_iff.mpr hm
      omega
    refine ⟨a, ?_, ?_, ?_, ?_, ?_, ?_⟩ <;> simp only [upd]
    · grind
    · grind
    · intro g' c' id'
      split
      · exact d1 c' id'
      · exact d g' c' id'
    · grind
    · grind
    · grind
  | arrive => exact absurd rfl (ha _ _)
  | own => exact absurd rfl (ho _ _)
  | _ =>
    refine ⟨a, ?_, ?_, ?_, ?_, ?_, ?_⟩ <;> simp only [AsyncHome.State.setRes, AsyncHome.State.setWorker, AsyncHome.State.push, upd] <;> grind

/-- A message that has just arrived, in an object that nobody has. -/
theorem objs_arrive {cfg : Cfg} {s : State} {h : AsyncHome.State} {c o f : Nat} {p : List Nat} (hl : LowInv cfg s) (hi : ObjInv s) (hs : AsyncHome.Step cfg.home s.home (.arrive c (s.next c)) h)
    (hf : s.fresh ≤ f ∧ o < f) (hp : p.Nodup ∧ o ∉ p ∧ ∀ o' ∈ p, o' ∈ s.pool) (ho : o ∈ s.pool ∨ o = s.fresh) :
    ObjInv { s with home := h, fresh := f, pool := p, conn := upd s.conn o c, next := upd s.next c (s.next c + 1), obj := upd s.obj c (upd (s.obj c) (s.next c) o) } := by
  obtain ⟨a, b, c1, d, e, f1, k⟩ := hi
  have q := hl.queueMsg
  have w := hl.workMsg
  have hobj : ∀ c' id, id < s.next c' → upd s.obj c (upd (s.obj c) (s.next c) o) c' id = s.obj c' id := by
    intro c' id hid
    by_cases e1 : c' = c
    · subst e1
      simp [upd, Nat.ne_of_lt hid]
    · simp [upd, e1]
  have hnew : upd s.obj c (upd (s.obj c) (s.next c) o) c (s.next c) = o := by simp [upd]
  generalize upd s.obj c (upd (s.obj c) (s.next c) o) = ob at hobj hnew
  have hz : ∀ g, (s.home.queue g).count (.msg c (s.next c)) = 0 := fun g => List.count_eq_zero.mpr fun hm => Nat.lt_irrefl _ (q g c _ hm)
  have ne : ∀ c' id, s.obj c' id < s.fresh → s.obj c' id ∉ s.pool → s.obj c' id ≠ o := by grind
  have qm : ∀ g c' id, .msg c' id ∈ s.home.queue g → ob c' id = s.obj c' id ∧ s.obj c' id ≠ o := fun g c' id hm => ⟨hobj c' id (q g c' id hm), ne c' id (b g c' id hm).1 (b g c' id hm).2.1⟩
  have wm : ∀ g c' id pc, s.home.worker g = .busy (.msg c' id) pc → ob c' id = s.obj c' id ∧ s.obj c' id ≠ o :=
    fun g c' id pc hm => ⟨hobj c' id (w g c' id pc hm), ne c' id (c1 g c' id pc hm).1 (c1 g c' id pc hm).2.1⟩
  cases hs with
  | arrive _ _ w' g' h1 h2 h3 h4 =>
    refine ⟨⟨hp.1, by grind⟩, ?_, ?_, ?_, ?_, ?_, ?_⟩ <;> simp only [AsyncHome.State.push, upd]
    · grind
    · grind
    · intro g c' id
      split
      · rename_i eg
        subst eg
        rw [List.count_append, List.count_singleton]
        split
        · rename_i he
          have he := eq_of_beq he
          cases he
          have := hz g
          omega
        · exact d g c' id
      · exact d g c' id
    · grind
    · grind
    · grind

theorem objs_inv {cfg : Cfg} {ls : List Label} {s : State} (h : Steps (Step cfg) (init cfg) ls s) : ObjInv s := by
  have h' : ObjInv s := by
    have h0 : ObjInv (init cfg) := by
      refine ⟨⟨List.nodup_nil, nofun⟩, ?_, ?_, ?_, ?_, ?_, ?_⟩ <;> simp only [init, AsyncHome.init] <;> grind
    refine (h.invariant_trace (P := fun ls s => Steps (Step cfg) (init cfg) ls s ∧ ObjInv s) ?_ ⟨.nil _, h0⟩).2
    rintro ls s l t ⟨hr, hi⟩ hs
    refine ⟨hr.snoc hs, ?_⟩
    cases hs with
    | quiet hq h =>
      refine objs_home hi h ?_ ?_ <;> (intro _ _ he; subst he; cases hq)
    | arriveOld c o l1 l2 _ hp h =>
      have hnd := hi.pool.1
      rw [hp] at hnd
      have hfr := hi.pool.2 o (by rw [hp]; simp)
      refine objs_arrive (low_inv hr) hi h ⟨Nat.le_refl _, hfr⟩ ⟨?_, ?_, ?_⟩ (.inl (by rw [hp]; simp)) <;> grind
    | arriveNew c h =>
      have hfr := hi.pool.2
      exact objs_arrive (low_inv hr) hi h ⟨Nat.le_succ _, Nat.lt_succ_self _⟩ ⟨hi.pool.1, fun hm => Nat.lt_irrefl _ (hfr _ hm), fun _ h => h⟩ (.inr rfl)
    | take g it h => exact (objs_home hi h nofun nofun).same rfl rfl rfl rfl rfl
    | ask g c id _ _ h => exact (objs_home hi h nofun nofun).same rfl rfl rfl rfl rfl
    | register g c id _ _ h => exact (objs_home hi h nofun nofun).same rfl rfl rfl rfl rfl
    | finishMsg g c id _ h =>
      have hw : s.home.worker g = .busy (.msg c id) .code := by cases h; assumption
      have haf : ∀ it pc, AsyncHome.after cfg.home ≠ .busy it pc := by unfold AsyncHome.after; split <;> nofun
      obtain ⟨a, b, c1, d, e, f1, k⟩ := hi
      have w0 := c1 g c id _ hw
      cases h
      refine ⟨?_, ?_, ?_, ?_, ?_, ?_, ?_⟩ <;> simp only [AsyncHome.State.setWorker, upd] <;> grind
    | finishCall g k _ h => exact objs_home hi h nofun nofun
    | reply => exact hi.same rfl rfl rfl rfl rfl
    | silent => exact hi.same rfl rfl rfl rfl rfl
    | op c id rest _ h => exact (objs_home hi h nofun nofun).same rfl rfl rfl rfl rfl
    | opPush c id g rest _ h => exact (objs_home hi h nofun nofun).same rfl rfl rfl rfl rfl
  exact h'

end Zinx.Login
