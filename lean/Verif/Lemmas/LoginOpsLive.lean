import Verif.Lemmas.LoginFair

/-! # The operations of the login example end in fair executions, for C149 -/

namespace Zinx.Login

open Zinx.AsyncHome (Item HPc SPc upd)
open Zinx.Props (FixedPool HomeInv home_step home_init WorkerFair HomeFair Jam leads_on leads_later exec_room op_step)

/-- How far an operation has come. -/
def rank : SPc → Nat
  | .notStarted => 0
  | .queued => 1
  | .running => 2
  | .won => 3
  | .stored => 4
  | .fire => 5
  | .send _ => 6
  | .done => 7

theorem rank_step {cfg : AsyncHome.Cfg} {s t : AsyncHome.State} {k : Nat} (hs : AsyncHome.Step cfg s (.op k) t) : rank (s.res k).op < rank (t.res k).op := by
  cases hs with
  | opRead _ h => simp only [AsyncHome.State.setRes, upd, if_pos]; rw [h]; split <;> decide
  | opFire _ h _ => simp only [AsyncHome.State.setRes, upd, if_pos]; rw [h]; split <;> simp [rank]
  | opBegin _ h => simp only [AsyncHome.State.setRes, upd, if_pos]; rw [h]; decide
  | opWin _ h => simp only [AsyncHome.State.setRes, upd, if_pos]; rw [h]; decide
  | opStore _ h => simp only [AsyncHome.State.setRes, upd, if_pos]; rw [h]; decide
  | opLose _ h _ => simp only [AsyncHome.State.setRes, upd, if_pos]; rw [h]; decide
  | opPanic _ _ h _ => simp only [AsyncHome.State.setRes, upd, if_pos]; rw [h]; simp [rank]

theorem op_enabled {cfg : AsyncHome.Cfg} {s : AsyncHome.State} {k : Nat} (h1 : (s.res k).op ≠ .notStarted) (h2 : (s.res k).op ≠ .done) (h3 : ∀ h, (s.res k).op ≠ .send h) : ∃ t, AsyncHome.Step cfg s (.op k) t := by
  cases h : (s.res k).op with
  | notStarted => exact absurd h h1
  | queued => exact ⟨_, .opBegin k h⟩
  | running => exact ⟨_, .opWin k h⟩
  | won => exact ⟨_, .opStore k h⟩
  | stored => exact ⟨_, .opRead k h⟩
  | fire =>
    cases hc : (s.res k).called with
    | true => exact ⟨_, .opLose k h hc⟩
    | false => exact ⟨_, .opFire k h hc⟩
  | send x => exact absurd h (h3 x)
  | done => exact absurd h h2

/-- What a step does to the queue of the asynchronous worker and to the operation at its front. -/
theorem queue_view {cfg : Cfg} {s t : State} {l : Label} (hs : Step cfg s l t) (ho : OpsInv cfg s) {k : Nat} {rest : List Nat} (h0 : s.ops = k :: rest) :
    ((∀ c id, l ≠ .op c id) ∧ (∀ c id h, l ≠ .opPush c id h) ∧ (∃ more, t.ops = k :: (rest ++ more)) ∧ (t.home.res k).op = (s.home.res k).op) ∨
    (∃ c id, l = .op c id ∧ k = cfg.key c id ∧ (t.ops = rest ∨ t.ops = k :: rest ∧ rank (s.home.res k).op < rank (t.home.res k).op)) ∨
    (∃ c id h, l = .opPush c id h ∧ k = cfg.key c id ∧ t.ops = rest) := by
  have same : (∀ c id, l ≠ .op c id) → (∀ c id h, l ≠ .opPush c id h) → t.ops = s.ops → (∀ k, (t.home.res k).op = (s.home.res k).op) →
      (∀ c id, l ≠ .op c id) ∧ (∀ c id h, l ≠ .opPush c id h) ∧ (∃ more, t.ops = k :: (rest ++ more)) ∧ (t.home.res k).op = (s.home.res k).op :=
    fun h1 h2 h3 h4 => ⟨h1, h2, ⟨[], by rw [h3, h0, List.append_nil]⟩, h4 k⟩
  cases hs with
  | quiet hq h =>
    rename_i l' _
    refine .inl (same nofun nofun rfl ?_)
    have hv := opView_step h
    cases l' <;> first | exact hv | cases hq
  | arriveOld c' o l1 l2 _ _ h => exact .inl (same nofun nofun rfl (opView_step h))
  | arriveNew c' h => exact .inl (same nofun nofun rfl (opView_step h))
  | take g it h => exact .inl (same nofun nofun rfl (opView_step h))
  | register g c' id hw h0 h => exact .inl (same nofun nofun rfl (opView_step h))
  | finishMsg g c' id h0 h => exact .inl (same nofun nofun rfl (opView_step h))
  | finishCall g k h0 h => exact .inl (same nofun nofun rfl (opView_step h))
  | reply g c' id hw h0 h1 => exact .inl (same nofun nofun rfl (fun _ => rfl))
  | silent g c' id hw h0 h1 => exact .inl (same nofun nofun rfl (fun _ => rfl))
  | ask g c' id hw hst h =>
    obtain ⟨v1, v2, v3⟩ := opView_step h
    refine .inl ⟨nofun, nofun, ⟨[cfg.key c' id], by rw [h0]; rfl⟩, ?_⟩
    refine v3 k fun e => ?_
    have := (ho.mem k (by rw [h0]; simp)).1
    rw [e] at this
    exact this v1
  | op c' id rest' h1 h =>
    rw [h1] at h0
    obtain ⟨rfl, rfl⟩ := List.cons.inj h0
    refine .inr (.inl ⟨c', id, rfl, rfl, ?_⟩)
    dsimp only
    rw [h1]
    split
    · exact .inl rfl
    · exact .inr ⟨rfl, rank_step h⟩
  | opPush c' id g' rest' h1 h =>
    rw [h1] at h0
    obtain ⟨rfl, rfl⟩ := List.cons.inj h0
    exact .inr (.inr ⟨c', id, g', rfl, rfl, rfl⟩)

section
variable {cfg : Cfg} (hk : Keyed cfg) (hd : FixedPool cfg.home) (e : Exec (Step cfg)) (h0 : e.run 0 = init cfg)
include hk hd h0

theorem live_ops (n : Nat) : OpsInv cfg (e.run n) := (ops_inv hk hd (live_reach e h0 n) 0).1

/-- An operation under way is in the queue. -/
theorem live_mem {n k : Nat} (h1 : ((e.run n).home.res k).op ≠ .notStarted) (h2 : ((e.run n).home.res k).op ≠ .done) : k ∈ (e.run n).ops := by
  have hr := live_reach e h0 n
  obtain ⟨c, id, he, _⟩ := (low_inv hr).op k h1
  subst he
  obtain ⟨_, d, hq⟩ := ops_inv hk hd hr c
  have h3 := (hq.started id).mp h1
  have h4 : d ≤ id := Nat.le_of_not_lt fun h => h2 ((hq.done id).mpr h)
  have hm : cfg.key c id ∈ (e.run n).ops.filter (fun k => cfg.home.conn k = c) := by
    rw [hq.list]
    exact List.mem_map_of_mem (List.mem_range'_1.mpr ⟨h4, by omega⟩)
  exact (List.mem_filter.mp hm).1

/-- One that is not waiting for its turn is the first. -/
theorem live_first {n k : Nat} (h1 : ((e.run n).home.res k).op ≠ .notStarted) (h2 : ((e.run n).home.res k).op ≠ .done) (h3 : ((e.run n).home.res k).op ≠ .queued) : ∃ rest, (e.run n).ops = k :: rest := by
  have hm := live_mem hk hd e h0 h1 h2
  have ht := (live_ops hk hd e h0 n).tail
  cases hops : (e.run n).ops with
  | nil => rw [hops] at hm; cases hm
  | cons x xs =>
    rw [hops] at hm ht
    rcases List.mem_cons.mp hm with rfl | hx
    · exact ⟨xs, rfl⟩
    · exact absurd (ht k hx) h3

/-- The first operation makes progress, unless it is at the send. -/
theorem live_head_op (hf : LoginFair e) {n k : Nat} {rest : List Nat} (hops : (e.run n).ops = k :: rest) (hs : ∀ h, ((e.run n).home.res k).op ≠ .send h) :
    ∃ m, n ≤ m ∧ ((∃ more, (e.run m).ops = rest ++ more) ∨ (∃ more, (e.run m).ops = k :: (rest ++ more)) ∧ rank ((e.run n).home.res k).op < rank ((e.run m).home.res k).op) := by
  refine leads_on e hf.op (P := fun s => (∃ more, s.ops = k :: (rest ++ more)) ∧ (s.home.res k).op = ((e.run n).home.res k).op)
    (Q := fun m => (∃ more, (e.run m).ops = rest ++ more) ∨ (∃ more, (e.run m).ops = k :: (rest ++ more)) ∧ rank ((e.run n).home.res k).op < rank ((e.run m).home.res k).op) ?_ ?_
    ⟨⟨[], by rw [hops, List.append_nil]⟩, rfl⟩
  · rintro m l _ _ hstep ⟨⟨more, h1⟩, h2⟩
    rcases queue_view hstep (live_ops hk hd e h0 m) h1 with ⟨h3, _, ⟨more', h4⟩, h5⟩ | ⟨c, id, _, _, h4⟩ | ⟨c, id, h, _, _, h4⟩
    · exact .inl ⟨fun ⟨c, id, h⟩ => h3 c id h, ⟨more ++ more', by rw [h4, List.append_assoc]⟩, by rw [h5]; exact h2⟩
    · rcases h4 with h4 | ⟨h4, h5⟩
      · exact .inr (.inl ⟨more, h4⟩)
      · rw [h2] at h5
        exact .inr (.inr ⟨⟨more, h4⟩, h5⟩)
    · exact .inr (.inl ⟨more, h4⟩)
  · rintro m _ ⟨⟨more, h1⟩, h2⟩
    have ho := live_ops hk hd e h0 m
    have hm : k ∈ (e.run m).ops := by rw [h1]; simp
    obtain ⟨h3, h4⟩ := ho.mem k hm
    obtain ⟨c, id, he⟩ := ho.keys k hm
    subst he
    obtain ⟨t, ht⟩ := op_enabled (cfg := cfg.home) h3 h4 (fun h => by rw [h2]; exact hs h)
    exact ⟨_, _, ⟨c, id, rfl⟩, .op c id _ h1 ht⟩

/-- At the send it waits until the worker has room. -/
theorem live_head_send (hf : LoginFair e) (hj : ∀ m g, ¬ Jam cfg.home (e.run m).home g) {n k : Nat} {rest : List Nat} (hops : (e.run n).ops = k :: rest) {h : Option Nat} (hs : ((e.run n).home.res k).op = .send h) :
    ∃ m, n ≤ m ∧ ∃ more, (e.run m).ops = rest ++ more := by
  apply Classical.byContradiction
  intro hno
  have hP : ∀ m, n ≤ m → (∃ more, (e.run m).ops = k :: (rest ++ more)) ∧ ((e.run m).home.res k).op = .send h := by
    intro m hm
    induction m with
    | zero =>
      have : n = 0 := by omega
      rw [← this]; exact ⟨⟨[], by rw [hops, List.append_nil]⟩, hs⟩
    | succ m ih =>
      by_cases e1 : n = m + 1
      · rw [← e1]; exact ⟨⟨[], by rw [hops, List.append_nil]⟩, hs⟩
      · obtain ⟨⟨more, h1⟩, h2⟩ := ih (by omega)
        have hstep := e.next m
        cases ha : e.act m with
        | none => rw [ha] at hstep; rw [hstep]; exact ⟨⟨more, h1⟩, h2⟩
        | some l =>
          rw [ha] at hstep
          have hstep : Step cfg (e.run m) l (e.run (m + 1)) := hstep
          rcases queue_view hstep (live_ops hk hd e h0 m) h1 with ⟨_, _, ⟨more', h4⟩, h5⟩ | ⟨c, id, hl, hkey, h4⟩ | ⟨c, id, x, _, _, h4⟩
          · exact ⟨⟨more ++ more', by rw [h4, List.append_assoc]⟩, by rw [h5]; exact h2⟩
          · exfalso
            rcases h4 with h4 | ⟨h4, h5⟩
            · exact hno ⟨m + 1, by omega, more, h4⟩
            · have hh := home_inv hd (live_reach e h0 m)
              rcases inner_step hstep with ⟨l', h6, h7⟩ | ⟨h6, _⟩
              · subst hl
                cases h6
                have h8 := op_step h7 hh k
                rw [h2] at h8 h5
                simp only [reduceCtorEq, false_and, and_false, or_false, exists_const] at h8
                exact h8.2.1 (by rw [hkey])
              · subst hl; cases h6
          · exact absurd ⟨m + 1, by omega, more, h4⟩ hno
  obtain ⟨g, hg, _, rfl⟩ := (home_inv hd (live_reach e h0 n)).opTo k h hs
  obtain ⟨c, id, he⟩ := (live_ops hk hd e h0 n).keys k (by rw [hops]; simp)
  subst he
  obtain ⟨m, l, hm, ha, c', id', x, hl⟩ := hf.opPush n (fun m hm => by
    obtain ⟨j, hjm, hroom⟩ := exec_room hd (homeExec e) (by show (e.run 0).home = _; rw [h0]; rfl) (live_workers hk hd e h0 hf) (n := m) hg (fun m _ => hj m g)
    obtain ⟨⟨more, h1⟩, h2⟩ := hP j (by omega)
    exact ⟨j, hjm, _, _, ⟨c, id, g, rfl⟩, .opPush c id g _ h1 (.opSend _ g h2 ((home_inv hd (live_reach e h0 j)).closed g) hroom)⟩)
  obtain ⟨⟨more, h1⟩, h2⟩ := hP m hm
  have hstep := e.next m
  rw [ha] at hstep
  have hstep : Step cfg (e.run m) l (e.run (m + 1)) := hstep
  rcases queue_view hstep (live_ops hk hd e h0 m) h1 with ⟨_, h3, _⟩ | ⟨c2, id2, h3, _⟩ | ⟨_, _, _, _, _, h4⟩
  · exact h3 _ _ _ hl
  · rw [hl] at h3; cases h3
  · exact hno ⟨m + 1, by omega, more, h4⟩

/-- The first operation ends. -/
theorem live_head (hf : LoginFair e) (hj : ∀ m g, ¬ Jam cfg.home (e.run m).home g) : ∀ b n k rest, (e.run n).ops = k :: rest → 7 ≤ b + rank ((e.run n).home.res k).op → ∃ m, n ≤ m ∧ ∃ more, (e.run m).ops = rest ++ more := by
  intro b
  induction b with
  | zero =>
    intro n k rest hops hb
    have := ((live_ops hk hd e h0 n).mem k (by rw [hops]; simp)).2
    cases hx : ((e.run n).home.res k).op <;> rw [hx] at hb this <;> simp [rank] at hb
    exact absurd rfl this
  | succ b ih =>
    intro n k rest hops hb
    by_cases hs : ∃ h, ((e.run n).home.res k).op = .send h
    · obtain ⟨h, hs⟩ := hs
      exact live_head_send hk hd e h0 hf hj hops hs
    · obtain ⟨m, hm, h | ⟨⟨more, h1⟩, h2⟩⟩ := live_head_op hk hd e h0 hf hops (fun h he => hs ⟨h, he⟩)
      · exact ⟨m, hm, h⟩
      · obtain ⟨m', hm', more', h3⟩ := ih m k (rest ++ more) h1 (by omega)
        exact ⟨m', by omega, more ++ more', by rw [h3, List.append_assoc]⟩

/-- Every operation gets its turn. -/
theorem live_turn (hf : LoginFair e) (hj : ∀ m g, ¬ Jam cfg.home (e.run m).home g) (k : Nat) : ∀ b n pre post, (e.run n).ops = pre ++ k :: post → pre.length ≤ b → ∃ m, n ≤ m ∧ ∃ rest, (e.run m).ops = k :: rest := by
  intro b
  induction b with
  | zero =>
    intro n pre post h1 h2
    cases pre with
    | nil => exact ⟨n, Nat.le_refl _, post, h1⟩
    | cons x xs => simp at h2
  | succ b ih =>
    intro n pre post h1 h2
    cases pre with
    | nil => exact ⟨n, Nat.le_refl _, post, h1⟩
    | cons x xs =>
      obtain ⟨m, hm, more, h3⟩ := live_head hk hd e h0 hf hj 7 n x (xs ++ k :: post) h1 (by omega)
      obtain ⟨m', hm', h4⟩ := ih m xs (post ++ more) (by rw [h3, List.append_assoc]; rfl) (by simp at h2; omega)
      exact ⟨m', by omega, h4⟩

theorem live_fair (hf : LoginFair e) (hj : ∀ m g, ¬ Jam cfg.home (e.run m).home g) : HomeFair (homeExec e) where
  toWorkerFair := live_workers hk hd e h0 hf
  op k := by
    intro n hn
    have hact : ∀ m, n ≤ m → ((e.run m).home.res k).op ≠ .notStarted ∧ ((e.run m).home.res k).op ≠ .done := by
      intro m hm
      obtain ⟨l, t, rfl, hs⟩ := hn m hm
      obtain ⟨h1, h2, _⟩ := opView_step hs
      exact ⟨h1, h2⟩
    obtain ⟨pre, post, hops⟩ := List.append_of_mem (live_mem hk hd e h0 (hact n (Nat.le_refl _)).1 (hact n (Nat.le_refl _)).2)
    obtain ⟨n1, hn1, rest, hops1⟩ := live_turn hk hd e h0 hf hj k pre.length n pre post hops (Nat.le_refl _)
    obtain ⟨m, hm, j, hj1, hj2⟩ := leads_on e hf.op (P := fun s => ∃ rest, s.ops = k :: rest) (Q := fun _ => ∃ j, n ≤ j ∧ (homeExec e).act j = some (.op k)) (n := n1)
      (by
        rintro m l hm ha hs ⟨rest, h1⟩
        rcases queue_view hs (live_ops hk hd e h0 m) h1 with ⟨h3, _, ⟨more, h4⟩, _⟩ | ⟨c, id, hl, hkey, _⟩ | ⟨c, id, x, hl, hkey, _⟩
        · exact .inl ⟨fun ⟨c, id, h⟩ => h3 c id h, _, h4⟩
        · refine .inr ⟨m, by omega, ?_⟩
          show (e.act m).bind (inner cfg) = _
          rw [ha, hl, hkey]; rfl
        · exfalso
          refine (hact (m + 1) (by omega)).2 ?_
          rcases inner_step hs with ⟨l', h6, h7⟩ | ⟨h6, _⟩
          · subst hl
            cases h6
            rw [hkey]
            exact (opView_step h7).2.1
          · subst hl; cases h6)
      (by
        rintro m hm ⟨rest, h1⟩
        obtain ⟨l, t, rfl, hs⟩ := hn m (by omega)
        obtain ⟨c, id, he⟩ := (live_ops hk hd e h0 m).keys k (by rw [h1]; simp)
        subst he
        exact ⟨_, _, ⟨c, id, rfl⟩, .op c id rest h1 hs⟩)
      ⟨rest, hops1⟩
    exact ⟨j, _, hj1, hj2, rfl⟩
  opPush k := by
    intro n hn
    apply Classical.byContradiction
    intro hno
    obtain ⟨n1, hn1, l, t, ⟨g, rfl⟩, hs⟩ := hn n (Nat.le_refl _)
    obtain ⟨⟨x, hx⟩, _, _⟩ := opView_step hs
    have hx : ((e.run n1).home.res k).op = .send x := hx
    have hstay : ∀ m, n1 ≤ m → ((e.run m).home.res k).op = .send x := by
      intro m hm
      induction m with
      | zero =>
        have : n1 = 0 := by omega
        rw [← this]; exact hx
      | succ m ih =>
        by_cases e1 : n1 = m + 1
        · rw [← e1]; exact hx
        · have hp := ih (by omega)
          have hstep := (homeExec e).next m
          cases ha : (homeExec e).act m with
          | none => rw [ha] at hstep; have hstep : (e.run (m + 1)).home = (e.run m).home := hstep; rw [hstep]; exact hp
          | some l =>
            rw [ha] at hstep
            have hstep : AsyncHome.Step cfg.home (e.run m).home l (e.run (m + 1)).home := hstep
            rcases op_step hstep (home_inv hd (live_reach e h0 m)) k with ⟨h1, _⟩ | h1 | ⟨_, h1, _⟩ | ⟨_, h1, _⟩ | ⟨_, h1, _⟩ | ⟨_, h1, _⟩ | ⟨_, h1, _⟩ | ⟨h, hl, _⟩
            · rw [h1]; exact hp
            · rw [hp] at h1; cases h1
            · rw [hp] at h1; cases h1
            · rw [hp] at h1; cases h1
            · rw [hp] at h1; cases h1
            · rw [hp] at h1; cases h1
            · rw [hp] at h1; cases h1
            · exact absurd ⟨m, l, by omega, ha, h, hl⟩ hno
    have hfirst : ∀ m, n1 ≤ m → ∃ rest, (e.run m).ops = k :: rest := by
      intro m hm
      have hp := hstay m hm
      exact live_first hk hd e h0 (by rw [hp]; nofun) (by rw [hp]; nofun) (by rw [hp]; nofun)
    obtain ⟨m, l, hm, ha, c, id, h, hl⟩ := hf.opPush n1 (fun m hm => by
      obtain ⟨j, hjm, l, t, ⟨h, rfl⟩, hs⟩ := hn m (by omega)
      obtain ⟨rest, h1⟩ := hfirst j (by omega)
      obtain ⟨c, id, he⟩ := (live_ops hk hd e h0 j).keys k (by rw [h1]; simp)
      subst he
      exact ⟨j, hjm, _, _, ⟨c, id, h, rfl⟩, .opPush c id h rest h1 hs⟩)
    obtain ⟨rest, h1⟩ := hfirst m hm
    have hstep := e.next m
    rw [ha] at hstep
    have hstep : Step cfg (e.run m) l (e.run (m + 1)) := hstep
    rcases queue_view hstep (live_ops hk hd e h0 m) h1 with ⟨_, h3, _⟩ | ⟨c2, id2, h3, _⟩ | ⟨c2, id2, x2, h3, hkey, _⟩
    · exact h3 _ _ _ hl
    · rw [hl] at h3; cases h3
    · refine hno ⟨m, .opPush k x2, by omega, ?_, x2, rfl⟩
      show (e.act m).bind (inner cfg) = _
      rw [ha, h3, hkey]; rfl

end

end Zinx.Login
