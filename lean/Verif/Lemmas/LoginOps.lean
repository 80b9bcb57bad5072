import Verif.Lemmas.LoginMsgs

/-! # Operations of a connection end in the order in which they were started, for C149 -/

namespace Zinx.Login

open Zinx.AsyncHome (Item HPc SPc upd)
open Zinx.Props (FixedPool HomeInv target_home home_step home_init At DutyInv duty_step OnceInv once_inv isPush mono_step)

/-- What a step does to the operations. -/
def OpView (s : AsyncHome.State) (l : AsyncHome.Label) (t : AsyncHome.State) : Prop :=
  match l with
  | .process _ k => (s.res k).op = .notStarted ∧ (t.res k).op = .queued ∧ ∀ k', k' ≠ k → (t.res k').op = (s.res k').op
  | .op k => (s.res k).op ≠ .notStarted ∧ (s.res k).op ≠ .done ∧ (t.res k).op ≠ .notStarted ∧ (t.res k).op ≠ .queued ∧ ∀ k', k' ≠ k → (t.res k').op = (s.res k').op
  | .opPush k _ => (∃ h, (s.res k).op = .send h) ∧ (t.res k).op = .done ∧ ∀ k', k' ≠ k → (t.res k').op = (s.res k').op
  | _ => ∀ k, (t.res k).op = (s.res k).op

theorem opView_step {cfg : AsyncHome.Cfg} {s t : AsyncHome.State} {l : AsyncHome.Label} (hs : AsyncHome.Step cfg s l t) : OpView s l t := by
  cases hs <;> simp only [OpView, AsyncHome.State.setRes, AsyncHome.State.setWorker, AsyncHome.State.push, upd] <;> grind

structure OpsInv (cfg : Cfg) (s : State) : Prop where
  nodup : s.ops.Nodup
  mem : ∀ k ∈ s.ops, (s.home.res k).op ≠ .notStarted ∧ (s.home.res k).op ≠ .done
  tail : ∀ k ∈ s.ops.tail, (s.home.res k).op = .queued
  keys : ∀ k ∈ s.ops, ∃ c id, k = cfg.key c id

/-- The operations of connection `c` from number `d` to number `a` are under way, those before have ended. -/
structure SeqInv (cfg : Cfg) (c : Nat) (s : State) (d a : Nat) : Prop where
  le : d ≤ a
  list : s.ops.filter (fun k => cfg.home.conn k = c) = (List.range' d (a - d)).map (cfg.key c)
  done : ∀ id, (s.home.res (cfg.key c id)).op = .done ↔ id < d
  started : ∀ id, (s.home.res (cfg.key c id)).op ≠ .notStarted ↔ id < a

theorem ops_same {cfg : Cfg} {s t : State} (hi : OpsInv cfg s) (h1 : t.ops = s.ops) (h2 : ∀ k, (t.home.res k).op = (s.home.res k).op) : OpsInv cfg t := by
  refine ⟨?_, ?_, ?_, ?_⟩ <;> simp only [h1, h2]
  · exact hi.nodup
  · exact hi.mem
  · exact hi.tail
  · exact hi.keys

theorem seq_same {cfg : Cfg} {c d a : Nat} {s t : State} (hi : SeqInv cfg c s d a) (h1 : t.ops = s.ops) (h2 : ∀ k, (t.home.res k).op = (s.home.res k).op) : SeqInv cfg c t d a := by
  refine ⟨hi.le, ?_, ?_, ?_⟩ <;> simp only [h1, h2]
  · exact hi.list
  · exact hi.done
  · exact hi.started

/-- The first operation goes on, or ends. -/
theorem ops_head {cfg : Cfg} {s t : State} {k : Nat} {rest : List Nat} (hi : OpsInv cfg s) (h0 : s.ops = k :: rest) (h1 : t.ops = if (t.home.res k).op = .done then rest else s.ops)
    (h2 : (t.home.res k).op ≠ .notStarted) (h4 : ∀ k', k' ≠ k → (t.home.res k').op = (s.home.res k').op) : OpsInv cfg t := by
  obtain ⟨a, b, c, d⟩ := hi
  rw [h0] at a b c d
  have hk : k ∉ rest := (List.nodup_cons.mp a).1
  have hr : ∀ k' ∈ rest, (t.home.res k').op = (s.home.res k').op := fun k' hm => h4 k' fun e => hk (e ▸ hm)
  by_cases e : (t.home.res k).op = .done
  · rw [if_pos e] at h1
    constructor <;> rw [h1]
    · exact (List.nodup_cons.mp a).2
    · intro k' hm; rw [hr k' hm]; exact b k' (List.mem_cons_of_mem _ hm)
    · intro k' hm
      have hm' := List.mem_of_mem_tail hm
      rw [hr k' hm']; exact c k' hm'
    · exact fun k' hm => d k' (List.mem_cons_of_mem _ hm)
  · rw [if_neg e, h0] at h1
    constructor <;> rw [h1]
    · exact a
    · intro k' hm
      rcases List.mem_cons.mp hm with rfl | hm'
      · exact ⟨h2, e⟩
      · rw [hr k' hm']; exact b k' hm
    · intro k' hm; rw [hr k' hm]; exact c k' hm
    · exact d

theorem seq_head {cfg : Cfg} (hk : Keyed cfg) {c d a c' id : Nat} {s t : State} {rest : List Nat} (hi : SeqInv cfg c s d a) (h0 : s.ops = cfg.key c' id :: rest)
    (h1 : t.ops = if (t.home.res (cfg.key c' id)).op = .done then rest else s.ops) (h2 : (t.home.res (cfg.key c' id)).op ≠ .notStarted) (hs2 : (s.home.res (cfg.key c' id)).op ≠ .notStarted)
    (hs3 : (s.home.res (cfg.key c' id)).op ≠ .done)
    (h4 : ∀ k', k' ≠ cfg.key c' id → (t.home.res k').op = (s.home.res k').op) : ∃ d', SeqInv cfg c t d' a := by
  obtain ⟨hle, hl, hdone, hst⟩ := hi
  by_cases ec : c' = c
  · subst ec
    have hne : ∀ id', id' ≠ id → (t.home.res (cfg.key c' id')).op = (s.home.res (cfg.key c' id')).op := fun id' h => h4 _ fun e => h (hk.inj _ _ _ _ e).2
    have hst' : ∀ id', (t.home.res (cfg.key c' id')).op ≠ .notStarted ↔ id' < a := by
      intro id'
      by_cases e : id' = id
      · subst e; exact ⟨fun _ => (hst id').mp hs2, fun _ => h2⟩
      · rw [hne id' e]; exact hst id'
    by_cases e : (t.home.res (cfg.key c' id)).op = .done
    · rw [if_pos e] at h1
      rw [h0, List.filter_cons, if_pos (by simp [hk.conn])] at hl
      obtain ⟨j, hj⟩ : ∃ j, a - d = j + 1 := by
        cases hz : a - d with
        | zero => rw [hz] at hl; cases hl
        | succ j => exact ⟨j, rfl⟩
      rw [hj, List.range'_succ, List.map_cons] at hl
      obtain ⟨e1, e2⟩ := List.cons.inj hl
      have e1 := (hk.inj _ _ _ _ e1).2
      subst e1
      refine ⟨id + 1, ?_, ?_, ?_, hst'⟩
      · omega
      · rw [h1, e2]
        have : a - (id + 1) = j := by omega
        rw [this]
      · intro id'
        by_cases e3 : id' = id
        · subst e3; exact ⟨fun _ => by omega, fun _ => e⟩
        · rw [hne id' e3, hdone]; omega
    · rw [if_neg e] at h1
      refine ⟨d, hle, by rw [h1]; exact hl, ?_, hst'⟩
      intro id'
      by_cases e3 : id' = id
      · subst e3
        exact ⟨fun h => absurd h e, fun h => absurd ((hdone id').mpr h) hs3⟩
      · rw [hne id' e3]; exact hdone id'
  · have hne : ∀ id', (t.home.res (cfg.key c id')).op = (s.home.res (cfg.key c id')).op := fun id' => h4 _ fun e => ec (hk.inj _ _ _ _ e).1.symm
    refine ⟨d, hle, ?_, fun id' => by rw [hne]; exact hdone id', fun id' => by rw [hne]; exact hst id'⟩
    rw [← hl, h1]
    split
    · rw [h0, List.filter_cons, if_neg (by simp [hk.conn, ec])]
    · rfl

theorem ops_inv {cfg : Cfg} (hk : Keyed cfg) (hd : FixedPool cfg.home) {ls : List Label} {s : State} (h : Steps (Step cfg) (init cfg) ls s) (c : Nat) :
    OpsInv cfg s ∧ ∃ d, SeqInv cfg c s d (ls.countP (asks c)) := by
  refine (h.invariant_trace (P := fun ls s => Steps (Step cfg) (init cfg) ls s ∧ OpsInv cfg s ∧ ∃ d, SeqInv cfg c s d (ls.countP (asks c))) ?_ ⟨.nil _, ?_, 0, ?_⟩).2
  · rintro ls s l t ⟨hr, ho, d, hq⟩ hs
    refine ⟨hr.snoc hs, ?_⟩
    have hsame : asks c l = false → t.ops = s.ops → (∀ k, (t.home.res k).op = (s.home.res k).op) → OpsInv cfg t ∧ ∃ d, SeqInv cfg c t d ((ls ++ [l]).countP (asks c)) := by
      intro h1 h2 h3
      have e : (ls ++ [l]).countP (asks c) = ls.countP (asks c) := by simp [List.countP_append, h1]
      rw [e]
      exact ⟨ops_same ho h2 h3, d, seq_same hq h2 h3⟩
    cases hs with
    | quiet hq' h =>
      rename_i l' _
      refine hsame rfl rfl ?_
      have hv := opView_step h
      cases l' <;> first | exact hv | cases hq'
    | arriveOld c' o l1 l2 _ _ h => exact hsame rfl rfl (opView_step h)
    | arriveNew c' h => exact hsame rfl rfl (opView_step h)
    | take g it h => exact hsame rfl rfl (opView_step h)
    | register g c' id hw h0 h => exact hsame rfl rfl (opView_step h)
    | finishMsg g c' id h0 h => exact hsame rfl rfl (opView_step h)
    | finishCall g k h0 h => exact hsame rfl rfl (opView_step h)
    | reply g c' id hw h0 h1 => exact hsame rfl rfl (fun _ => rfl)
    | silent g c' id hw h0 h1 => exact hsame rfl rfl (fun _ => rfl)
    | ask g c' id hw h0 h =>
      rename_i h2
      obtain ⟨v1, v2, v3⟩ := opView_step h
      have hcur : cur s.home g = some (.msg c' id) := cur_some.mpr ⟨_, hw⟩
      have hnot : cfg.key c' id ∉ s.ops := fun hm => (ho.mem _ hm).1 v1
      have hold : ∀ k ∈ s.ops, (h2.res k).op = (s.home.res k).op := fun k hm => v3 k fun e => hnot (e ▸ hm)
      constructor
      · constructor <;> dsimp only
        · rw [List.nodup_append]
          exact ⟨ho.nodup, by simp, fun x hx y hy e => hnot (by rw [List.mem_singleton.mp hy] at e; exact e ▸ hx)⟩
        · intro k hm
          rcases List.mem_append.mp hm with hm | hm
          · rw [hold k hm]; exact ho.mem k hm
          · rw [List.mem_singleton.mp hm, v2]; exact ⟨nofun, nofun⟩
        · intro k hm
          have hm' : k ∈ s.ops.tail ∨ k = cfg.key c' id := by
            cases hops : s.ops with
            | nil => rw [hops] at hm; simp at hm
            | cons x xs =>
              rw [hops] at hm
              simp only [List.cons_append, List.tail_cons, List.mem_append, List.mem_singleton] at hm ⊢
              exact hm
          rcases hm' with hm' | rfl
          · rw [hold k (List.mem_of_mem_tail hm')]; exact ho.tail k hm'
          · exact v2
        · intro k hm
          rcases List.mem_append.mp hm with hm | hm
          · exact ho.keys k hm
          · exact ⟨c', id, List.mem_singleton.mp hm⟩
      · refine ⟨d, ?_⟩
        obtain ⟨hle, hl, hdone, hst⟩ := hq
        by_cases ec : c' = c
        · subst ec
          have e2 : (ls ++ [Label.ask g c' id]).countP (asks c') = ls.countP (asks c') + 1 := by simp [List.countP_append, asks]
          have ha := ((msg_inv hd hr c').work g id hcur).2.1 h0
          rw [ha] at hle hl hst
          rw [e2, ha]
          have hne : ∀ id', id' ≠ id → (h2.res (cfg.key c' id')).op = (s.home.res (cfg.key c' id')).op := fun id' h => v3 _ fun e => h (hk.inj _ _ _ _ e).2
          refine ⟨by omega, ?_, ?_, ?_⟩ <;> dsimp only
          · have : id + 1 - d = (id - d) + 1 := by omega
            rw [this, List.range'_concat, List.filter_append, List.map_append, hl]
            have h3 : d + 1 * (id - d) = id := by omega
            rw [h3]
            simp [hk.conn]
          · intro id'
            by_cases e : id' = id
            · subst e
              rw [v2]
              exact ⟨nofun, fun h => by omega⟩
            · rw [hne id' e]; exact hdone id'
          · intro id'
            by_cases e : id' = id
            · subst e
              rw [v2]
              exact ⟨fun _ => by omega, fun _ => nofun⟩
            · rw [hne id' e, hst]; omega
        · have e2 : (ls ++ [Label.ask g c' id]).countP (asks c) = ls.countP (asks c) := by simp [List.countP_append, asks, ec]
          rw [e2]
          have hne : ∀ id', (h2.res (cfg.key c id')).op = (s.home.res (cfg.key c id')).op := fun id' => v3 _ fun e => ec (hk.inj _ _ _ _ e).1.symm
          refine ⟨hle, ?_, fun id' => by dsimp only; rw [hne]; exact hdone id', fun id' => by dsimp only; rw [hne]; exact hst id'⟩
          dsimp only
          rw [List.filter_append, hl]
          simp [hk.conn, ec]
    | op c' id rest h0 h =>
      obtain ⟨v1, v2, v3, v4, v5⟩ := opView_step h
      have e2 : (ls ++ [Label.op c' id]).countP (asks c) = ls.countP (asks c) := by simp [List.countP_append, asks]
      rw [e2]
      exact ⟨ops_head ho h0 rfl v3 v5, seq_head hk hq h0 rfl v3 v1 v2 v5⟩
    | opPush c' id g' rest h0 h =>
      obtain ⟨⟨x, v1⟩, v2, v3⟩ := opView_step h
      have e2 : (ls ++ [Label.opPush c' id g']).countP (asks c) = ls.countP (asks c) := by simp [List.countP_append, asks]
      rw [e2]
      refine ⟨ops_head ho h0 ?_ ?_ v3, seq_head hk hq h0 ?_ ?_ ?_ ?_ v3⟩
      · exact (if_pos v2).symm
      · dsimp only; rw [v2]; nofun
      · exact (if_pos v2).symm
      · dsimp only; rw [v2]; nofun
      · rw [v1]; nofun
      · rw [v1]; nofun
  · exact ⟨List.nodup_nil, nofun, nofun, nofun⟩
  · exact ⟨Nat.le_refl _, rfl, fun id => ⟨nofun, nofun⟩, fun id => ⟨fun h => absurd rfl h, nofun⟩⟩

/-- An operation that has got its turn: those of the connection before it have ended. -/
theorem ops_before {cfg : Cfg} (hk : Keyed cfg) (hd : FixedPool cfg.home) {ls : List Label} {s : State} (h : Steps (Step cfg) (init cfg) ls s) {c id j : Nat} (hj : j < id)
    (h1 : (s.home.res (cfg.key c id)).op ≠ .notStarted) (h2 : (s.home.res (cfg.key c id)).op ≠ .queued) : (s.home.res (cfg.key c j)).op = .done := by
  obtain ⟨ho, d, hq⟩ := ops_inv hk hd h c
  rw [hq.done]
  by_cases e : (s.home.res (cfg.key c id)).op = .done
  · have := (hq.done id).mp e; omega
  · have hid : d ≤ id := Nat.le_of_not_lt fun hlt => e ((hq.done id).mpr hlt)
    have hia := (hq.started id).mp h1
    have hm : cfg.key c id ∈ s.ops.filter (fun k => cfg.home.conn k = c) := by
      rw [hq.list]
      exact List.mem_map_of_mem (List.mem_range'_1.mpr ⟨hid, by omega⟩)
    have hm' := (List.mem_filter.mp hm).1
    cases hops : s.ops with
    | nil => rw [hops] at hm'; cases hm'
    | cons x xs =>
      have ht := ho.tail
      rw [hops] at ht hm'
      rcases List.mem_cons.mp hm' with rfl | hx
      · have hl := hq.list
        rw [hops, List.filter_cons, if_pos (by simp [hk.conn])] at hl
        cases hz : ls.countP (asks c) - d with
        | zero => omega
        | succ n =>
          rw [hz, List.range'_succ, List.map_cons] at hl
          have := (hk.inj _ _ _ _ (List.cons.inj hl).1).2
          omega
      · exact absurd (ht _ hx) h2

end Zinx.Login
