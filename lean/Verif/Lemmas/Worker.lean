import Verif.Spec.Worker

/-! # Lemmas on workers -/

namespace Zinx.Worker

open Zinx

theorem upd_same {α : Type} (f : Nat → α) (i : Nat) (a : α) : upd f i a i = a := by simp [upd]

theorem upd_ne {α : Type} (f : Nat → α) {i j : Nat} (a : α) (h : j ≠ i) : upd f i a j = f j := by simp [upd, h]

theorem handle_ok (b : Bool) (k : Kind) (o : Outcome) : handle b k o = .ok := by
  cases k <;> cases b <;> cases o <;> rfl

/-- What a worker is busy with. -/
def current : Status → List Req
  | .busy r => [r]
  | _ => []

/-- Invariant for C26. -/
theorem worker_inv {b : Bool} {wid : Nat → Nat} {cap : Nat} {todo : Nat → List Req} {ls : List Act} {s : State}
    (h : Steps (Step b wid cap) (initial todo) ls s) (w : Nat) :
    submitted w ls = started w ls ++ s.queue w ∧ started w ls = finished w ls ++ current (s.worker w) ∧ s.worker w ≠ .dead := by
  refine Steps.invariant_trace (P := fun ls s => submitted w ls = started w ls ++ s.queue w ∧
    started w ls = finished w ls ++ current (s.worker w) ∧ s.worker w ≠ .dead) ?_ h ?_
  · intro ls s l t ⟨i1, i2, i3⟩ hstep
    cases hstep with
    | arrive c rs h0 hc =>
      simp only [submitted, started, finished, List.filterMap_append] at *
      simp only [List.filterMap_cons, List.filterMap_nil, List.append_nil]
      exact ⟨i1, i2, i3⟩
    | deliver c r rest hc hq =>
      by_cases hw : wid c = w
      · subst hw
        simp only [submitted, started, finished, List.filterMap_append] at *
        simp only [List.filterMap_cons, List.filterMap_nil, if_true, List.append_nil, upd_same, i1, List.append_assoc, i2]
        exact ⟨trivial, trivial, i3⟩
      · simp only [submitted, started, finished, List.filterMap_append] at *
        simp only [List.filterMap_cons, List.filterMap_nil, if_neg hw, List.append_nil, upd_ne _ _ (Ne.symm hw)]
        exact ⟨i1, i2, i3⟩
    | external w' r hc hq =>
      by_cases hw : w' = w
      · subst hw
        simp only [submitted, started, finished, List.filterMap_append] at *
        simp only [List.filterMap_cons, List.filterMap_nil, if_true, List.append_nil, upd_same, i1, List.append_assoc, i2]
        exact ⟨trivial, trivial, i3⟩
      · simp only [submitted, started, finished, List.filterMap_append] at *
        simp only [List.filterMap_cons, List.filterMap_nil, if_neg hw, List.append_nil, upd_ne _ _ (Ne.symm hw)]
        exact ⟨i1, i2, i3⟩
    | take w' r rest h1 h2 =>
      by_cases hw : w' = w
      · subst hw
        simp only [submitted, started, finished, List.filterMap_append] at *
        simp only [List.filterMap_cons, List.filterMap_nil, if_true, List.append_nil, upd_same, i1, h2, i2, h1, current,
          List.append_assoc, List.cons_append, List.nil_append]
        exact ⟨trivial, trivial, by simp⟩
      · simp only [submitted, started, finished, List.filterMap_append] at *
        simp only [List.filterMap_cons, List.filterMap_nil, if_neg hw, List.append_nil, upd_ne _ _ (Ne.symm hw)]
        exact ⟨i1, i2, i3⟩
    | finish w' r o h1 =>
      rw [handle_ok]
      by_cases hw : w' = w
      · subst hw
        simp only [submitted, started, finished, List.filterMap_append] at *
        simp only [List.filterMap_cons, List.filterMap_nil, if_true, List.append_nil, upd_same, i1, i2, h1, current,
          List.append_assoc, List.cons_append, List.nil_append]
        exact ⟨trivial, trivial, by simp⟩
      · simp only [submitted, started, finished, List.filterMap_append] at *
        simp only [List.filterMap_cons, List.filterMap_nil, if_neg hw, List.append_nil, upd_ne _ _ (Ne.symm hw)]
        exact ⟨i1, i2, i3⟩
  · exact ⟨rfl, rfl, by simp [initial]⟩

/-- Handling event a busy worker still owes to connection `c`. -/
def openEv (c : Nat) : Status → List HEv
  | .busy r => if r.conn = some c then [.begins r] else []
  | _ => []

/-- Message of connection `c` a worker is busy with. -/
def openReq (c : Nat) : Status → List Req
  | .busy r => if r.conn = some c then [r] else []
  | _ => []

/-- The requests of `c` in a list. -/
def mine (c : Nat) (l : List Req) : List Req := l.filter fun r => r.conn = some c

/-- Everything about connection `c` in one statement. -/
structure ConnInv (wid : Nat → Nat) (todo : Nat → List Req) (c : Nat) (ls : List Act) (s : State) : Prop where
  own : ∀ c' r, r ∈ s.todo c' → r.conn = some c'
  place : ∀ w, w ≠ wid c → mine c (s.queue w) = [] ∧ openReq c (s.worker w) = []
  rest : ∃ done, handlingOf c ls = sequential done ++ openEv c (s.worker (wid c)) ∧
    done ++ openReq c (s.worker (wid c)) ++ mine c (s.queue (wid c)) ++ s.todo c = todo c ++ arrivedAt c ls

theorem connInv {b : Bool} {wid : Nat → Nat} {cap : Nat} {todo : Nat → List Req} {ls : List Act} {s : State}
    (hown : ∀ c r, r ∈ todo c → r.conn = some c) (h : Steps (Step b wid cap) (initial todo) ls s) (c : Nat) :
    ConnInv wid todo c ls s := by
  refine Steps.invariant_trace (P := fun ls s => ConnInv wid todo c ls s) ?_ h ?_
  · intro ls s l t inv hstep
    obtain ⟨own, place, done, hl, hd⟩ := inv
    have harr : ∀ a : Act, (∀ c r, a ≠ .arrive c r) → arrivedAt c (ls ++ [a]) = arrivedAt c ls := by
      intro a ha
      cases a <;> simp [arrivedAt] at ha ⊢
    cases hstep with
    | arrive c' rs h0 hr =>
      refine ⟨?_, place, done, ?_, ?_⟩ <;> try dsimp only
      · intro c'' r' hr'
        by_cases e : c'' = c'
        · subst e
          rw [upd_same] at hr'
          exact hr _ hr'
        · rw [upd_ne _ _ e] at hr'; exact own _ _ hr'
      · simp only [handlingOf, List.filterMap_append] at hl ⊢
        simpa using hl
      · by_cases e : c = c'
        · subst e
          rw [h0, List.append_nil] at hd
          rw [upd_same, hd]
          simp [arrivedAt]
        · rw [upd_ne _ _ e, hd]
          simp [arrivedAt, Ne.symm e]
    | deliver c' r rest hc hq =>
      have hr : r.conn = some c' := own c' r (by rw [hc]; simp)
      refine ⟨?_, ?_, done, ?_, ?_⟩ <;> try dsimp only
      · intro c'' r' hr'
        by_cases e : c'' = c'
        · subst e; rw [upd_same] at hr'; exact own _ _ (by rw [hc]; exact List.mem_cons_of_mem _ hr')
        · rw [upd_ne _ _ e] at hr'; exact own _ _ hr'
      · intro w hw
        refine ⟨?_, (place w hw).2⟩
        by_cases e : w = wid c'
        · subst e
          rw [upd_same]
          have hne : c' ≠ c := by intro e; subst e; exact hw rfl
          unfold mine at *
          rw [List.filter_append, (place _ hw).1]
          simp [hr, hne]
        · rw [upd_ne _ _ e]; exact (place w hw).1
      · simp only [handlingOf, List.filterMap_append] at hl ⊢
        simpa using hl
      · by_cases e : c = c'
        · subst e
          rw [upd_same, upd_same]
          rw [hc] at hd
          unfold mine at *
          rw [List.filter_append]
          simp [hr] at hd ⊢
          rw [harr _ (by intro _ _ h; cases h)]; exact hd
        · rw [upd_ne _ _ e]
          by_cases e2 : wid c = wid c'
          · rw [e2] at hd ⊢
            rw [upd_same]
            unfold mine at *
            rw [List.filter_append]
            simp [hr, Ne.symm e] at hd ⊢
            rw [harr _ (by intro _ _ h; cases h)]; exact hd
          · rw [upd_ne _ _ e2]; rw [harr _ (by intro _ _ h; cases h)]; exact hd
    | external w' r hr =>
      refine ⟨own, ?_, done, ?_, ?_⟩ <;> try dsimp only
      · intro w hw
        refine ⟨?_, (place w hw).2⟩
        by_cases e : w = w'
        · subst e
          rw [upd_same]
          unfold mine at *
          rw [List.filter_append, (place _ hw).1]
          simp [hr]
        · rw [upd_ne _ _ e]; exact (place w hw).1
      · simp only [handlingOf, List.filterMap_append] at hl ⊢
        simpa using hl
      · by_cases e : wid c = w'
        · rw [e] at hd ⊢
          rw [upd_same]
          unfold mine at *
          rw [List.filter_append]
          simp [hr] at hd ⊢
          rw [harr _ (by intro _ _ h; cases h)]; exact hd
        · rw [upd_ne _ _ e]; rw [harr _ (by intro _ _ h; cases h)]; exact hd
    | take w' r rest h1 h2 =>
      by_cases hr : r.conn = some c
      · -- the message is of this connection, so the worker is its worker
        have hw : w' = wid c := by
          by_cases e : w' = wid c
          · exact e
          · have := (place w' e).1
            rw [h2] at this
            simp [mine, hr] at this
        subst hw
        refine ⟨own, ?_, done, ?_, ?_⟩ <;> try dsimp only
        · intro w hw
          rw [upd_ne _ _ hw, upd_ne _ _ hw]; exact place w hw
        · simp only [handlingOf, List.filterMap_append] at hl ⊢
          rw [hl, h1]
          simp [hr, openEv, upd_same]
        · rw [upd_same, upd_same]
          rw [h1, h2] at hd
          simp [mine, hr, openReq] at hd ⊢
          rw [harr _ (by intro _ _ h; cases h)]; exact hd
      · refine ⟨own, ?_, done, ?_, ?_⟩ <;> try dsimp only
        · intro w hw
          by_cases e : w = w'
          · subst e
            rw [upd_same, upd_same]
            have := (place w hw).1
            rw [h2] at this
            simp [mine, hr, openReq] at this ⊢
            exact this
          · rw [upd_ne _ _ e, upd_ne _ _ e]; exact place w hw
        · simp only [handlingOf, List.filterMap_append] at hl ⊢
          rw [hl]
          by_cases e : wid c = w'
          · rw [e, upd_same, h1]
            simp [hr, openEv]
          · rw [upd_ne _ _ e]
            simp [hr]
        · by_cases e : wid c = w'
          · rw [e] at hd ⊢
            rw [upd_same, upd_same]
            rw [h1, h2] at hd
            simp [mine, hr, openReq] at hd ⊢
            rw [harr _ (by intro _ _ h; cases h)]; exact hd
          · rw [upd_ne _ _ e, upd_ne _ _ e]; rw [harr _ (by intro _ _ h; cases h)]; exact hd
    | finish w' r o h1 =>
      rw [handle_ok]
      by_cases hr : r.conn = some c
      · have hw : w' = wid c := by
          by_cases e : w' = wid c
          · exact e
          · have := (place w' e).2
            rw [h1] at this
            simp [openReq, hr] at this
        subst hw
        refine ⟨own, ?_, done ++ [r], ?_, ?_⟩ <;> try dsimp only
        · intro w hw
          rw [upd_ne _ _ hw]; exact place w hw
        · simp only [handlingOf, List.filterMap_append] at hl ⊢
          rw [hl, h1]
          simp [hr, openEv, upd_same, sequential]
        · rw [upd_same]
          rw [h1] at hd
          simp [mine, hr, openReq] at hd ⊢
          rw [harr _ (by intro _ _ h; cases h)]; exact hd
      · refine ⟨own, ?_, done, ?_, ?_⟩ <;> try dsimp only
        · intro w hw
          by_cases e : w = w'
          · subst e
            rw [upd_same]
            exact ⟨(place w hw).1, rfl⟩
          · rw [upd_ne _ _ e]; exact place w hw
        · simp only [handlingOf, List.filterMap_append] at hl ⊢
          rw [hl]
          by_cases e : wid c = w'
          · rw [e, upd_same, h1]
            simp [hr, openEv]
          · rw [upd_ne _ _ e]
            simp [hr]
        · by_cases e : wid c = w'
          · rw [e] at hd ⊢
            rw [upd_same]
            rw [h1] at hd
            simp [hr, openReq] at hd ⊢
            rw [harr _ (by intro _ _ h; cases h)]; exact hd
          · rw [upd_ne _ _ e]; rw [harr _ (by intro _ _ h; cases h)]; exact hd
  · exact ⟨hown, fun _ _ => ⟨rfl, rfl⟩, [], rfl, by simp [initial, openReq, mine, arrivedAt]⟩

/-- The worker alone works off its queue. -/
theorem drain {b : Bool} {wid : Nat → Nat} {cap : Nat} (w : Nat) : ∀ (n : Nat) (s : State), s.worker w ≠ .dead →
    (s.queue w).length = n → ∃ ls t, Steps (Step b wid cap) s ls t ∧ t.queue w = [] ∧ t.worker w = .idle ∧
      (∀ a ∈ ls, (∃ r, a = .start w r) ∨ ∃ r o, a = .finish w r o) := by
  have idle : ∀ s : State, s.worker w ≠ .dead → ∃ ls t, Steps (Step b wid cap) s ls t ∧ t.queue w = s.queue w ∧ t.worker w = .idle ∧
      (∀ a ∈ ls, (∃ r, a = .start w r) ∨ ∃ r o, a = .finish w r o) := by
    intro s hs
    cases hw : s.worker w with
    | idle => exact ⟨[], s, .nil s, rfl, hw, by simp⟩
    | dead => exact absurd hw hs
    | busy r =>
      have st := Step.finish (slicesMode := b) (wid := wid) (cap := cap) s w r .returned hw
      rw [handle_ok] at st
      exact ⟨_, _, .cons st (.nil _), rfl, upd_same _ _ _, by intro a ha; simp at ha; exact .inr ⟨_, _, ha⟩⟩
  intro n
  induction n with
  | zero =>
    intro s hs hq
    obtain ⟨ls, t, h1, h2, h3, h4⟩ := idle s hs
    exact ⟨ls, t, h1, by rw [h2]; exact List.eq_nil_of_length_eq_zero hq, h3, h4⟩
  | succ n ih =>
    intro s hs hq
    obtain ⟨ls, t, h1, h2, h3, h4⟩ := idle s hs
    obtain ⟨r, rest, hqr⟩ : ∃ r rest, s.queue w = r :: rest := by
      cases hsq : s.queue w with
      | nil => rw [hsq] at hq; simp at hq
      | cons r rest => exact ⟨r, rest, rfl⟩
    have st := Step.take (slicesMode := b) (wid := wid) (cap := cap) t w r rest h3 (by rw [h2, hqr])
    obtain ⟨ls', u, k1, k2, k3, k4⟩ := ih { t with queue := upd t.queue w rest, worker := upd t.worker w (.busy r) }
      (by simp [upd_same]) (by simp only [upd_same]; rw [hqr] at hq; simpa using hq)
    refine ⟨ls ++ (.start w r :: ls'), u, h1.append (.cons st k1), k2, k3, ?_⟩
    intro a ha
    rw [List.mem_append, List.mem_cons] at ha
    rcases ha with h | h | h
    · exact h4 a h
    · exact .inl ⟨r, h⟩
    · exact k4 a h

end Zinx.Worker

namespace Zinx.Worker

/-! ## Assignment -/

/-- Workers held, newest connection first. -/
def heldWorkers (l : List (Nat × Phase)) : List Nat :=
  l.filterMap fun x => match x.2 with | .holds w => some w | _ => none

theorem holding_eq (s : AState) : holding s = (heldWorkers s.conns).length := by
  unfold holding heldWorkers
  induction s.conns with
  | nil => rfl
  | cons x l ih =>
    obtain ⟨n, p⟩ := x
    cases p <;> simp [ih]

theorem heldWorkers_append (a b : List (Nat × Phase)) : heldWorkers (a ++ b) = heldWorkers a ++ heldWorkers b := by
  unfold heldWorkers; rw [List.filterMap_append]

theorem mem_heldWorkers {l : List (Nat × Phase)} {w : Nat} : w ∈ heldWorkers l ↔ ∃ n, (n, Phase.holds w) ∈ l := by
  unfold heldWorkers
  rw [List.mem_filterMap]
  constructor
  · rintro ⟨⟨n, p⟩, hx, hp⟩
    cases p <;> simp at hp
    subst hp
    exact ⟨n, hx⟩
  · rintro ⟨n, hn⟩
    exact ⟨_, hn, rfl⟩

/-- A connection in a list of distinct connections splits it. -/
theorem split_conn {l : List (Nat × Phase)} (hnd : (l.map (·.1)).Nodup) {n : Nat} {p : Phase} (h : (n, p) ∈ l) :
    ∃ l1 l2, l = l1 ++ (n, p) :: l2 ∧ ∀ q, setPhase l n q = l1 ++ (n, q) :: l2 := by
  obtain ⟨l1, l2, rfl⟩ := List.append_of_mem h
  refine ⟨l1, l2, rfl, fun q => ?_⟩
  simp only [List.map_append, List.map_cons, List.nodup_append, List.nodup_cons] at hnd
  obtain ⟨_, ⟨h2, _⟩, h3⟩ := hnd
  have same : ∀ m : List (Nat × Phase), n ∉ m.map (·.1) → setPhase m n q = m := by
    intro m hm
    induction m with
    | nil => rfl
    | cons x xs ih =>
      simp only [List.map_cons, List.mem_cons, not_or] at hm
      simp only [setPhase, List.map_cons] at ih ⊢
      rw [if_neg (Ne.symm hm.1), ih hm.2]
  have e1 : n ∉ l1.map (·.1) := fun hm => h3 n hm n (by simp) rfl
  have : setPhase (l1 ++ (n, p) :: l2) n q = setPhase l1 n q ++ (n, q) :: setPhase l2 n q := by
    simp [setPhase]
  rw [this, same l1 e1, same l2 h2]

theorem setPhase_fst (l : List (Nat × Phase)) (n : Nat) (p : Phase) : (setPhase l n p).map (·.1) = l.map (·.1) := by
  unfold setPhase
  rw [List.map_map]
  apply List.map_congr_left
  intro x _
  simp only [Function.comp]
  by_cases h : x.1 = n <;> simp [h]

theorem mem_setPhase {l : List (Nat × Phase)} {n m : Nat} {p q : Phase} (h : (m, q) ∈ setPhase l n p) :
    (m = n ∧ q = p) ∨ (m ≠ n ∧ (m, q) ∈ l) := by
  unfold setPhase at h
  rw [List.mem_map] at h
  obtain ⟨x, hx, e⟩ := h
  by_cases hn : x.1 = n
  · rw [if_pos hn] at e
    simp only [Prod.mk.injEq] at e
    exact .inl ⟨e.1.symm, e.2.symm⟩
  · rw [if_neg hn] at e
    subst e
    exact .inr ⟨hn, hx⟩

/-- Connection IDs are distinct and not above the counter. -/
def IdsOk (s : AState) : Prop := (s.conns.map (·.1)).Nodup ∧ ∀ x ∈ s.conns, x.1 ≤ s.cID

theorem freeWorker_same {c : Cfg} {s s' : AState} {w : Nat} (h : freeWorker c s w = .ok s') :
    s'.conns = s.conns ∧ s'.cID = s.cID ∧ s'.mgr = s.mgr ∧ s'.gen = s.gen := by
  unfold freeWorker at h
  split at h
  · simp at h; subst h; simp
  · simp at h; subst h; simp
  · split at h
    · simp at h; subst h; simp
    · split at h
      · simp at h
      · split at h <;> simp at h
        subst h; simp

theorem idsOk_step {c : Cfg} (s : AState) (l : AAct) (t : AState) (h : IdsOk s) (hs : AStep c s l t) : IdsOk t := by
  obtain ⟨h1, h2⟩ := h
  have keep : ∀ n p, ((setPhase s.conns n p).map (·.1)).Nodup ∧ ∀ x ∈ setPhase s.conns n p, x.1 ≤ s.cID := by
    intro n p
    refine ⟨by rw [setPhase_fst]; exact h1, ?_⟩
    intro x hx
    have : x.1 ∈ (setPhase s.conns n p).map (·.1) := List.mem_map_of_mem hx
    rw [setPhase_fst, List.mem_map] at this
    obtain ⟨y, hy, e⟩ := this
    rw [← e]; exact h2 y hy
  cases hs with
  | accept hlen =>
    refine ⟨?_, ?_⟩
    · simp only [List.map_cons, List.nodup_cons]
      refine ⟨?_, h1⟩
      intro hm
      rw [List.mem_map] at hm
      obtain ⟨x, hx, e⟩ := hm
      have := h2 x hx; omega
    · intro x hx
      rw [List.mem_cons] at hx
      rcases hx with rfl | hx
      · simp
      · have := h2 x hx; show x.1 ≤ s.cID + 1; omega
  | remove => exact ⟨h1, h2⟩
  | release s' n w hm hn hf =>
    obtain ⟨e1, e2, _⟩ := freeWorker_same hf
    unfold IdsOk
    simp only [e1, e2]
    exact keep _ _
  | _ => exact keep _ _

theorem idsOk_init (c : Cfg) (ch : Nat → Chan) : IdsOk (assignInit c ch) := ⟨by simp [assignInit], by simp [assignInit]⟩

/-! ### Bind mode without exhaustion -/

/-- Bind mode steps in which a worker is only asked for while fewer than `MaxConn` connections hold one. -/
def CalmStep (c : Cfg) (s : AState) (l : AAct) (t : AState) : Prop :=
  AStep c s l t ∧ ∀ n w, l = .take n w → holding s < c.maxConn

theorem held_take {l : List (Nat × Phase)} (hnd : (l.map (·.1)).Nodup) {n w : Nat} {p : Phase} (h : (n, p) ∈ l)
    (hp : ∀ v, p ≠ .holds v) : (heldWorkers (setPhase l n (.holds w))).Perm (w :: heldWorkers l) := by
  obtain ⟨l1, l2, e1, e2⟩ := split_conn hnd h
  rw [e2, e1, heldWorkers_append, heldWorkers_append]
  have a : heldWorkers ((n, p) :: l2) = heldWorkers l2 := by
    cases p <;> first | rfl | exact absurd rfl (hp _)
  have b : heldWorkers ((n, Phase.holds w) :: l2) = w :: heldWorkers l2 := rfl
  rw [a, b]
  exact List.perm_middle

theorem held_drop {l : List (Nat × Phase)} (hnd : (l.map (·.1)).Nodup) {n w : Nat} {p : Phase} (h : (n, Phase.holds w) ∈ l)
    (hp : ∀ v, p ≠ .holds v) : (heldWorkers l).Perm (w :: heldWorkers (setPhase l n p)) := by
  obtain ⟨l1, l2, e1, e2⟩ := split_conn hnd h
  rw [e2, e1, heldWorkers_append, heldWorkers_append]
  have a : heldWorkers ((n, p) :: l2) = heldWorkers l2 := by
    cases p <;> first | rfl | exact absurd rfl (hp _)
  have b : heldWorkers ((n, Phase.holds w) :: l2) = w :: heldWorkers l2 := rfl
  rw [a, b]
  exact List.perm_middle

theorem held_same {l : List (Nat × Phase)} (hnd : (l.map (·.1)).Nodup) {n : Nat} {p q : Phase} (h : (n, p) ∈ l)
    (hp : ∀ v, p ≠ .holds v) (hq : ∀ v, q ≠ .holds v) : heldWorkers (setPhase l n q) = heldWorkers l := by
  obtain ⟨l1, l2, e1, e2⟩ := split_conn hnd h
  rw [e2, e1, heldWorkers_append, heldWorkers_append]
  congr 1
  cases p <;> cases q <;> first | rfl | exact absurd rfl (hp _) | exact absurd rfl (hq _)

theorem held_unique {l : List (Nat × Phase)} (hnd : (heldWorkers l).Nodup) {n1 n2 w : Nat}
    (h1 : (n1, Phase.holds w) ∈ l) (h2 : (n2, Phase.holds w) ∈ l) : n1 = n2 := by
  obtain ⟨l1, l2, rfl⟩ := List.append_of_mem h1
  rw [heldWorkers_append] at hnd
  have b : heldWorkers ((n1, Phase.holds w) :: l2) = w :: heldWorkers l2 := rfl
  rw [b, List.nodup_append, List.nodup_cons] at hnd
  obtain ⟨_, ⟨k1, _⟩, k2⟩ := hnd
  rw [List.mem_append, List.mem_cons] at h2
  rcases h2 with h | h | h
  · exact absurd rfl (k2 w (mem_heldWorkers.mpr ⟨_, h⟩) w (by simp))
  · simp at h; exact h.symm
  · exact absurd (mem_heldWorkers.mpr ⟨_, h⟩) k1

/-- In bind mode the free and the held workers together are all workers. -/
def BindInv (c : Cfg) (s : AState) : Prop :=
  IdsOk s ∧ (s.free ++ heldWorkers s.conns).Perm (List.range c.maxConn) ∧ ∀ n, (n, Phase.wantExtra) ∉ s.conns

theorem bindInv_init (c : Cfg) (hm : c.mode = .bind) (ch : Nat → Chan) : BindInv c (assignInit c ch) := by
  refine ⟨idsOk_init c ch, ?_, by simp [assignInit]⟩
  simp [assignInit, Cfg.free, Cfg.globalPool, hm, heldWorkers]

theorem insert_of_not_mem {l : List Nat} {w : Nat} (h : w ∉ l) : l.insert w = w :: l := List.insert_of_not_mem h

theorem bindInv_step {c : Cfg} (hm : c.mode = .bind) (s : AState) (l : AAct) (t : AState) (h : BindInv c s) (hs : CalmStep c s l t) :
    BindInv c t := by
  obtain ⟨hid, hperm, hno⟩ := h
  obtain ⟨hstep, hcalm⟩ := hs
  refine ⟨idsOk_step s l t hid hstep, ?_⟩
  have hnd := hid.1
  have noset : ∀ n p, p ≠ Phase.wantExtra → ∀ m, (m, Phase.wantExtra) ∉ setPhase s.conns n p := by
    intro n p hp m hmem
    rcases mem_setPhase hmem with ⟨_, h⟩ | ⟨_, h⟩
    · exact hp h.symm
    · exact hno m h
  cases hstep with
  | accept hlen =>
    refine ⟨?_, ?_⟩
    · have : heldWorkers ((s.cID + 1, Phase.accepted) :: s.conns) = heldWorkers s.conns := rfl
      simp only [this]; exact hperm
    · intro n hn
      rw [List.mem_cons] at hn
      rcases hn with h | h
      · simp at h
      · exact hno n h
  | hash n hm' => rw [hm] at hm'; simp at hm'
  | free n w _ hn hw =>
    refine ⟨?_, noset _ _ (by simp)⟩
    have e := held_take hnd (w := w) hn (by simp)
    have e1 := List.perm_cons_erase hw
    refine List.Perm.trans ?_ hperm
    refine (List.Perm.append_left _ e).trans ?_
    refine List.perm_middle.trans ?_
    exact (List.Perm.append_right _ e1.symm)
  | bindNone n _ hn hfree =>
    exfalso
    have hlt := hcalm n _ rfl
    have := hperm.length_eq
    rw [holding_eq] at hlt
    simp [hfree] at this
    omega
  | look n hm' => rw [hm] at hm'; simp at hm'
  | extra n w hn hw => exact absurd hn (hno n)
  | extraNone n hn hw => exact absurd hn (hno n)
  | remove => exact ⟨hperm, hno⟩
  | release s' n w hn hmgr hf =>
    unfold freeWorker at hf
    rw [hm] at hf
    simp only [Except.ok.injEq] at hf
    subst hf
    refine ⟨?_, noset _ _ (by simp)⟩
    have hwnot : w ∉ s.free := by
      intro hmem
      have hn2 : (s.free ++ heldWorkers s.conns).Nodup := hperm.nodup_iff.mpr List.nodup_range
      rw [List.nodup_append] at hn2
      exact hn2.2.2 w hmem w (mem_heldWorkers.mpr ⟨_, hn⟩) rfl
    simp only [insert_of_not_mem hwnot]
    have e := held_drop hnd hn (p := .released) (by simp)
    refine List.Perm.trans ?_ hperm
    refine List.Perm.trans ?_ (List.Perm.append_left _ e.symm)
    exact List.perm_middle.symm
  | crash n w p hn hmgr hf =>
    unfold freeWorker at hf
    rw [hm] at hf
    simp at hf

/-! ### Worker numbers are valid -/

/-- Everything about worker numbers and queues on a server. -/
structure NumInv (c : Cfg) (s : AState) : Prop where
  free : ∀ w ∈ s.free, w < c.pool
  extra : ∀ w ∈ s.extra, c.pool ≤ w ∧ w < c.taskLen
  noextra : c.mode ≠ .dynamicBind → s.extra = [] ∧ ∀ n, (n, Phase.wantExtra) ∉ s.conns
  base : ∀ w, w < c.pool → s.chan w = .opened w
  held : ∀ n w, (n, Phase.holds w) ∈ s.conns → w < c.taskLen ∧ s.chan w ≠ .nil
  gen : c.pool ≤ s.gen

theorem taskLen_of_not_dynamic {c : Cfg} (hc : c.client = false) (hm : c.mode ≠ .dynamicBind) : c.taskLen = c.pool := by
  unfold Cfg.taskLen Cfg.pool
  rw [hc]
  cases h : c.mode <;> simp_all

theorem numInv_init {c : Cfg} (hc : c.client = false) {ch : Nat → Chan} (hp : startWorkerPool c = .ok ch) : NumInv c (assignInit c ch) := by
  unfold startWorkerPool at hp
  by_cases hle : c.pool ≤ c.taskLen
  · rw [if_pos hle] at hp
    simp only [Except.ok.injEq] at hp
    subst hp
    have hpool : c.pool = c.globalPool := by simp [Cfg.pool, hc]
    refine ⟨?_, ?_, ?_, ?_, by simp [assignInit], by simp [assignInit]⟩
    · intro w hw
      simp only [assignInit, Cfg.free] at hw
      rw [hpool]
      cases hm : c.mode <;> simp [hm] at hw <;> exact hw
    · intro w hw
      simp only [assignInit, Cfg.extra] at hw
      cases hm : c.mode <;> simp [hm] at hw
      rw [hpool]
      refine ⟨hw.1, ?_⟩
      unfold Cfg.taskLen
      rw [hm]
      have := hw.2
      show w < c.maxConn
      omega
    · intro hm
      refine ⟨?_, by simp [assignInit]⟩
      simp only [assignInit, Cfg.extra]
    · intro w hw
      simp [assignInit, hw]
  · rw [if_neg hle] at hp; simp at hp

theorem fallback_lt {c : Cfg} (h : 0 < c.pool) (n : Nat) : fallback c n < c.pool := by
  unfold fallback
  rw [if_neg (by omega)]
  exact Nat.mod_lt _ h

theorem numInv_step {c : Cfg} (hpos : 0 < c.pool) (hle : c.pool ≤ c.taskLen) (s : AState) (l : AAct) (t : AState)
    (h : NumInv c s) (hs : AStep c s l t) : NumInv c t := by
  obtain ⟨h1, h2, h3, h4, h5, h6⟩ := h
  have noset : ∀ n p, p ≠ Phase.wantExtra → c.mode ≠ .dynamicBind → ∀ m, (m, Phase.wantExtra) ∉ setPhase s.conns n p := by
    intro n p hp hm m hmem
    rcases mem_setPhase hmem with ⟨_, h⟩ | ⟨_, h⟩
    · exact hp h.symm
    · exact (h3 hm).2 m h
  have hset : ∀ n v, (v < c.taskLen ∧ s.chan v ≠ .nil) → ∀ m w, (m, Phase.holds w) ∈ setPhase s.conns n (.holds v) → w < c.taskLen ∧ s.chan w ≠ .nil := by
    intro n v hv m w hmem
    rcases mem_setPhase hmem with ⟨_, h⟩ | ⟨_, h⟩
    · simp at h; subst h; exact hv
    · exact h5 m w h
  have hset2 : ∀ n p, (∀ v, p ≠ Phase.holds v) → ∀ m w, (m, Phase.holds w) ∈ setPhase s.conns n p → w < c.taskLen ∧ s.chan w ≠ .nil := by
    intro n p hp m w hmem
    rcases mem_setPhase hmem with ⟨_, h⟩ | ⟨_, h⟩
    · exact absurd h.symm (hp w)
    · exact h5 m w h
  have hfb : ∀ n, fallback c n < c.taskLen ∧ s.chan (fallback c n) ≠ .nil := by
    intro n
    have := fallback_lt hpos n
    exact ⟨by omega, by rw [h4 _ this]; simp⟩
  cases hs with
  | accept hlen =>
    refine ⟨h1, h2, ?_, h4, ?_, h6⟩
    · intro hm
      refine ⟨(h3 hm).1, ?_⟩
      intro n hn
      rw [List.mem_cons] at hn
      rcases hn with h | h
      · simp at h
      · exact (h3 hm).2 n h
    · intro n w hn
      rw [List.mem_cons] at hn
      rcases hn with h | h
      · simp at h
      · exact h5 n w h
  | hash n hm hn =>
    exact ⟨h1, h2, fun hm => ⟨(h3 hm).1, noset _ _ (by simp) hm⟩, h4, hset _ _ (hfb n), h6⟩
  | free n w hm hn hw =>
    have hwp := h1 w hw
    refine ⟨fun v hv => h1 v (List.mem_of_mem_erase hv), h2, fun hm => ⟨(h3 hm).1, noset _ _ (by simp) hm⟩, h4,
      hset _ _ ⟨by omega, by rw [h4 _ hwp]; simp⟩, h6⟩
  | bindNone n hm hn hfree =>
    exact ⟨h1, h2, fun hm => ⟨(h3 hm).1, noset _ _ (by simp) hm⟩, h4, hset _ _ (hfb n), h6⟩
  | look n hm hn hfree =>
    refine ⟨h1, h2, fun hm' => absurd hm hm', h4, hset2 _ _ (by simp), h6⟩
  | extra n w hn hw =>
    have hw2 := h2 w hw
    refine ⟨h1, h2, ?_, ?_, ?_, by show c.pool ≤ s.gen + 1; omega⟩
    · intro hm
      exact absurd hn ((h3 hm).2 n)
    · intro v hv
      have : v ≠ w := by omega
      simp only [upd_ne _ _ this]
      exact h4 v hv
    · intro m v hmem
      rcases mem_setPhase hmem with ⟨_, h⟩ | ⟨_, h⟩
      · simp at h; subst h
        simp only [upd_same]
        exact ⟨hw2.2, by simp⟩
      · have := h5 m v h
        refine ⟨this.1, ?_⟩
        by_cases e : v = w
        · subst e; simp [upd_same]
        · simp only [upd_ne _ _ e]; exact this.2
  | extraNone n hn hw =>
    exact ⟨h1, h2, fun hm => ⟨(h3 hm).1, noset _ _ (by simp) hm⟩, h4, hset _ _ (hfb n), h6⟩
  | remove n w hn hmgr => exact ⟨h1, h2, h3, h4, h5, h6⟩
  | release s' n w hn hmgr hf =>
    have hheld := h5 n w hn
    unfold freeWorker at hf
    cases hm : c.mode with
    | hash =>
      rw [hm] at hf
      simp only [Except.ok.injEq] at hf
      subst hf
      exact ⟨h1, h2, fun hm' => ⟨(h3 hm').1, noset _ _ (by simp) hm'⟩, h4, hset2 _ _ (by simp), h6⟩
    | bind =>
      rw [hm] at hf
      simp only [Except.ok.injEq] at hf
      subst hf
      have htl : c.taskLen = c.globalPool := by unfold Cfg.taskLen; rw [hm]
      refine ⟨?_, h2, fun hm' => ⟨(h3 hm').1, noset _ _ (by simp) hm'⟩, h4, hset2 _ _ (by simp), h6⟩
      intro v hv
      simp only [List.mem_insert_iff] at hv
      rcases hv with rfl | hv
      · have hlt := hheld.1
        rw [htl] at hlt
        have : c.pool = c.globalPool := by
          unfold Cfg.pool
          by_cases hcl : c.client = true
          · rw [Cfg.pool, if_pos hcl] at hpos; omega
          · rw [if_neg hcl]
        omega
      · exact h1 v hv
    | dynamicBind =>
      rw [hm] at hf
      simp only at hf
      by_cases hwp : w < c.pool
      · rw [if_pos hwp] at hf
        simp only [Except.ok.injEq] at hf
        subst hf
        refine ⟨?_, h2, fun hm' => absurd hm hm', h4, hset2 _ _ (by simp), h6⟩
        intro v hv
        simp only [List.mem_insert_iff] at hv
        rcases hv with rfl | hv
        · exact hwp
        · exact h1 v hv
      · rw [if_neg hwp, if_neg (by omega)] at hf
        cases hch : s.chan w with
        | nil => rw [hch] at hf; simp at hf
        | closed => rw [hch] at hf; simp at hf
        | opened g =>
          rw [hch] at hf
          simp only [Except.ok.injEq] at hf
          subst hf
          refine ⟨h1, ?_, fun hm' => absurd hm hm', ?_, ?_, h6⟩
          · intro v hv
            simp only [List.mem_insert_iff] at hv
            rcases hv with rfl | hv
            · exact ⟨by omega, hheld.1⟩
            · exact h2 v hv
          · intro v hv
            have : v ≠ w := by omega
            simp only [upd_ne _ _ this]
            exact h4 v hv
          · intro m v hmem
            rcases mem_setPhase hmem with ⟨_, h⟩ | ⟨_, h⟩
            · simp at h
            · have := h5 m v h
              refine ⟨this.1, ?_⟩
              by_cases e : v = w
              · subst e; simp [upd_same]
              · simp only [upd_ne _ _ e]; exact this.2
  | crash n w p hn hmgr hf =>
    exact ⟨h1, h2, fun hm => ⟨(h3 hm).1, noset _ _ (by simp) hm⟩, h4, hset2 _ _ (by simp), h6⟩

/-! ### Base workers in dynamic bind mode -/

/-- Free and held base workers are all different, and there is an overflow worker to take. -/
def BaseInv (c : Cfg) (s : AState) : Prop :=
  IdsOk s ∧ (s.free ++ (heldWorkers s.conns).filter (fun w => w < c.pool)).Nodup ∧ s.extra ≠ []

theorem baseInv_init (c : Cfg) (hm : c.mode = .dynamicBind) (hlt : c.workerPoolSize < c.maxConn) (ch : Nat → Chan) :
    BaseInv c (assignInit c ch) := by
  refine ⟨idsOk_init c ch, ?_, ?_⟩
  · simp only [assignInit, Cfg.free, hm, heldWorkers, List.filterMap_nil, List.filter_nil, List.append_nil]
    exact List.nodup_range
  · simp only [assignInit, Cfg.extra, hm, Cfg.globalPool]
    intro h
    have := congrArg List.length h
    simp at this
    omega

theorem baseInv_step {c : Cfg} (hm : c.mode = .dynamicBind) (s : AState) (l : AAct) (t : AState)
    (h : BaseInv c s ∧ NumInv c s) (hs : AStep c s l t) : BaseInv c t := by
  obtain ⟨⟨hid, hnd2, hex⟩, hnum⟩ := h
  refine ⟨idsOk_step s l t hid hs, ?_⟩
  have hnd := hid.1
  cases hs with
  | accept hlen => exact ⟨hnd2, hex⟩
  | hash n hm' => rw [hm] at hm'; simp at hm'
  | free n w _ hn hw =>
    refine ⟨?_, hex⟩
    have e := (held_take hnd (w := w) hn (by simp)).filter (fun w => decide (w < c.pool))
    have hwp := hnum.free w hw
    rw [List.filter_cons_of_pos (by simpa using hwp)] at e
    have e1 := List.perm_cons_erase hw
    refine (List.Perm.nodup_iff ?_).mpr hnd2
    refine (List.Perm.append_left _ e).trans ?_
    refine List.perm_middle.trans ?_
    exact (List.Perm.append_right _ e1.symm)
  | bindNone n hm' => rw [hm] at hm'; simp at hm'
  | look n _ hn hfree =>
    refine ⟨?_, hex⟩
    show (s.free ++ (heldWorkers (setPhase s.conns n .wantExtra)).filter _).Nodup
    rw [held_same hnd hn (by simp) (by simp)]
    exact hnd2
  | extra n w hn hw =>
    refine ⟨?_, hex⟩
    have e := (held_take hnd (w := w) hn (by simp)).filter (fun w => decide (w < c.pool))
    have hwp := (hnum.extra w hw).1
    rw [List.filter_cons_of_neg (by simpa using hwp)] at e
    exact (List.Perm.nodup_iff (List.Perm.append_left _ e)).mpr hnd2
  | extraNone n hn hw => exact absurd hw hex
  | remove => exact ⟨hnd2, hex⟩
  | release s' n w hn hmgr hf =>
    have hheld := hnum.held n w hn
    have e := (held_drop hnd hn (p := .released) (by simp)).filter (fun w => decide (w < c.pool))
    unfold freeWorker at hf
    rw [hm] at hf
    simp only at hf
    by_cases hwp : w < c.pool
    · rw [if_pos hwp] at hf
      simp only [Except.ok.injEq] at hf
      subst hf
      rw [List.filter_cons_of_pos (by simpa using hwp)] at e
      refine ⟨?_, hex⟩
      have hwnot : w ∉ s.free := by
        intro hmem
        rw [List.nodup_append] at hnd2
        exact hnd2.2.2 w hmem w (by rw [List.mem_filter]; exact ⟨mem_heldWorkers.mpr ⟨_, hn⟩, by simpa using hwp⟩) rfl
      simp only [insert_of_not_mem hwnot]
      refine (List.Perm.nodup_iff ?_).mpr hnd2
      refine List.Perm.trans ?_ (List.Perm.append_left _ e.symm)
      exact List.perm_middle.symm
    · rw [if_neg hwp, if_neg (by omega)] at hf
      cases hch : s.chan w with
      | nil => rw [hch] at hf; simp at hf
      | closed => rw [hch] at hf; simp at hf
      | opened g =>
        rw [hch] at hf
        simp only [Except.ok.injEq] at hf
        subst hf
        rw [List.filter_cons_of_neg (by simpa using hwp)] at e
        refine ⟨(List.Perm.nodup_iff (List.Perm.append_left _ e)).mp hnd2, ?_⟩
        intro hnil
        dsimp only at hnil
        have : w ∈ s.extra.insert w := by simp
        rw [hnil] at this; simp at this
  | crash n w p hn hmgr hf =>
    refine ⟨?_, hex⟩
    have e := (held_drop hnd hn (p := .crashed) (by simp)).filter (fun w => decide (w < c.pool))
    have hsub : (s.free ++ (heldWorkers (setPhase s.conns n .crashed)).filter (fun w => decide (w < c.pool))).Nodup := by
      by_cases hwp : w < c.pool
      · rw [List.filter_cons_of_pos (by simpa using hwp)] at e
        have := (List.Perm.nodup_iff ((List.Perm.append_left s.free e).trans List.perm_middle)).mp hnd2
        rw [List.nodup_cons] at this
        exact this.2
      · rw [List.filter_cons_of_neg (by simpa using hwp)] at e
        exact (List.Perm.nodup_iff (List.Perm.append_left _ e)).mp hnd2
    exact hsub

theorem filter_held_unique {c : Cfg} {l : List (Nat × Phase)} (hnd : ((heldWorkers l).filter (fun w => w < c.pool)).Nodup) {n1 n2 w : Nat}
    (hw : w < c.pool) (h1 : (n1, Phase.holds w) ∈ l) (h2 : (n2, Phase.holds w) ∈ l) : n1 = n2 := by
  obtain ⟨l1, l2, rfl⟩ := List.append_of_mem h1
  rw [heldWorkers_append] at hnd
  have b : heldWorkers ((n1, Phase.holds w) :: l2) = w :: heldWorkers l2 := rfl
  rw [b, List.filter_append, List.filter_cons_of_pos (by simpa using hw), List.nodup_append, List.nodup_cons] at hnd
  obtain ⟨_, ⟨k1, _⟩, k2⟩ := hnd
  have inn : ∀ n m, (n, Phase.holds w) ∈ m → w ∈ (heldWorkers m).filter (fun w => decide (w < c.pool)) := by
    intro n m h
    rw [List.mem_filter]; exact ⟨mem_heldWorkers.mpr ⟨_, h⟩, by simpa using hw⟩
  rw [List.mem_append, List.mem_cons] at h2
  rcases h2 with h | h | h
  · exact absurd rfl (k2 w (inn _ _ h) w (by simp))
  · simp at h; exact h.symm
  · exact absurd (inn _ _ h) k1

end Zinx.Worker
