import Verif.Lemmas.Worker
import Verif.Lemmas.ExecOf

namespace Zinx.Props
open Zinx Zinx.Worker

/-! ## C26 and C27 over time: every request is handled -/

/-- Worker `w` takes a request or is through with one. -/
def workerActs (w : Nat) : Act → Prop
  | .start v _ => v = w
  | .finish v _ _ => v = w
  | _ => False

/-- The reader of connection `c` puts a request on the queue. -/
def readerActs (c : Nat) : Act → Prop
  | .submit _ r => r.conn = some c
  | _ => False

theorem submitted_mono {w : Nat} (ls : List Act) (l : Act) : (submitted w ls).length ≤ (submitted w (ls ++ [l])).length := by
  simp [submitted, List.filterMap_append]

theorem finished_mono {w : Nat} (ls : List Act) (l : Act) : (finished w ls).length ≤ (finished w (ls ++ [l])).length := by
  simp [finished, List.filterMap_append]

theorem started_mono {w : Nat} (ls : List Act) (l : Act) : (started w ls).length ≤ (started w (ls ++ [l])).length := by
  simp [started, List.filterMap_append]

theorem _root_.Zinx.Exec.trace_prefix {S L : Type} {step : S → L → S → Prop} (e : Exec step) {n k : Nat} (h : n ≤ k) : e.trace n <+: e.trace k := by
  obtain ⟨d, rfl⟩ : ∃ d, k = n + d := ⟨k - n, by omega⟩
  clear h
  induction d with
  | zero => exact List.prefix_rfl
  | succ d ih => exact ih.trans (List.prefix_append _ _)

/-- **C26 (fair).** In every execution in which worker `w` gets to run and user code ends: everything that has been put on its queue at some point is processed, in queue order. -/
theorem C26_fair {b : Bool} {wid : Nat → Nat} {cap : Nat} {todo : Nat → List Req} (e : Exec (Step b wid cap)) (h0 : e.run 0 = initial todo) (w : Nat) (hf : e.WeakFair (workerActs w)) (n : Nat) :
    ∃ k, n ≤ k ∧ submitted w (e.trace n) <+: finished w (e.trace k) := by
  have hsteps : ∀ m, Steps (Step b wid cap) (initial todo) (e.trace m) (e.run m) := fun m => h0 ▸ e.steps m
  have key : ∃ k, n ≤ k ∧ (submitted w (e.trace n)).length ≤ (finished w (e.trace k)).length := by
    generalize hN : (submitted w (e.trace n)).length = N
    by_cases hdone : N ≤ (finished w (e.trace n)).length
    · exact ⟨n, Nat.le_refl _, hdone⟩
    refine e.recorded.leads_weak_dec hf.recorded
      (P := fun p => Steps (Step b wid cap) (initial todo) p.2 p.1 ∧ N ≤ (submitted w p.2).length ∧ (finished w p.2).length < N)
      (Q := fun p => N ≤ (finished w p.2).length) (fun p => 2 * N - (started w p.2).length - (finished w p.2).length) ?_ ?_ ?_ (n := n)
      ⟨hsteps n, by show N ≤ (submitted w (e.trace n)).length; omega, by show (finished w (e.trace n)).length < N; omega⟩
    · intro p l q ⟨h1, h2, h3⟩ ⟨hs, hq⟩
      have a1 := submitted_mono (w := w) p.2 l
      have a2 := finished_mono (w := w) p.2 l
      have a3 := started_mono (w := w) p.2 l
      rw [hq]
      by_cases hd : N ≤ (finished w (p.2 ++ [l])).length
      · exact .inr hd
      · exact .inl ⟨⟨h1.snoc hs, by omega, by omega⟩, by omega⟩
    · intro p l q ⟨h1, h2, h3⟩ ⟨hs, hq⟩ hA
      have a1 := submitted_mono (w := w) p.2 l
      have a2 := finished_mono (w := w) p.2 l
      have a3 := started_mono (w := w) p.2 l
      obtain ⟨_, i2, _⟩ := worker_inv h1 w
      have i2 := congrArg List.length i2
      rw [List.length_append] at i2
      have hc : (current (p.1.worker w)).length ≤ 1 := by cases p.1.worker w <;> simp [current]
      have more : (started w p.2).length + (finished w p.2).length < (started w (p.2 ++ [l])).length + (finished w (p.2 ++ [l])).length := by
        cases l <;> simp [workerActs] at hA
        all_goals subst hA; simp [started, finished, List.filterMap_append]
      rw [hq]
      by_cases hd : N ≤ (finished w (p.2 ++ [l])).length
      · exact .inr hd
      · exact .inl ⟨⟨h1.snoc hs, by omega, by omega⟩, by omega⟩
    · intro p ⟨h1, h2, h3⟩
      obtain ⟨i1, i2, i3⟩ := worker_inv h1 w
      rw [enabled_recorded]
      cases hw : p.1.worker w with
      | dead => exact absurd hw i3
      | busy r => exact ⟨_, _, by exact rfl, .finish p.1 w r .returned hw⟩
      | idle =>
        cases hq : p.1.queue w with
        | cons r rest => exact ⟨_, _, by exact rfl, .take p.1 w r rest hw hq⟩
        | nil =>
          have i1 := congrArg List.length i1
          have i2 := congrArg List.length i2
          rw [List.length_append, hq] at i1
          rw [List.length_append, hw] at i2
          simp only [current, List.length_nil] at i1 i2
          omega
  obtain ⟨k, hk, hle⟩ := key
  refine ⟨k, hk, ?_⟩
  obtain ⟨i1, i2, _⟩ := worker_inv (hsteps k) w
  have hpre := e.trace_prefix hk
  replace hpre : submitted w (e.trace n) <+: submitted w (e.trace k) := hpre.filterMap _
  rw [i1, i2, List.append_assoc] at hpre
  exact List.prefix_of_prefix_length_le hpre (List.prefix_append _ _) hle

/-- The messages whose handling has ended. -/
def endsOf (l : List HEv) : List Req := l.filterMap fun | .ends r => some r | _ => none

theorem endsOf_sequential (l : List Req) : endsOf (sequential l) = l := by
  induction l with
  | nil => rfl
  | cons r l ih => simp [endsOf, sequential] at ih ⊢; exact ih

theorem ends_finished {b : Bool} {wid : Nat → Nat} {cap : Nat} {todo : Nat → List Req} {ls : List Act} {s : State} (hown : ∀ c r, r ∈ todo c → r.conn = some c)
    (h : Steps (Step b wid cap) (initial todo) ls s) (c : Nat) : endsOf (handlingOf c ls) = mine c (finished (wid c) ls) := by
  refine (h.invariant_trace (P := fun ls s => Steps (Step b wid cap) (initial todo) ls s ∧ endsOf (handlingOf c ls) = mine c (finished (wid c) ls)) ?_ ⟨.nil _, rfl⟩).2
  intro ls s l t ⟨h1, h2⟩ hs
  refine ⟨h1.snoc hs, ?_⟩
  have hi := connInv hown h1 c
  simp only [endsOf, handlingOf, mine, finished, List.filterMap_append, List.filter_append] at h2 ⊢
  rw [h2]
  congr 1
  cases hs with
  | finish w r o hw =>
    by_cases hr : r.conn = some c
    · have hwc : w = wid c := by
        apply Classical.byContradiction
        intro hne
        have := (hi.place w hne).2
        rw [hw] at this
        simp [openReq, hr] at this
      subst hwc
      simp [hr]
    · simp [hr]
  | take w r rest h3 h4 => by_cases hr : r.conn = some c <;> simp [hr]
  | _ => simp

/-- What has been put on the queue, and what has not yet. -/
theorem conn_count {b : Bool} {wid : Nat → Nat} {cap : Nat} {todo : Nat → List Req} {ls : List Act} {s : State} (hown : ∀ c r, r ∈ todo c → r.conn = some c)
    (h : Steps (Step b wid cap) (initial todo) ls s) (c : Nat) : mine c (submitted (wid c) ls) ++ s.todo c = todo c ++ arrivedAt c ls ∧
      ∃ last, handlingOf c ls = sequential (mine c (finished (wid c) ls)) ++ last := by
  obtain ⟨_, _, done, h1, h2⟩ := connInv hown h c
  have h3 := ends_finished hown h c
  obtain ⟨i1, i2, _⟩ := worker_inv h (wid c)
  have hd : done = mine c (finished (wid c) ls) := by
    rw [← h3, h1]
    unfold endsOf
    rw [List.filterMap_append]
    have := endsOf_sequential done
    unfold endsOf at this
    rw [this]
    unfold openEv
    split
    · split <;> simp
    · simp
  refine ⟨?_, _, by rw [← hd]; exact h1⟩
  rw [← h2, i1, i2, hd]
  unfold mine openReq current
  cases s.worker (wid c) with
  | busy r => by_cases hr : r.conn = some c <;> simp [hr]
  | _ => simp

/-- **C27 (fair).** In every execution in which the worker of connection `c` gets to run, user code ends, and the reader of `c` is not refused for ever a queue in which there is room again and again:
everything the reader has made of the input at some point is handled, one at a time and in order. -/
theorem C27_fair {b : Bool} {wid : Nat → Nat} {cap : Nat} {todo : Nat → List Req} (hown : ∀ c r, r ∈ todo c → r.conn = some c) (e : Exec (Step b wid cap)) (h0 : e.run 0 = initial todo) (c : Nat)
    (hf : e.WeakFair (workerActs (wid c))) (hr : e.StrongFair (readerActs c)) (n : Nat) :
    ∃ k, n ≤ k ∧ sequential (todo c ++ arrivedAt c (e.trace n)) <+: handlingOf c (e.trace k) := by
  have hsteps : ∀ m, Steps (Step b wid cap) (initial todo) (e.trace m) (e.run m) := fun m => h0 ▸ e.steps m
  -- room again and again
  have hroom : ∀ m, ∃ k, m ≤ k ∧ ((e.run k).queue (wid c)).length < max cap 1 := by
    intro m
    apply Classical.byContradiction
    intro hno
    have hfull : ∀ k, m ≤ k → max cap 1 ≤ ((e.run k).queue (wid c)).length := fun k hk => Nat.le_of_not_lt fun h => hno ⟨k, hk, h⟩
    have hsame : ∀ d, submitted (wid c) (e.trace (m + d)) = submitted (wid c) (e.trace m) := by
      intro d
      induction d with
      | zero => rfl
      | succ d ih =>
        show submitted (wid c) (e.trace (m + d) ++ (e.act (m + d)).toList) = _
        rw [← ih]
        have hn := e.next (m + d)
        have hq := hfull (m + d) (by omega)
        cases ha : e.act (m + d) with
        | none => simp
        | some l =>
          rw [ha] at hn
          simp only [submitted, List.filterMap_append, Option.toList]
          generalize e.run (m + d) = s at hn hq
          generalize e.run (m + d + 1) = t at hn
          cases hn with
          | deliver c' r rest h1 h2 =>
            by_cases hw : wid c' = wid c
            · rw [hw] at h2; omega
            · simp [hw]
          | external w r h1 h2 =>
            by_cases hw : w = wid c
            · rw [hw] at h2; omega
            · simp [hw]
          | _ => simp
    obtain ⟨k, hk, hpre⟩ := C26_fair e h0 (wid c) hf m
    obtain ⟨i1, i2, _⟩ := worker_inv (hsteps k) (wid c)
    have hs := hsame (k - m)
    rw [show m + (k - m) = k by omega] at hs
    rw [← hs, i1, i2] at hpre
    have := hpre.length_le
    have hq := hfull k hk
    simp only [List.length_append] at this
    omega
  have hpre0 : ∀ m, n ≤ m → todo c ++ arrivedAt c (e.trace n) <+: todo c ++ arrivedAt c (e.trace m) := fun m hm =>
    (List.prefix_append_right_inj _).2 (by obtain ⟨x, hx⟩ := e.trace_prefix hm; unfold arrivedAt; rw [← hx, List.flatMap_append]; exact List.prefix_append _ _)
  generalize hT : todo c ++ arrivedAt c (e.trace n) = T at *
  have hdel : ∀ v m, n ≤ m → T.length - (mine c (submitted (wid c) (e.trace m))).length ≤ v → ∃ k, m ≤ k ∧ T.length ≤ (mine c (submitted (wid c) (e.trace k))).length := by
    intro v
    induction v with
    | zero => intro m _ hv; exact ⟨m, Nat.le_refl _, by omega⟩
    | succ v ih =>
      intro m hm hv
      by_cases hd : T.length ≤ (mine c (submitted (wid c) (e.trace m))).length
      · exact ⟨m, Nat.le_refl _, hd⟩
      generalize hN : (mine c (submitted (wid c) (e.trace m))).length = N at *
      have mono : ∀ (ls : List Act) (l : Act), (mine c (submitted (wid c) ls)).length ≤ (mine c (submitted (wid c) (ls ++ [l]))).length := by
        intro ls l; simp [mine, submitted, List.filterMap_append]
      obtain ⟨k, hk, hq⟩ := e.recorded.leads_strong hr.recorded
        (P := fun p => Steps (Step b wid cap) (initial todo) p.2 p.1 ∧ T.length ≤ (todo c ++ arrivedAt c p.2).length ∧ (mine c (submitted (wid c) p.2)).length = N)
        (Q := fun p => N < (mine c (submitted (wid c) p.2)).length) (n := m) (by
          intro p l q ⟨h1, h2, h3⟩ ⟨hs, hq⟩
          have a1 := mono p.2 l
          have a2 : (todo c ++ arrivedAt c p.2).length ≤ (todo c ++ arrivedAt c (p.2 ++ [l])).length := by simp [arrivedAt]
          rw [hq]
          by_cases hd : N < (mine c (submitted (wid c) (p.2 ++ [l]))).length
          · exact .inr hd
          · exact .inl ⟨h1.snoc hs, by omega, by omega⟩) (by
          intro p l q ⟨h1, h2, h3⟩ ⟨hs, hq⟩ hA
          have hi := connInv hown h1 c
          rw [hq, ← h3]
          generalize q.1 = t at hs
          cases hs with
          | deliver c' r rest g1 g2 =>
            have e1 : r.conn = some c' := hi.own c' r (by rw [g1]; simp)
            have e2 : r.conn = some c := hA
            rw [e1] at e2
            cases e2
            simp [mine, submitted, List.filterMap_append, e1]
          | external w r g1 g2 => rw [readerActs, g1] at hA; cases hA
          | _ => cases hA) (by
          intro x hx
          obtain ⟨y, hy, hroom⟩ := hroom x
          obtain ⟨h1, h2, h3⟩ := hx y hy
          refine ⟨y, hy, enabled_recorded.2 ?_⟩
          have hc := congrArg List.length (conn_count hown h1 c).1
          rw [List.length_append] at hc
          cases ht : (e.recorded.run y).1.todo c with
          | nil => rw [ht, List.length_nil] at hc; omega
          | cons r rest =>
            exact ⟨.submit (wid c) r, _, (connInv hown h1 c).own c r (by rw [ht]; simp), .deliver _ c r rest ht hroom⟩)
        ⟨hsteps m, (hpre0 m hm).length_le, hN⟩
      obtain ⟨k', hk', h⟩ := ih k (by omega) (by
        have : N < (mine c (submitted (wid c) (e.trace k))).length := hq
        omega)
      exact ⟨k', by omega, h⟩
  obtain ⟨m, hm, hle⟩ := hdel _ n (Nat.le_refl _) (Nat.le_refl _)
  obtain ⟨k, hk, hpre⟩ := C26_fair e h0 (wid c) hf m
  refine ⟨k, by omega, ?_⟩
  obtain ⟨last, hlast⟩ := (conn_count hown (hsteps k) c).2
  have h1 : T <+: mine c (submitted (wid c) (e.trace m)) :=
    List.prefix_of_prefix_length_le (hpre0 m hm) (by rw [← (conn_count hown (hsteps m) c).1]; exact List.prefix_append _ _) hle
  obtain ⟨x, hx⟩ := h1.trans (hpre.filter _)
  rw [hlast]
  refine List.IsPrefix.trans ?_ (List.prefix_append _ _)
  unfold mine
  rw [← hx]
  unfold sequential
  rw [List.flatMap_append]
  exact List.prefix_append _ _

/-- Two messages of connection 3 arrive; the queue has room for one, so the second waits until the worker has taken the first; the handler of the first panics. -/
theorem worker_example : ∃ ls s, Steps (Step false (fun c => c % 2) 1) (initial fun _ => []) ls s ∧ (∀ w, s.queue w = [] ∧ s.worker w = .idle) ∧ (∀ c, s.todo c = []) ∧
    arrivedAt 3 (ls.take 2) = [⟨some 3, 0, .message⟩, ⟨some 3, 1, .message⟩] := by
  refine ⟨[.arrive 3 [⟨some 3, 0, .message⟩, ⟨some 3, 1, .message⟩], .submit 1 ⟨some 3, 0, .message⟩, .start 1 ⟨some 3, 0, .message⟩, .submit 1 ⟨some 3, 1, .message⟩,
    .finish 1 ⟨some 3, 0, .message⟩ .panicked, .start 1 ⟨some 3, 1, .message⟩, .finish 1 ⟨some 3, 1, .message⟩ .returned], _,
    .cons (.arrive _ 3 _ rfl (by decide)) (.cons (.deliver _ 3 _ [⟨some 3, 1, .message⟩] rfl (by decide)) (.cons (.take _ 1 _ [] rfl rfl) (.cons (.deliver _ 3 _ [] rfl (by decide))
    (.cons (.finish _ 1 _ _ rfl) (.cons (.take _ 1 _ [] rfl rfl) (.cons (.finish _ 1 _ _ rfl) (.nil _))))))), fun w => ?_, fun c => ?_, by decide⟩
  · simp only [upd, initial]
    constructor
    · split <;> rfl
    · by_cases h : w = 1 <;> simp [h, handle, doMsgHandler, recovered, user]
  · simp only [upd, initial]
    split <;> rfl

/-- The hypotheses of `C26_fair` and `C27_fair` hold of it. -/
example : ∃ e : Exec (Step false (fun c => c % 2) 1), e.run 0 = initial (fun _ => []) ∧ (∀ w, e.WeakFair (workerActs w)) ∧ (∀ c, e.StrongFair (readerActs c)) ∧
    arrivedAt 3 (e.trace 2) = [⟨some 3, 0, .message⟩, ⟨some 3, 1, .message⟩] := by
  obtain ⟨ls, s, h, h1, h2, h3⟩ := worker_example
  obtain ⟨e, e1, e2, e3, e4⟩ := Exec.ofSteps h
  refine ⟨e, e1, fun w => Exec.weakFair_of_end e4 ?_, fun c => Exec.strongFair_of_end e4 ?_, by rw [e3]; exact h3⟩
  · intro ⟨l, t, hA, hs⟩
    cases hs <;> grind [workerActs]
  · intro ⟨l, t, hA, hs⟩
    cases hs <;> grind [readerActs]

end Zinx.Props
