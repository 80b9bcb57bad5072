import Verif.Props.Worker
import Verif.Props.WorkerLive

namespace Zinx.Props
open Zinx Zinx.Worker

/-! ## C112: a handler that does not return -/

/-- Worker `w` takes a request, or is through with one the handling of which ends (`H`: the requests of which the handling never ends). -/
def soundActs (H : Req → Prop) (w : Nat) : Act → Prop
  | .start v _ => v = w
  | .finish v r _ => v = w ∧ ¬ H r
  | _ => False

/-- An execution in which the handling of the requests in `H` never ends. Every worker gets to run, and the handling of every other request ends; readers are not refused for ever a queue in which
there is room again and again. -/
structure Hangs {b : Bool} {wid : Nat → Nat} {cap : Nat} (H : Req → Prop) (e : Exec (Step b wid cap)) : Prop where
  never : ∀ n w r o, H r → e.act n ≠ some (.finish w r o)
  workers : ∀ w, e.WeakFair (soundActs H w)
  readers : ∀ c, e.StrongFair (readerActs c)

/-- At time `n` worker `w` is in a handler that never returns. -/
def Hung {b : Bool} {wid : Nat → Nat} {cap : Nat} (H : Req → Prop) (e : Exec (Step b wid cap)) (w n : Nat) : Prop := ∃ r, H r ∧ (e.run n).worker w = .busy r

theorem hung_stays {b : Bool} {wid : Nat → Nat} {cap : Nat} {H : Req → Prop} {e : Exec (Step b wid cap)} (h : ∀ n w r o, H r → e.act n ≠ some (.finish w r o)) {w n : Nat} {r : Req} (hr : H r)
    (hw : (e.run n).worker w = .busy r) : ∀ d, (e.run (n + d)).worker w = .busy r := by
  intro d
  induction d with
  | zero => exact hw
  | succ d ih =>
    have hn := e.next (n + d)
    have hh := h (n + d)
    rw [← Nat.add_assoc]
    cases ha : e.act (n + d) with
    | none => rw [ha] at hn; rw [hn]; exact ih
    | some l =>
      rw [ha] at hn hh
      generalize e.run (n + d) = s at hn ih
      generalize e.run (n + d + 1) = t at hn
      cases hn with
      | take v r' rest h1 h2 =>
        by_cases hv : w = v
        · subst hv; rw [ih] at h1; cases h1
        · simp [upd, hv, ih]
      | finish v r' o h1 =>
        by_cases hv : w = v
        · subst hv; rw [ih] at h1; cases h1; exact absurd rfl (hh w r o hr)
        · simp [upd, hv, ih]
      | _ => exact ih

/-- From then on nothing of a connection of that worker is begun or ended. -/
theorem hung_handling {b : Bool} {wid : Nat → Nat} {cap : Nat} {todo : Nat → List Req} {H : Req → Prop} (hown : ∀ c r, r ∈ todo c → r.conn = some c) {e : Exec (Step b wid cap)} (h0 : e.run 0 = initial todo)
    (h : ∀ n w r o, H r → e.act n ≠ some (.finish w r o)) {c n : Nat} (hh : Hung H e (wid c) n) : ∀ d, handlingOf c (e.trace (n + d)) = handlingOf c (e.trace n) := by
  obtain ⟨r, hr, hw⟩ := hh
  intro d
  induction d with
  | zero => rfl
  | succ d ih =>
    show handlingOf c (e.trace (n + d) ++ (e.act (n + d)).toList) = _
    rw [← ih]
    have hi := connInv hown (h0 ▸ e.steps (n + d)) c
    have hs := hung_stays h hr hw d
    have hn := e.next (n + d)
    have hh := h (n + d)
    cases ha : e.act (n + d) with
    | none => simp
    | some l =>
      rw [ha] at hn hh
      simp only [handlingOf, List.filterMap_append, Option.toList]
      generalize e.run (n + d) = s at hn hs hi
      generalize e.run (n + d + 1) = t at hn
      cases hn with
      | take v r' rest h1 h2 =>
        by_cases hv : v = wid c
        · subst hv; rw [hs] at h1; cases h1
        · have := (hi.place v hv).1
          rw [h2] at this
          by_cases hc : r'.conn = some c
          · simp [mine, hc] at this
          · simp [hc]
      | finish v r' o h1 =>
        by_cases hv : v = wid c
        · subst hv; rw [hs] at h1; cases h1; exact absurd rfl (hh _ r o hr)
        · have := (hi.place v hv).2
          rw [h1] at this
          by_cases hc : r'.conn = some c
          · simp [openReq, hc] at this
          · simp [hc]
      | _ => simp

/-- A worker that is never in a handler that does not return is treated fairly. -/
theorem unhung_fair {b : Bool} {wid : Nat → Nat} {cap : Nat} {H : Req → Prop} {e : Exec (Step b wid cap)} {w : Nat} (hf : e.WeakFair (soundActs H w)) (h : ∀ n, ¬ Hung H e w n) : e.WeakFair (workerActs w) := by
  intro n hn
  obtain ⟨k, l, hk, ha, hA⟩ := hf n (fun m hm => by
    obtain ⟨l, t, hA, hs⟩ := hn m hm
    refine ⟨l, t, ?_, hs⟩
    have hm := h m
    unfold Hung at hm
    generalize e.run m = s at hs hm
    cases hs with
    | take v r rest h1 h2 => exact hA
    | finish v r o h1 => exact ⟨hA, fun hr => hm ⟨r, hr, hA ▸ h1⟩⟩
    | _ => cases hA)
  refine ⟨k, l, hk, ha, ?_⟩
  cases l with
  | start v r => exact hA
  | finish v r o => exact hA.1
  | _ => cases hA

/-- Everything the reader of `c` ever makes of its input is handled, one at a time and in order. -/
def AllHandled {b : Bool} {wid : Nat → Nat} {cap : Nat} (todo : Nat → List Req) (e : Exec (Step b wid cap)) (c : Nat) : Prop :=
  ∀ n, ∃ k, n ≤ k ∧ sequential (todo c ++ arrivedAt c (e.trace n)) <+: handlingOf c (e.trace k)

/-- **C112 (exact).** Whatever handlers do not return: all messages of a connection are handled exactly if, whenever the worker of that connection is in such a handler, the connection
has been served completely by then - nothing is left over, and nothing comes afterwards. -/
theorem C112_exact {b : Bool} {wid : Nat → Nat} {cap : Nat} {todo : Nat → List Req} {H : Req → Prop} (hown : ∀ c r, r ∈ todo c → r.conn = some c) (e : Exec (Step b wid cap)) (h0 : e.run 0 = initial todo)
    (h : Hangs H e) (c : Nat) :
    AllHandled todo e c ↔ ∀ n, Hung H e (wid c) n → ∀ m, sequential (todo c ++ arrivedAt c (e.trace m)) <+: handlingOf c (e.trace n) := by
  constructor
  · intro ha n hn m
    obtain ⟨k, hk, hp⟩ := ha (max n m)
    have := hung_handling hown h0 h.never hn (k - n)
    rw [show n + (k - n) = k by omega] at this
    rw [← this]
    refine List.IsPrefix.trans ?_ hp
    obtain ⟨x, hx⟩ := e.trace_prefix (show m ≤ max n m by omega)
    rw [← hx]
    rw [show arrivedAt c (e.trace m ++ x) = arrivedAt c (e.trace m) ++ arrivedAt c x from List.flatMap_append, ← List.append_assoc]
    rw [show sequential (todo c ++ arrivedAt c (e.trace m) ++ arrivedAt c x) = sequential (todo c ++ arrivedAt c (e.trace m)) ++ sequential (arrivedAt c x) from List.flatMap_append]
    exact List.prefix_append _ _
  · intro hh n
    by_cases hany : ∃ m, Hung H e (wid c) m
    · obtain ⟨m, hm⟩ := hany
      refine ⟨max n m, by omega, (hh m hm n).trans ?_⟩
      exact (e.trace_prefix (show m ≤ max n m by omega)).filterMap _
    · exact C27_fair hown e h0 c (unhung_fair (h.workers _) fun m hm => hany ⟨m, hm⟩) (h.readers c) n

/-- **C112 (partial).** If no other connection is served by the worker of `c`, and nothing else puts a request the handling of which never ends on a queue: all messages of `c` are handled, whatever happens to the others,
unless one of its own handlers does not return. Missing: that connections do not share workers. -/
theorem C112_partial {b : Bool} {wid : Nat → Nat} {cap : Nat} {todo : Nat → List Req} {H : Req → Prop} (hown : ∀ c r, r ∈ todo c → r.conn = some c) (e : Exec (Step b wid cap)) (h0 : e.run 0 = initial todo)
    (h : Hangs H e) (c : Nat) (halone : ∀ c', wid c' = wid c → c' = c) (hH : ∀ r, H r → r.conn ≠ none) (hc : ∀ n r, H r → r.conn = some c → (e.run n).worker (wid c) ≠ .busy r) : AllHandled todo e c := by
  refine (C112_exact hown e h0 h c).2 fun n ⟨r, hr, hw⟩ => ?_
  exfalso
  cases hcr : r.conn with
  | none => exact hH r hr hcr
  | some c' =>
    by_cases hcc : c' = c
    · exact hc n r hr (hcc ▸ hcr) hw
    · have := ((connInv hown (h0 ▸ e.steps n) c').place (wid c) (fun hc => hcc (halone c' hc.symm))).2
      rw [hw] at this
      simp [openReq, hcr] at this

/-- **C112 (the backlog).** While its worker is in a handler that does not return, a connection gets rid of at most as many further messages as the queue holds: then its reader is blocked too. -/
theorem C112_backlog {b : Bool} {wid : Nat → Nat} {cap : Nat} {todo : Nat → List Req} {H : Req → Prop} (e : Exec (Step b wid cap)) (h0 : e.run 0 = initial todo)
    (h : ∀ n w r o, H r → e.act n ≠ some (.finish w r o)) {w n : Nat} (hh : Hung H e w n) (k : Nat) (hk : n ≤ k) :
    (submitted w (e.trace k)).length ≤ (started w (e.trace n)).length + max cap 1 := by
  obtain ⟨r, hr, hw⟩ := hh
  have hq : ∀ m, ((e.run m).queue w).length ≤ max cap 1 := by
    intro m
    have hi := (e.steps m).invariant (P := fun s => (s.queue w).length ≤ max cap 1) ?_ (by rw [h0]; simp [initial])
    · exact hi
    intro s l t hi hs
    cases hs <;> simp only [upd] <;> grind
  have hst : started w (e.trace k) = started w (e.trace n) := by
    obtain ⟨d, rfl⟩ : ∃ d, k = n + d := ⟨k - n, by omega⟩
    clear hk
    induction d with
    | zero => rfl
    | succ d ih =>
      show started w (e.trace (n + d) ++ (e.act (n + d)).toList) = _
      rw [← ih]
      have hs := hung_stays h hr hw d
      have hn := e.next (n + d)
      cases ha : e.act (n + d) with
      | none => simp
      | some l =>
        rw [ha] at hn
        simp only [started, List.filterMap_append, Option.toList]
        generalize e.run (n + d) = s at hn hs
        generalize e.run (n + d + 1) = t at hn
        cases hn with
        | take v r' rest h1 h2 =>
          by_cases hv : v = w
          · subst hv; rw [hs] at h1; cases h1
          · simp [hv]
        | _ => simp
  obtain ⟨i1, _, _⟩ := worker_inv (h0 ▸ e.steps k) w
  rw [i1, List.length_append, hst]
  have := hq k
  omega

/-- **C112 refuted.** Any two connections served by the same worker - with `WorkerPoolSize` workers and hashing, any two of which the numbers leave the same rest - can hold each other up:
the handler of a message of the one does not return, and a message of the other is never handled, although everything else goes on. -/
theorem C112_refuted (b : Bool) (wid : Nat → Nat) (cap c c' : Nat) (hne : c' ≠ c) (hw : wid c' = wid c) :
    ∃ (H : Req → Prop) (e : Exec (Step b wid cap)), e.run 0 = initial (fun _ => []) ∧ Hangs H e ∧ (∀ r, H r → r.conn = some c') ∧ (∃ n, arrivedAt c (e.trace n) ≠ []) ∧
      (∀ n, handlingOf c (e.trace n) = []) ∧ ¬ AllHandled (fun _ => []) e c := by
  let r' : Req := ⟨some c', 0, .message⟩
  let r : Req := ⟨some c, 0, .message⟩
  have hsteps : ∃ s, Steps (Step b wid cap) (initial fun _ => []) [.arrive c' [r'], .submit (wid c') r', .start (wid c') r', .arrive c [r], .submit (wid c) r] s ∧
      (∀ w, w ≠ wid c → s.worker w = .idle ∧ s.queue w = []) ∧ s.worker (wid c) = .busy r' ∧ ∀ d, s.todo d = [] := by
    refine ⟨_, .cons (.arrive _ c' [r'] rfl (by simp [r'])) (.cons (.deliver _ c' r' [] (by simp [upd]) (by simp [initial]; omega)) (.cons (.take _ (wid c') r' [] rfl (by simp [upd, initial]))
      (.cons (.arrive _ c [r] (by simp [upd, initial]) (by simp [r])) (.cons (.deliver _ c r [] (by simp [upd]) (by simp [upd, hw]; omega)) (.nil _))))), ?_, ?_, ?_⟩
    · intro w hwc; simp [upd, initial, hw, hwc]
    · simp [upd, hw]
    · intro d; simp only [upd, initial]; grind
  obtain ⟨s, hs, s1, s2, s3⟩ := hsteps
  obtain ⟨e, e1, e2, e3, e4⟩ := Exec.ofSteps hs
  have hnever : ∀ n w q o, q = r' → e.act n ≠ some (.finish w q o) := by
    intro n w q o _ ha
    rw [e2] at ha
    rcases n with _ | _ | _ | _ | _ | n <;> simp at ha
  have hH : Hangs (fun q => q = r') e := by
    refine ⟨hnever, fun w => Exec.weakFair_of_end e4 ?_, fun d => Exec.strongFair_of_end e4 ?_⟩
    · intro ⟨l, t, hA, hs⟩
      cases hs with
      | take v q rest h1 h2 => by_cases hv : v = wid c <;> grind
      | finish v q o h1 =>
        by_cases hv : v = wid c
        · rw [hv, s2] at h1; cases h1; exact hA.2 rfl
        · grind
      | _ => cases hA
    · intro ⟨l, t, hA, hs⟩
      cases hs with
      | deliver d' q rest h1 h2 => rw [s3] at h1; cases h1
      | external v q h1 h2 => rw [readerActs, h1] at hA; cases hA
      | _ => cases hA
  have hnone : ∀ n, handlingOf c (e.trace n) = [] := by
    intro n
    rw [e3]
    rcases n with _ | _ | _ | _ | _ | n <;> simp [handlingOf, r', hne]
  refine ⟨fun q => q = r', e, e1, hH, fun q hq => by rw [hq], ⟨5, by rw [e3]; simp [arrivedAt, hne]⟩, hnone, ?_⟩
  intro ha
  obtain ⟨k, _, hk⟩ := ha 5
  rw [hnone, e3] at hk
  simp [arrivedAt, sequential, hne] at hk

/-- Hashing: connections 1 and 11 of a server with ten workers. -/
example : ∃ (H : Req → Prop) (e : Exec (Step false (fun c => c % 10) 1024)), Hangs H e ∧ (∀ r, H r → r.conn = some 11) ∧ (∃ n, arrivedAt 1 (e.trace n) ≠ []) ∧ ∀ n, handlingOf 1 (e.trace n) = [] :=
  let ⟨H, e, _, h1, h2, h3, h4, _⟩ := C112_refuted false (fun c => c % 10) 1024 1 11 (by decide) (by decide)
  ⟨H, e, h1, h2, h3, h4⟩

/-- **C112 (no pool).** Without worker pool, in every execution in which goroutines get to run: the handling of every message is begun, whether or not any handler ever returns; and the handling of a message ends if its own handler returns. -/
theorem C112_nopool (e : Exec NoPoolStep) (h0 : e.run 0 = ([], [])) (r : Req) (hs : e.WeakFair fun l => l = .start 0 r) (n : Nat) :
    (∃ k, n ≤ k ∧ (submitted 0 (e.trace n)).count r ≤ (started 0 (e.trace k)).count r) ∧
    (e.WeakFair (fun l => ∃ o, l = .finish 0 r o) → ∃ k, n ≤ k ∧ (submitted 0 (e.trace n)).count r ≤ (finished 0 (e.trace k)).count r) := by
  have hsteps : ∀ m, Steps NoPoolStep ([], []) (e.trace m) (e.run m) := fun m => h0 ▸ e.steps m
  generalize hN : (submitted 0 (e.trace n)).count r = N
  have msub : ∀ (ls : List Act) (l : Act), (submitted 0 ls).count r ≤ (submitted 0 (ls ++ [l])).count r := by
    intro ls l; simp [submitted, List.filterMap_append, List.count_append]
  have msta : ∀ (ls : List Act) (l : Act), (started 0 ls).count r ≤ (started 0 (ls ++ [l])).count r := by
    intro ls l; simp [started, List.filterMap_append, List.count_append]
  have mfin : ∀ (ls : List Act) (l : Act), (finished 0 ls).count r ≤ (finished 0 (ls ++ [l])).count r := by
    intro ls l; simp [finished, List.filterMap_append, List.count_append]
  have first : ∃ k, n ≤ k ∧ N ≤ (started 0 (e.trace k)).count r := by
    by_cases hdone : N ≤ (started 0 (e.trace n)).count r
    · exact ⟨n, Nat.le_refl _, hdone⟩
    refine e.recorded.leads_weak_dec hs.recorded (P := fun p => Steps NoPoolStep ([], []) p.2 p.1 ∧ N ≤ (submitted 0 p.2).count r ∧ (started 0 p.2).count r < N)
      (Q := fun p => N ≤ (started 0 p.2).count r) (fun p => N - (started 0 p.2).count r) ?_ ?_ ?_ (n := n)
      ⟨hsteps n, by show N ≤ (submitted 0 (e.trace n)).count r; omega, by show (started 0 (e.trace n)).count r < N; omega⟩
    · intro p l q ⟨h1, h2, h3⟩ ⟨hst, hq⟩
      have a1 := msub p.2 l
      have a2 := msta p.2 l
      rw [hq]
      by_cases hd : N ≤ (started 0 (p.2 ++ [l])).count r
      · exact .inr hd
      · exact .inl ⟨⟨h1.snoc hst, by omega, by omega⟩, by omega⟩
    · intro p l q ⟨h1, h2, h3⟩ ⟨hst, hq⟩ hA
      have a1 := msub p.2 l
      have a2 : (started 0 p.2).count r + 1 = (started 0 (p.2 ++ [l])).count r := by rw [hA]; simp [started, List.filterMap_append, List.count_append]
      rw [hq]
      by_cases hd : N ≤ (started 0 (p.2 ++ [l])).count r
      · exact .inr hd
      · exact .inl ⟨⟨h1.snoc hst, by omega, by omega⟩, by omega⟩
    · intro p ⟨h1, h2, h3⟩
      rw [enabled_recorded]
      have := (C70_partial h1 r).1
      obtain ⟨⟨x, y⟩, z⟩ := p
      exact ⟨_, _, rfl, .start x y r (List.count_pos_iff.1 (by simp only at this h2 h3 ⊢; omega))⟩
  refine ⟨first, fun hf => ?_⟩
  obtain ⟨k, hk, hN'⟩ := first
  by_cases hdone : N ≤ (finished 0 (e.trace k)).count r
  · exact ⟨k, hk, hdone⟩
  obtain ⟨m, hm, hq⟩ := e.recorded.leads_weak_dec hf.recorded (P := fun p => Steps NoPoolStep ([], []) p.2 p.1 ∧ N ≤ (started 0 p.2).count r ∧ (finished 0 p.2).count r < N)
    (Q := fun p => N ≤ (finished 0 p.2).count r) (fun p => N - (finished 0 p.2).count r) (by
      intro p l q ⟨h1, h2, h3⟩ ⟨hst, hq⟩
      have a1 := msta p.2 l
      have a2 := mfin p.2 l
      rw [hq]
      by_cases hd : N ≤ (finished 0 (p.2 ++ [l])).count r
      · exact .inr hd
      · exact .inl ⟨⟨h1.snoc hst, by omega, by omega⟩, by omega⟩) (by
      intro p l q ⟨h1, h2, h3⟩ ⟨hst, hq⟩ ⟨o, hA⟩
      have a1 := msta p.2 l
      have a2 : (finished 0 p.2).count r + 1 = (finished 0 (p.2 ++ [l])).count r := by rw [hA]; simp [finished, List.filterMap_append, List.count_append]
      rw [hq]
      by_cases hd : N ≤ (finished 0 (p.2 ++ [l])).count r
      · exact .inr hd
      · exact .inl ⟨⟨h1.snoc hst, by omega, by omega⟩, by omega⟩) (by
      intro p ⟨h1, h2, h3⟩
      rw [enabled_recorded]
      have := (C70_partial h1 r).2
      obtain ⟨⟨x, y⟩, z⟩ := p
      exact ⟨_, _, ⟨.returned, rfl⟩, .finish x y r .returned (List.count_pos_iff.1 (by simp only at this h2 h3 ⊢; omega))⟩) (n := k)
    ⟨hsteps k, hN', by show (finished 0 (e.trace k)).count r < N; omega⟩
  exact ⟨m, by omega, hq⟩

/-- The handler of a message of connection 2 does not return; connection 3 has another worker, and its message is handled. -/
theorem hang_example : ∃ (H : Req → Prop) (e : Exec (Step false (fun c => c) 1)), e.run 0 = initial (fun _ => []) ∧ Hangs H e ∧ (∀ r, H r → r.conn ≠ none) ∧
    (∀ n r, H r → r.conn = some 3 → (e.run n).worker 3 ≠ .busy r) ∧ (∃ n, Hung H e 2 n) ∧ ∃ n, arrivedAt 3 (e.trace n) ≠ [] := by
  let r2 : Req := ⟨some 2, 0, .message⟩
  let r3 : Req := ⟨some 3, 0, .message⟩
  have hsteps : ∃ s, Steps (Step false (fun c => c) 1) (initial fun _ => []) [.arrive 2 [r2], .submit 2 r2, .start 2 r2, .arrive 3 [r3], .submit 3 r3, .start 3 r3, .finish 3 r3 .returned] s ∧
      (∀ w, w ≠ 2 → s.worker w = .idle) ∧ s.worker 2 = .busy r2 ∧ (∀ w, s.queue w = []) ∧ ∀ d, s.todo d = [] := by
    refine ⟨_, .cons (.arrive _ 2 [r2] rfl (by simp [r2])) (.cons (.deliver _ 2 r2 [] rfl (by decide)) (.cons (.take _ 2 r2 [] rfl rfl) (.cons (.arrive _ 3 [r3] rfl (by simp [r3]))
      (.cons (.deliver _ 3 r3 [] rfl (by decide)) (.cons (.take _ 3 r3 [] rfl rfl) (.cons (.finish _ 3 r3 .returned rfl) (.nil _))))))), ?_, rfl, ?_, ?_⟩
    · intro w hw
      by_cases h3 : w = 3
      · subst h3; rfl
      · simp [upd, initial, hw, h3]
    · intro w; simp only [upd, initial]; grind
    · intro d; simp only [upd, initial]; grind
  obtain ⟨s, hs, s1, s2, s3, s4⟩ := hsteps
  obtain ⟨e, e1, e2, e3, e4⟩ := Exec.ofSteps hs
  refine ⟨fun q => q = r2, e, e1, ⟨?_, fun w => Exec.weakFair_of_end e4 ?_, fun d => Exec.strongFair_of_end e4 ?_⟩, fun r hr => by rw [hr]; simp [r2], fun n r hr hc => by rw [show r = r2 from hr] at hc; simp [r2] at hc,
    ⟨7, r2, rfl, by rw [e4 7 (by decide)]; exact s2⟩, ⟨7, by rw [e3]; simp [arrivedAt]⟩⟩
  · intro n w q o hq ha
    rw [e2] at ha
    rcases n with _ | _ | _ | _ | _ | _ | _ | n <;> simp at ha
    rw [← ha.2.1] at hq
    simp [r2, r3] at hq
  · intro ⟨l, t, hA, hs⟩
    cases hs with
    | take v q rest h1 h2 => rw [s3] at h2; cases h2
    | finish v q o h1 =>
      by_cases hv : v = 2
      · rw [hv, s2] at h1; cases h1; exact hA.2 rfl
      · rw [s1 v hv] at h1; cases h1
    | _ => cases hA
  · intro ⟨l, t, hA, hs⟩
    cases hs with
    | deliver d' q rest h1 h2 => rw [s4] at h1; cases h1
    | external v q h1 h2 => rw [readerActs, h1] at hA; cases hA
    | _ => cases hA

/-- The hypotheses of `C112_partial` hold of it, and so all of connection 3 is handled. -/
example : ∃ (H : Req → Prop) (e : Exec (Step false (fun c => c) 1)), Hangs H e ∧ (∃ n, Hung H e 2 n) ∧ (∃ n, arrivedAt 3 (e.trace n) ≠ []) ∧ AllHandled (fun _ => []) e 3 := by
  obtain ⟨H, e, h0, h1, h2, h3, h4, h5⟩ := hang_example
  exact ⟨H, e, h1, h4, h5, C112_partial (by simp) e h0 h1 3 (by simp) h2 h3⟩

/-- The hypotheses of `C112_nopool`: two messages, the handler of the first does not return. -/
example (a b : Req) (hab : a ≠ b) : ∃ e : Exec NoPoolStep, e.run 0 = ([], []) ∧ (∀ r, e.WeakFair fun l => l = .start 0 r) ∧ e.WeakFair (fun l => ∃ o, l = .finish 0 b o) ∧ (submitted 0 (e.trace 2)).count b = 1 ∧
    ∀ n, (finished 0 (e.trace n)).count a = 0 := by
  have hs : Steps NoPoolStep ([], []) [.submit 0 a, .submit 0 b, .start 0 a, .start 0 b, .finish 0 b .returned] ([], [a]) := by
    refine .cons (.deliver _ _ _) (.cons (.deliver _ _ _) (.cons (.start _ _ a (by simp)) ?_))
    have e1 : ([] ++ [a] ++ [b]).erase a = [b] := by simp
    rw [e1]
    refine .cons (.start _ _ b (by simp)) ?_
    have e2 : [b].erase b = [] := by simp
    rw [e2]
    refine .cons (.finish _ _ b _ (by simp)) ?_
    have e3 : ([] ++ [a] ++ [b]).erase b = [a] := by simp [hab]
    rw [e3]
    exact .nil _
  obtain ⟨e, e1, e2, e3, e4⟩ := Exec.ofSteps hs
  refine ⟨e, e1, fun r => Exec.weakFair_of_end e4 ?_, Exec.weakFair_of_end e4 ?_, by rw [e3]; simp [submitted, hab], fun n => ?_⟩
  · intro ⟨l, t, hA, hs⟩
    cases hs <;> simp at hA
    rename_i h; cases h
  · intro ⟨l, t, hA, hs⟩
    cases hs <;> simp at hA
    rename_i h
    rw [hA] at h
    simp at h
    exact hab h.symm
  · rw [e3]
    rcases n with _ | _ | _ | _ | _ | n <;> simp [finished, Ne.symm hab]

end Zinx.Props
