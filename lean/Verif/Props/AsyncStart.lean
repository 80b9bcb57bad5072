import Verif.Model.AsyncStart
import Verif.Props.Async
import Verif.Lemmas.ExecOf

/-! # C58: the workers are started once -/

namespace Zinx.Props
open Zinx Zinx.AsyncStart
open Zinx.Async (workerIndex WState WLabel WStep winit)

/-- The call is inside `Once`, holding the lock. -/
def inOnce : Pc → Bool
  | .held | .made | .started | .unlock => true
  | _ => false

structure AsyncStartInv (ops : Nat → Async.Op) (s : AsyncStart.State) : Prop where
  lock : ∀ i, inOnce (s.pc i) = true ↔ s.lock (workerIndex (ops i).id) = some i
  owner : ∀ w i, s.lock w = some i → workerIndex (ops i).id = w
  held : ∀ i, s.pc i = .held → s.arr (workerIndex (ops i).id) = none ∧ s.done (workerIndex (ops i).id) = false
  made : ∀ i, s.pc i = .made ∨ s.pc i = .started → s.arr (workerIndex (ops i).id) ≠ none ∧ s.done (workerIndex (ops i).id) = false
  done : ∀ w, s.done w = true → ∃ q, s.arr w = some q ∧ s.running q = true
  started : ∀ i, s.pc i = .started → ∃ q, s.arr (workerIndex (ops i).id) = some q ∧ s.running q = true
  none_ : ∀ w, s.lock w = none → s.done w = false → s.arr w = none
  past : ∀ i, s.pc i = .unlock ∨ s.pc i = .got → s.done (workerIndex (ops i).id) = true
  have_ : ∀ i q, s.pc i = .have_ q → s.arr (workerIndex (ops i).id) = some q ∧ s.done (workerIndex (ops i).id) = true
  dropped : ∀ i, s.pc i ≠ .dropped
  fresh : ∀ w q, s.arr w = some q → q < s.next
  inj : ∀ w w' q, s.arr w = some q → s.arr w' = some q → w = w'
  used : ∀ q, (s.running q = true ∨ s.queue q ≠ [] ∨ s.busy q ≠ none) → ∃ w, s.arr w = some q

set_option maxHeartbeats 2000000 in
theorem asyncStartInv_step {ops : Nat → Async.Op} {s t : AsyncStart.State} {l : AsyncStart.Label} (h : AsyncStartInv ops s) (hs : AsyncStart.Step ops s l t) : AsyncStartInv ops t := by
  obtain ⟨a1, a2, a3, a4, a5, a6, a7, a8, a9, a10, a11, a12, a13⟩ := h
  cases hs <;> constructor <;> try (intros; simp only [upd, inOnce] at *; grind)
  -- another call that has just started the worker
  rename_i i q h1 h2
  intro j hj
  show ∃ q', s.arr _ = some q' ∧ upd s.running q true q' = true
  by_cases e : j = i
  · subst e
    exact ⟨q, h2, by simp [upd]⟩
  · obtain ⟨q', h3, h4⟩ := a6 j (by simpa [upd, e] using hj)
    refine ⟨q', h3, ?_⟩
    unfold upd
    split
    · rfl
    · exact h4

theorem asyncStartInv {ops : Nat → Async.Op} {ls : List AsyncStart.Label} {s : AsyncStart.State} (h : Steps (AsyncStart.Step ops) {} ls s) : AsyncStartInv ops s :=
  h.invariant (P := AsyncStartInv ops) (fun _ _ _ h hs => asyncStartInv_step h hs) (by constructor <;> simp [inOnce])

/-- The queues by index, as in the model without the start of workers. -/
def byIndex (s : AsyncStart.State) : WState where
  queue w := match s.arr w with | some q => s.queue q | none => []
  busy w := match s.arr w with | some q => s.busy q | none => none

/-- Submissions, begins and ends, without the numbers of calls and queues. -/
def asyncSeen (ops : Nat → Async.Op) (ls : List AsyncStart.Label) : List WLabel :=
  ls.filterMap fun
    | .enter _ | .call _ => none
    | .submit i _ => some (.submit (ops i))
    | .begin _ o => some (.begin o)
    | .finish _ o p => some (.finish o p)

/-- **C58 (the race of the first calls).** However many goroutines call `Process` at the same time for an index that has no worker yet: every call gets a queue that has a worker, all calls for one index get the same, calls for
different indices different ones. -/
theorem C58_one_queue (ops : Nat → Async.Op) (ls : List AsyncStart.Label) (s : AsyncStart.State) (h : Steps (AsyncStart.Step ops) {} ls s) :
    (∀ i, s.pc i ≠ .dropped) ∧ (∀ i q, s.pc i = .have_ q → s.running q = true) ∧
      ∀ i j p q, s.pc i = .have_ p → s.pc j = .have_ q → (p = q ↔ workerIndex (ops i).id = workerIndex (ops j).id) := by
  have hi := asyncStartInv h
  refine ⟨hi.dropped, fun i q hq => ?_, fun i j p q hp hq => ?_⟩
  · obtain ⟨h1, h2⟩ := hi.have_ i q hq
    obtain ⟨q', h3, h4⟩ := hi.done _ h2
    rw [h1] at h3
    cases h3
    exact h4
  · have h1 := (hi.have_ i p hp).1
    have h2 := (hi.have_ j q hq).1
    constructor
    · intro e
      subst e
      exact hi.inj _ _ _ h1 h2
    · intro e
      rw [e, h2] at h1
      cases h1
      rfl

/-- **C58 (later calls).** Once the worker of an index has been started, a call of `Process` for this index does not wait for other callers: it goes straight to the queue. -/
theorem C58_no_wait {ops : Nat → Async.Op} {s t : AsyncStart.State} {i : Nat} (hd : s.done (workerIndex (ops i).id) = true) (h : AsyncStart.Step ops s (.enter i) t) : t.pc i = .got := by
  cases h with
  | fast _ h1 h2 => simp [AsyncStart.upd]
  | slow _ h1 h2 => rw [hd] at h2; cases h2

example (o : Async.Op) : AsyncStart.Step (fun _ => o) { done := fun _ => true } (.enter 3) { done := fun _ => true, pc := AsyncStart.upd (fun _ => .start) 3 .got } := .fast 3 rfl rfl

theorem start_refines_step {ops : Nat → Async.Op} {s t : AsyncStart.State} {l : AsyncStart.Label} (h : AsyncStartInv ops s) (hs : AsyncStart.Step ops s l t) :
    Steps WStep (byIndex s) (asyncSeen ops [l]) (byIndex t) := by
  have h' := asyncStartInv_step h hs
  cases hs with
  | fast i h1 h2 | slow i h1 h2 | lock i h1 h2 | go i q h1 h2 | setDone i h1 | unlock i h1 | read i h1 => exact .nil _
  | make i h1 =>
    have e : byIndex s = byIndex { s with arr := upd s.arr (workerIndex (ops i).id) (some s.next), next := s.next + 1, pc := upd s.pc i .made } := by
      have hn := h.held i h1
      have hq : s.queue s.next = [] ∧ s.busy s.next = none := by
        constructor
        · refine Classical.byContradiction fun hne => ?_
          obtain ⟨w, hw⟩ := h.used s.next (.inr (.inl hne))
          exact absurd (h.fresh w _ hw) (Nat.lt_irrefl _)
        · refine Classical.byContradiction fun hne => ?_
          obtain ⟨w, hw⟩ := h.used s.next (.inr (.inr hne))
          exact absurd (h.fresh w _ hw) (Nat.lt_irrefl _)
      unfold byIndex
      congr 1 <;> funext w <;> simp only [upd] <;> grind
    rw [← e]
    exact .nil _
  | submit i q h1 h2 =>
    have hq := (h.have_ i q h1).1
    have e : byIndex { s with queue := upd s.queue q (s.queue q ++ [ops i]), pc := upd s.pc i .sent } =
        { byIndex s with queue := Async.wset (byIndex s).queue (workerIndex (ops i).id) ((byIndex s).queue (workerIndex (ops i).id) ++ [ops i]) } := by
      unfold byIndex
      congr 1
      funext w
      have := h.inj w (workerIndex (ops i).id) q
      simp only [upd, Async.wset]
      grind
    rw [e]
    refine .cons (.submit ?_) (.nil _)
    show ((byIndex s).queue (workerIndex (ops i).id)).length < 2048
    simp only [byIndex, hq]
    exact h2
  | begin q o rest h1 h2 h3 =>
    obtain ⟨w, hw⟩ := h.used q (.inl h1)
    have e : byIndex { s with queue := upd s.queue q rest, busy := upd s.busy q (some o) } = { queue := Async.wset (byIndex s).queue w rest, busy := Async.wset (byIndex s).busy w (some o) } := by
      unfold byIndex
      congr 1 <;> funext w' <;> have := h.inj w w' q <;> simp only [upd, Async.wset] <;> grind
    rw [e]
    exact .cons (.begin (w := w) (rest := rest) (by simp only [byIndex, hw]; exact h2) (by simp only [byIndex, hw]; exact h3)) (.nil _)
  | finish q o p h1 =>
    obtain ⟨w, hw⟩ := h.used q (.inr (.inr (by rw [h1]; nofun)))
    have e : byIndex { s with busy := upd s.busy q none } = { byIndex s with busy := Async.wset (byIndex s).busy w none } := by
      unfold byIndex
      congr 1
      funext w'
      have := h.inj w w' q
      simp only [upd, Async.wset]
      grind
    rw [e]
    exact .cons (.finish (w := w) (by simp only [byIndex, hw]; exact h1)) (.nil _)

/-- The model with the start of workers does what the model without does. -/
theorem start_refines (ops : Nat → Async.Op) (ls : List AsyncStart.Label) (s : AsyncStart.State) (h : Steps (AsyncStart.Step ops) {} ls s) : Steps WStep winit (asyncSeen ops ls) (byIndex s) := by
  have : AsyncStartInv ops s ∧ Steps WStep winit (asyncSeen ops ls) (byIndex s) := by
    refine h.invariant_trace (P := fun ls s => AsyncStartInv ops s ∧ Steps WStep winit (asyncSeen ops ls) (byIndex s)) ?_ ⟨by constructor <;> simp [inOnce], .nil _⟩
    rintro ls s l t ⟨h1, h2⟩ hs
    refine ⟨asyncStartInv_step h1 hs, ?_⟩
    unfold asyncSeen
    rw [List.filterMap_append]
    exact h2.append (start_refines_step h1 hs)
  exact this.2

/-- **C58 (with the start of workers).** Also while workers are being started: operations of one ID begin in the order of their submission, none is skipped, and one begins only when the one before has finished. -/
theorem C58_start_fifo (ops : Nat → Async.Op) (ls : List AsyncStart.Label) (s : AsyncStart.State) (h : Steps (AsyncStart.Step ops) {} ls s) (id : Int) :
    (∃ waiting, submittedOf id (asyncSeen ops ls) = begunOf id (asyncSeen ops ls) ++ waiting) ∧
    (begunOf id (asyncSeen ops ls) = finishedOf id (asyncSeen ops ls) ∨ ∃ o, begunOf id (asyncSeen ops ls) = finishedOf id (asyncSeen ops ls) ++ [o]) :=
  C58_fifo _ _ (start_refines ops ls s h) id

end Zinx.Props
