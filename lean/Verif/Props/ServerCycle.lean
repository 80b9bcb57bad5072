import Verif.Model.ServerCycle
import Verif.Props.AsyncHomeLive
import Verif.Lemmas.ExecOf

/-! # C111: a server can be stopped and started again -/

namespace Zinx.Props

open Zinx Zinx.ServerCycle

/-- Calls of `Start`, calls of `Stop`, and listeners closed. -/
def startsIn (ls : List ServerCycle.Label) : Nat := ls.countP (· == .start)

def stopsIn (ls : List ServerCycle.Label) : Nat := ls.countP (· == .callStop)

def closesIn (ls : List ServerCycle.Label) : Nat := ls.countP fun | .closeListener _ => true | _ => false

/-- The calls alternate: `Start` if every start has been followed by a stop, `Stop` if not. -/
def InTurn (pre : List ServerCycle.Label) : ServerCycle.Label → Prop
  | .start => startsIn pre = stopsIn pre
  | .callStop => startsIn pre = stopsIn pre + 1
  | _ => True

/-- A goroutine tries to listen while an earlier listener has not been closed. -/
def TooEarly (pre : List ServerCycle.Label) : ServerCycle.Label → Prop
  | .listen _ => closesIn pre + 1 < startsIn pre
  | _ => False

/-- The listening goroutine is on its way to the exit channel of its start. -/
def OnTheWay (s : ServerCycle.State) (g : Nat) : Prop := s.lis g = .starting ∨ s.lis g = .bound ∨ s.lis g = .waiting g

def Leaving (s : ServerCycle.State) (g : Nat) : Prop := s.lis g = .closing ∨ s.lis g = .done

structure CycleInv (s : ServerCycle.State) (ls : List ServerCycle.Label) : Prop where
  dead : s.dead = false
  gen : s.gen = startsIn ls
  later : ∀ g, s.gen < g → s.lis g = .none ∧ s.closed g = false
  zero : s.lis 0 = .none ∧ s.closed 0 = false
  old : ∀ g, 1 ≤ g → g + 1 < s.gen → s.lis g = .done
  prev : ∀ g, 1 ≤ g → g + 1 = s.gen → s.lis g = .done ∨ (s.lis g = .closing ∧ s.lis s.gen = .starting)
  port : ∀ g, s.port = some g ↔ (s.lis g = .bound ∨ s.lis g = .waiting g ∨ s.lis g = .closing)
  idle : s.caller = .idle → (stopsIn ls = startsIn ls ∧ (1 ≤ s.gen → s.closed s.gen = true ∧ Leaving s s.gen)) ∨ (startsIn ls = stopsIn ls + 1 ∧ s.closed s.gen = false ∧ OnTheWay s s.gen)
  sending : ∀ ch, s.caller = .sending ch → ch = s.gen ∧ 1 ≤ s.gen ∧ stopsIn ls = startsIn ls ∧ s.closed s.gen = false ∧ OnTheWay s s.gen
  closing : ∀ ch, s.caller = .closing ch → ch = s.gen ∧ 1 ≤ s.gen ∧ stopsIn ls = startsIn ls ∧ s.closed s.gen = false ∧ Leaving s s.gen
  all : s.gen = 0 ∨ s.lis s.gen = .done → closesIn ls = startsIn ls
  one : 1 ≤ s.gen → s.lis s.gen ≠ .done → (∀ g, 1 ≤ g → g + 1 = s.gen → s.lis g = .done) → closesIn ls + 1 = startsIn ls
  two : ∀ g, 1 ≤ g → g + 1 = s.gen → s.lis g = .closing → closesIn ls + 2 = startsIn ls
  acc : ∀ g, s.acc g = .none → s.lis g = .none ∨ s.lis g = .starting

theorem starts_snoc (ls : List ServerCycle.Label) (l : ServerCycle.Label) : startsIn (ls ++ [l]) = startsIn ls + if l = .start then 1 else 0 := by
  unfold startsIn
  rw [List.countP_append]
  cases l <;> simp

theorem stops_snoc (ls : List ServerCycle.Label) (l : ServerCycle.Label) : stopsIn (ls ++ [l]) = stopsIn ls + if l = .callStop then 1 else 0 := by
  unfold stopsIn
  rw [List.countP_append]
  cases l <;> simp

theorem closes_snoc (ls : List ServerCycle.Label) (l : ServerCycle.Label) : closesIn (ls ++ [l]) = closesIn ls + match l with | .closeListener _ => 1 | _ => 0 := by
  unfold closesIn
  rw [List.countP_append]
  cases l <;> simp

/-- Every goroutine that is not past its end belongs to the last start or the one before. -/
theorem CycleInv.where_ {s : ServerCycle.State} {ls : List ServerCycle.Label} (h : CycleInv s ls) (g : Nat) :
    s.lis g = .none ∨ s.lis g = .done ∨ (g = s.gen ∧ 1 ≤ g) ∨ (1 ≤ g ∧ g + 1 = s.gen ∧ s.lis g = .closing ∧ s.lis s.gen = .starting) := by
  have h1 := h.later g
  have h2 := h.zero
  have h3 := h.old g
  have h4 := h.prev g
  grind

theorem CycleInv.cur {s : ServerCycle.State} {ls : List ServerCycle.Label} (h : CycleInv s ls) : s.gen = 0 ∨ OnTheWay s s.gen ∨ Leaving s s.gen := by
  rcases hc : s.caller with _ | ch | ch
  · rcases h.idle hc with h1 | h1
    · by_cases hg : s.gen = 0
      · exact .inl hg
      · exact .inr (.inr (h1.2 (by omega)).2)
    · exact .inr (.inl h1.2.2)
  · exact .inr (.inl (h.sending ch hc).2.2.2.2)
  · exact .inr (.inr (h.closing ch hc).2.2.2.2)

theorem CycleInv.free {s : ServerCycle.State} {ls : List ServerCycle.Label} (h : CycleInv s ls) {g : Nat} (hg : s.lis g = .starting) : g = s.gen ∧ (s.port = none ↔ ¬ closesIn ls + 1 < startsIn ls) := by
  have hw := h.where_
  have hgg : g = s.gen := by
    have := hw g
    grind
  refine ⟨hgg, ?_⟩
  have h6 := h.prev
  have h7 := h.port
  have h12 := h.one
  have h13 := h.two
  rcases hp : s.port with _ | k
  · have : ∀ g, 1 ≤ g → g + 1 = s.gen → s.lis g = .done := by
      intro k k1 k2
      have := h7 k
      have := h6 k k1 k2
      grind
    have := hw g
    grind
  · have := hw k
    have := h7 k
    grind

theorem cycle_step {mode : Mode} {s t : ServerCycle.State} {l : ServerCycle.Label} {ls : List ServerCycle.Label} (h : CycleInv s ls) (hs : ServerCycle.Step mode s l t) (hin : InTurn ls l) (he : ¬ TooEarly ls l) :
    CycleInv t (ls ++ [l]) := by
  have hw := h.where_
  have hc := h.cur
  have hfree := fun g => h.free (g := g)
  have hst := starts_snoc ls l
  have hsp := stops_snoc ls l
  have hcl := closes_snoc ls l
  obtain ⟨h1, h2, h3, h4, h5, h6, h7, h8, h9, h10, h11, h12, h13, h14⟩ := h
  unfold OnTheWay Leaving at *
  cases hs <;> simp only [InTurn, TooEarly] at hin he <;> simp at hst hsp hcl <;> refine ⟨?_, ?_, ?_, ?_, ?_, ?_, ?_, ?_, ?_, ?_, ?_, ?_, ?_, ?_⟩ <;> (try simp only [upd, OnTheWay, Leaving]) <;> grind

/-- What an early attempt to listen leaves: a dead process; with KCP, a start without a listener. -/
def Broken (mode : Mode) (s : ServerCycle.State) : Prop :=
  match mode with
  | .tcp => s.dead = true
  | .kcp => s.lis s.gen = .failed

/-- With KCP, after the attempt. -/
structure FailedInv (s : ServerCycle.State) (ls : List ServerCycle.Label) : Prop where
  cur : s.lis s.gen = .failed
  closed : s.closed s.gen = false
  later : ∀ g, s.gen < g → s.lis g = .none
  ends : ∀ g, g < s.gen → s.lis g = .none ∨ s.lis g = .closing ∨ s.lis g = .done
  caller : (s.caller = .idle ∧ startsIn ls = stopsIn ls + 1) ∨ (s.caller = .sending s.gen ∧ stopsIn ls = startsIn ls)
  gen : s.gen = startsIn ls
  dead : s.dead = false

theorem failed_step {s t : ServerCycle.State} {l : ServerCycle.Label} {ls : List ServerCycle.Label} (h : FailedInv s ls) (hs : ServerCycle.Step .kcp s l t) (hin : InTurn ls l) : FailedInv t (ls ++ [l]) := by
  have hst := starts_snoc ls l
  have hsp := stops_snoc ls l
  have hw : ∀ g, s.lis g = .none ∨ s.lis g = .closing ∨ s.lis g = .done ∨ (g = s.gen ∧ s.lis g = .failed) := by
    intro g
    have h3 := h.later g
    have h4 := h.ends g
    have h1 := h.cur
    grind
  obtain ⟨h1, h2, h3, h4, h5, h6, h7⟩ := h
  cases hs <;> simp only [InTurn] at hin <;> simp at hst hsp <;> refine ⟨?_, ?_, ?_, ?_, ?_, ?_, ?_⟩ <;> (try simp only [upd]) <;> grind

theorem early_step {mode : Mode} {s t : ServerCycle.State} {l : ServerCycle.Label} {ls : List ServerCycle.Label} (h : CycleInv s ls) (hs : ServerCycle.Step mode s l t) (he : TooEarly ls l) :
    (mode = .tcp ∧ t.dead = true) ∨ (mode = .kcp ∧ FailedInv t (ls ++ [l])) := by
  have hw := h.where_
  have hfree := fun g => h.free (g := g)
  have hst := starts_snoc ls l
  have hsp := stops_snoc ls l
  obtain ⟨h1, h2, h3, h4, h5, h6, h7, h8, h9, h10, h11, h12, h13, h14⟩ := h
  unfold OnTheWay Leaving at *
  cases hs <;> simp only [TooEarly] at he
  · grind
  · grind
  · simp at hst hsp
    refine .inr ⟨‹_›, ?_⟩
    rcases hcall : s.caller with _ | ch | ch <;> refine ⟨?_, ?_, ?_, ?_, ?_, ?_, ?_⟩ <;> (try simp only [upd]) <;> grind

/-- The calls of `Start` and `Stop` alternate, and nothing tries to listen too early. -/
def Alternate (ls : List ServerCycle.Label) : Prop := ∀ pre l post, ls = pre ++ l :: post → InTurn pre l

def Early (ls : List ServerCycle.Label) : Prop := ∃ pre l post, ls = pre ++ l :: post ∧ TooEarly pre l

instance (pre : List ServerCycle.Label) (l : ServerCycle.Label) : Decidable (InTurn pre l) := by
  cases l <;> unfold InTurn <;> infer_instance

theorem alternate_of {ls : List ServerCycle.Label} (h : ∀ i (hi : i < ls.length), InTurn (ls.take i) ls[i]) : Alternate ls := by
  rintro pre l post rfl
  have := h pre.length (by simp)
  simpa using this

theorem cycle_start : CycleInv {} [] := by
  refine ⟨rfl, rfl, fun _ _ => ⟨rfl, rfl⟩, ⟨rfl, rfl⟩, ?_, ?_, ?_, ?_, ?_, ?_, ?_, ?_, ?_, ?_⟩ <;> simp [startsIn, stopsIn, closesIn]

theorem cycle_inv {mode : Mode} {ls : List ServerCycle.Label} {t : ServerCycle.State} (h : Steps (ServerCycle.Step mode) {} ls t) (ha : Alternate ls) :
    (CycleInv t ls ∧ ¬ Early ls) ∨ (Early ls ∧ ((mode = .tcp ∧ t.dead = true) ∨ (mode = .kcp ∧ FailedInv t ls))) := by
  have key : ∀ (ls : List ServerCycle.Label) (t : ServerCycle.State), Steps (ServerCycle.Step mode) {} ls t → (Alternate ls →
      (CycleInv t ls ∧ ¬ Early ls) ∨ (Early ls ∧ ((mode = .tcp ∧ t.dead = true) ∨ (mode = .kcp ∧ FailedInv t ls)))) := by
    intro ls t h
    refine h.invariant_trace (P := fun ls t => Alternate ls → (CycleInv t ls ∧ ¬ Early ls) ∨ (Early ls ∧ ((mode = .tcp ∧ t.dead = true) ∨ (mode = .kcp ∧ FailedInv t ls)))) ?_ ?_
    · intro ls s l t ih hs ha
      have hpre : Alternate ls := fun pre k post e => ha pre k (post ++ [l]) (by rw [e]; simp)
      have hin : InTurn ls l := ha ls l [] rfl
      have hmore : Early ls → Early (ls ++ [l]) := by
        rintro ⟨pre, k, post, e, he⟩
        exact ⟨pre, k, post ++ [l], by rw [e]; simp, he⟩
      rcases ih hpre with ⟨h1, h2⟩ | ⟨h1, ⟨h2, h3⟩ | ⟨h2, h3⟩⟩
      · by_cases he : TooEarly ls l
        · exact .inr ⟨⟨ls, l, [], rfl, he⟩, early_step h1 hs he⟩
        · refine .inl ⟨cycle_step h1 hs hin he, ?_⟩
          rintro ⟨pre, k, post, e, hk⟩
          rcases List.eq_nil_or_concat post with rfl | ⟨post', z, rfl⟩
          · obtain ⟨rfl, e2⟩ := List.append_inj' e rfl
            cases e2
            exact he hk
          · rw [List.concat_eq_append, ← List.cons_append, ← List.append_assoc] at e
            obtain ⟨rfl, e2⟩ := List.append_inj' e rfl
            exact h2 ⟨pre, k, post', rfl, hk⟩
      · cases hs <;> simp_all
      · subst h2
        exact .inr ⟨hmore h1, .inr ⟨rfl, failed_step h3 hs hin⟩⟩
    · intro _
      refine .inl ⟨cycle_start, ?_⟩
      rintro ⟨pre, l, post, h, -⟩
      simp at h
  exact key ls t h ha

/-- **C111 (exactly when it breaks).** If the calls of `Start` and `Stop` alternate, each after the one before has returned, the process dies (TCP), or a start is left without a listener (KCP), exactly if
a start tries to listen before the listener of the start before has been closed. -/
theorem C111_exact (mode : Mode) (ls : List ServerCycle.Label) (t : ServerCycle.State) (h : Steps (ServerCycle.Step mode) {} ls t) (ha : Alternate ls) : Broken mode t ↔ Early ls := by
  have hcur : CycleInv t ls → ¬ Broken mode t := by
    intro hc hb
    have h1 := hc.cur
    have h2 := hc.zero
    have h3 := hc.dead
    unfold OnTheWay Leaving at h1
    unfold Broken at hb
    cases mode <;> simp only at hb
    · rw [h3] at hb; cases hb
    · grind
  rcases cycle_inv h ha with ⟨h1, h2⟩ | ⟨h1, ⟨h2, h3⟩ | ⟨h2, h3⟩⟩
  · exact ⟨fun hb => absurd hb (hcur h1), fun he => absurd he h2⟩
  · subst h2; exact ⟨fun _ => h1, fun _ => h3⟩
  · subst h2; exact ⟨fun _ => h1, fun _ => h3.cur⟩

/-- The goroutines run: those that listen, and the one that calls. -/
structure CycleFair {mode : Mode} (e : Exec (ServerCycle.Step mode)) : Prop where
  listen : ∀ g, e.WeakFair (· = .listen g)
  select : ∀ g, e.WeakFair (· = .select g)
  handOver : ∀ g, e.WeakFair (· = .handOver g)
  stopReturns : e.WeakFair (· = .stopReturns)
  closeListener : ∀ g, e.WeakFair (· = .closeListener g)
  accept : ∀ g, e.WeakFair (· = .acceptErr g)

section

variable {mode : Mode} (e : Exec (ServerCycle.Step mode)) (h0 : e.run 0 = {}) (hin : ∀ n l, e.act n = some l → InTurn (e.trace n) l) (he : ∀ n l, e.act n = some l → ¬ TooEarly (e.trace n) l)

include h0 hin he

theorem cycle_exec (n : Nat) : CycleInv (e.run n) (e.trace n) := by
  induction n with
  | zero => rw [h0]; exact cycle_start
  | succ n ih =>
    have hn := e.next n
    unfold Exec.trace
    cases ha : e.act n with
    | none =>
      rw [ha] at hn
      simp only at hn
      rw [hn]
      show CycleInv _ (_ ++ [])
      rw [List.append_nil]
      exact ih
    | some l =>
      rw [ha] at hn
      exact cycle_step ih hn (hin n l ha) (he n l ha)

/-- A start listens. -/
theorem cycle_listens (hf : CycleFair e) {n g : Nat} (hg : (e.run n).lis g = .starting) : ∃ m, n ≤ m ∧ e.act m = some (.listen g) ∧ (e.run (m + 1)).port = some g ∧ (e.run (m + 1)).lis g = .bound := by
  have hd := fun m => (cycle_exec e h0 hin he m).dead
  obtain ⟨m, hm, hq⟩ := leads_later e (hf.listen g) (P := fun s => s.lis g = .starting) (Q := fun m => ∃ k, m = k + 1 ∧ n ≤ k ∧ e.act k = some (.listen g) ∧ (e.run m).port = some g ∧ (e.run m).lis g = .bound)
    (n := n) (by
      intro m l hm ha hs hp
      have hfree := (cycle_exec e h0 hin he m).free hp
      have hte := he m l ha
      have hx := hd (m + 1)
      by_cases hl : l = .listen g
      · right
        refine ⟨m, rfl, hm, hl ▸ ha, ?_⟩
        subst hl
        simp only [TooEarly] at hte
        generalize e.run (m + 1) = t at hs hx
        cases hs <;> simp_all [upd]
      · left
        refine ⟨hl, ?_⟩
        have hgen := (cycle_exec e h0 hin he m).later
        generalize e.run (m + 1) = t at hs hx
        cases hs <;> (try simp only [upd]) <;> grind)
    (by
      intro m hm hp
      have hfree := (cycle_exec e h0 hin he m).free hp
      by_cases hpt : (e.run m).port = none
      · exact ⟨_, _, rfl, .listen g (hd m) hp hpt⟩
      · cases mode
        · exact ⟨_, _, rfl, .listenDies g rfl (hd m) hp hpt⟩
        · exact ⟨_, _, rfl, .listenFails g rfl (hd m) hp hpt⟩) hg
  obtain ⟨k, rfl, hk, h1, h2⟩ := hq
  exact ⟨k, hk, h1, h2⟩

/-- A listener that is being closed is closed. -/
theorem cycle_closes (hf : CycleFair e) {n g : Nat} (hg : (e.run n).lis g = .closing) : ∃ m, n ≤ m ∧ e.act m = some (.closeListener g) ∧ (e.run (m + 1)).lis g = .done := by
  have hd := fun m => (cycle_exec e h0 hin he m).dead
  obtain ⟨m, hm, hq⟩ := leads_later e (hf.closeListener g) (P := fun s => s.lis g = .closing) (Q := fun m => ∃ k, m = k + 1 ∧ n ≤ k ∧ e.act k = some (.closeListener g) ∧ (e.run m).lis g = .done)
    (n := n) (by
      intro m l hm ha hs hp
      have hgen := (cycle_exec e h0 hin he m).later
      by_cases hl : l = .closeListener g
      · right
        refine ⟨m, rfl, hm, hl ▸ ha, ?_⟩
        subst hl
        generalize e.run (m + 1) = t at hs
        cases hs
        simp [upd]
      · left
        refine ⟨hl, ?_⟩
        generalize e.run (m + 1) = t at hs
        cases hs <;> (try simp only [upd]) <;> grind)
    (fun m hm hp => ⟨_, _, rfl, .closeListener g (hd m) hp⟩) hg
  obtain ⟨k, rfl, hk, h1, h2⟩ := hq
  exact ⟨k, hk, h1, h2⟩

/-- With TCP, the goroutine that accepts ends when the listener has been closed. -/
theorem cycle_accept_ends (hf : CycleFair e) (hm : mode = .tcp) {n g : Nat} (hg : (e.run n).lis g = .done) : ∃ m, n ≤ m ∧ (e.run m).acc g = .ended := by
  have hd := fun m => (cycle_exec e h0 hin he m).dead
  have hacc := (cycle_exec e h0 hin he n).acc g
  cases ha : (e.run n).acc g with
  | none => rw [hg] at hacc; simp [ha] at hacc
  | ended => exact ⟨n, Nat.le_refl _, ha⟩
  | running =>
    refine leads_on e (hf.accept g) (P := fun s => s.lis g = .done ∧ s.acc g = .running) (Q := fun m => (e.run m).acc g = .ended) (n := n) ?_ ?_ ⟨hg, ha⟩
    · intro m l _ hal hs hp
      have hgen := (cycle_exec e h0 hin he m).later
      generalize e.run (m + 1) = t at hs
      subst hm
      cases hs <;> (try simp only [upd]) <;> grind
    · intro m _ hp
      subst hm
      exact ⟨_, _, rfl, .acceptEnds g rfl (hd m) hp.2 hp.1⟩

/-- A call of `Stop` returns, and the listening goroutine goes on to close the listener. -/
theorem cycle_stop_returns (hf : CycleFair e) {n g : Nat} (hg : (e.run n).caller = .sending g) : ∃ m, n ≤ m ∧ e.act m = some .stopReturns ∧ ∃ k, n ≤ k ∧ (e.run k).lis g = .closing := by
  have inv := cycle_exec e h0 hin he
  have hd := fun m => (inv m).dead
  obtain ⟨m1, hm1, h1⟩ : ∃ m, n ≤ m ∧ (e.run m).caller = .sending g ∧ ((e.run m).lis g = .bound ∨ (e.run m).lis g = .waiting g) := by
    obtain ⟨rfl, -, -, -, h | h⟩ := (inv n).sending g hg
    · refine leads_on e (hf.listen (e.run n).gen) (P := fun s => s.caller = .sending (e.run n).gen ∧ s.lis (e.run n).gen = .starting)
        (Q := fun m => (e.run m).caller = .sending (e.run n).gen ∧ ((e.run m).lis (e.run n).gen = .bound ∨ (e.run m).lis (e.run n).gen = .waiting (e.run n).gen)) (n := n) ?_ ?_ ⟨hg, h⟩
      · intro m l _ hal hs hp
        have hfree := (inv m).free hp.2
        have hw := (inv m).where_
        have hte := he m l hal
        have hx := hd (m + 1)
        generalize (e.run n).gen = g at *
        generalize e.run (m + 1) = t at hs hx
        cases hs <;> (try simp only [TooEarly] at hte) <;> (try simp only [upd]) <;> grind
      · intro m _ hp
        by_cases hpt : (e.run m).port = none
        · exact ⟨_, _, rfl, .listen _ (hd m) hp.2 hpt⟩
        · cases mode
          · exact ⟨_, _, rfl, .listenDies _ rfl (hd m) hp.2 hpt⟩
          · exact ⟨_, _, rfl, .listenFails _ rfl (hd m) hp.2 hpt⟩
    · exact ⟨n, Nat.le_refl _, hg, h⟩
  obtain ⟨m2, hm2, h2⟩ : ∃ m, n ≤ m ∧ (e.run m).caller = .sending g ∧ (e.run m).lis g = .waiting g := by
    rcases h1 with ⟨hc, h | h⟩
    · obtain ⟨m, hm, h⟩ := leads_on e (hf.select g) (P := fun s => s.caller = .sending g ∧ s.lis g = .bound) (Q := fun m => (e.run m).caller = .sending g ∧ (e.run m).lis g = .waiting g) (n := m1) (by
        intro m l _ hal hs hp
        have hsg := (inv m).sending g hp.1
        have hw := (inv m).where_
        generalize e.run (m + 1) = t at hs
        cases hs <;> (try simp only [upd]) <;> grind) (fun m _ hp => ⟨_, _, rfl, .select g (hd m) hp.2⟩) ⟨hc, h⟩
      exact ⟨m, by omega, h⟩
    · exact ⟨m1, hm1, hc, h⟩
  obtain ⟨m3, hm3, h3⟩ := leads_on e (hf.handOver g) (P := fun s => s.caller = .sending g ∧ s.lis g = .waiting g) (Q := fun m => (e.run m).caller = .closing g ∧ (e.run m).lis g = .closing) (n := m2) (by
      intro m l _ hal hs hp
      have hsg := (inv m).sending g hp.1
      have hw := (inv m).where_
      generalize e.run (m + 1) = t at hs
      cases hs <;> (try simp only [upd]) <;> grind)
    (fun m _ hp => ⟨_, _, rfl, .handOver g g (hd m) hp.1 hp.2 (by have := (inv m).sending g hp.1; omega)⟩) h2
  obtain ⟨m4, hm4, k, rfl, hk, h4⟩ := leads_later e hf.stopReturns (P := fun s => s.caller = .closing g) (Q := fun m => ∃ k, m = k + 1 ∧ m3 ≤ k ∧ e.act k = some .stopReturns) (n := m3) (by
      intro m l hm hal hs hp
      by_cases hl : l = .stopReturns
      · exact .inr ⟨m, rfl, hm, hl ▸ hal⟩
      · left
        refine ⟨hl, ?_⟩
        generalize e.run (m + 1) = t at hs
        cases hs <;> grind)
    (fun m _ hp => ⟨_, _, rfl, .stopReturns g (hd m) hp⟩) h3.1
  exact ⟨k, by omega, h4, m3, by omega, h3.2⟩

end

/-- **C111**, in part: suppose the calls of `Start` and `Stop` alternate, each after the one before has returned, and no start tries to listen before the listener of the start before has been closed.
Then the process lives and no start is without its listener; a start listens at the port; a stop returns, closes the listener and sets the port free; with TCP, the goroutine that accepts ends. -/
theorem C111_partial (mode : Mode) (e : Exec (ServerCycle.Step mode)) (h0 : e.run 0 = {}) (hin : ∀ n l, e.act n = some l → InTurn (e.trace n) l) (he : ∀ n l, e.act n = some l → ¬ TooEarly (e.trace n) l)
    (hf : CycleFair e) :
    (∀ n, (e.run n).dead = false ∧ ∀ g, (e.run n).lis g ≠ .failed) ∧
    (∀ n, e.act n = some .start → ∃ m, n < m ∧ e.act m = some (.listen (startsIn (e.trace n) + 1)) ∧ (e.run (m + 1)).port = some (startsIn (e.trace n) + 1)) ∧
    (∀ n, e.act n = some .callStop → (∃ m, n < m ∧ e.act m = some .stopReturns) ∧
      (∃ m, n < m ∧ e.act m = some (.closeListener (startsIn (e.trace n))) ∧ (e.run (m + 1)).port = none) ∧
      (mode = .tcp → ∃ m, n < m ∧ ∀ k, m ≤ k → (e.run k).acc (startsIn (e.trace n)) = .ended)) := by
  have inv := cycle_exec e h0 hin he
  refine ⟨fun n => ⟨(inv n).dead, fun g hg => ?_⟩, ?_, ?_⟩
  · have h1 := (inv n).where_ g
    have h2 := (inv n).cur
    unfold OnTheWay Leaving at h2
    grind
  · intro n ha
    have hs := e.next n
    rw [ha] at hs
    have hl : (e.run (n + 1)).lis (startsIn (e.trace n) + 1) = .starting := by
      have := (inv n).gen
      generalize e.run (n + 1) = t at hs
      cases hs
      simp [upd, this]
    obtain ⟨m, hm, h1, h2, -⟩ := cycle_listens e h0 hin he hf hl
    exact ⟨m, by omega, h1, h2⟩
  · intro n ha
    have hs := e.next n
    rw [ha] at hs
    have hx := (inv (n + 1)).dead
    have hc : (e.run (n + 1)).caller = .sending (startsIn (e.trace n)) := by
      have := (inv n).gen
      generalize e.run (n + 1) = t at hs hx
      cases hs
      · simp [this]
      · cases hx
    obtain ⟨m, hm, h1, k, hk, h2⟩ := cycle_stop_returns e h0 hin he hf hc
    obtain ⟨j, hj, h3, h4⟩ := cycle_closes e h0 hin he hf h2
    refine ⟨⟨m, by omega, h1⟩, ⟨j, by omega, h3, ?_⟩, fun hm => ?_⟩
    · have hs := e.next j
      rw [h3] at hs
      generalize e.run (j + 1) = t at hs
      cases hs
      rfl
    · obtain ⟨i, hi, h5⟩ := cycle_accept_ends e h0 hin he hf hm h4
      refine ⟨i, by omega, fun k hk => ?_⟩
      have hl : (e.run i).lis (startsIn (e.trace n)) = .done :=
        e.invariant (P := fun s => s.lis (startsIn (e.trace n)) = .done ∧ startsIn (e.trace n) ≤ s.gen) (n := j + 1) (by
          intro s l t hp hs
          cases hs <;> (try simp only [upd]) <;> grind) ⟨h4, by
            have := (inv (j + 1)).later (startsIn (e.trace n))
            rw [h4] at this
            exact Nat.le_of_not_lt fun h => nomatch (this h).1⟩ i hi |>.1
      exact (e.invariant (P := fun s => s.lis (startsIn (e.trace n)) = .done ∧ s.acc (startsIn (e.trace n)) = .ended ∧ startsIn (e.trace n) ≤ s.gen) (n := i) (by
          intro s l t hp hs
          cases hs <;> (try simp only [upd]) <;> grind) ⟨hl, h5, by
            have := (inv i).later (startsIn (e.trace n))
            rw [hl] at this
            exact Nat.le_of_not_lt fun h => nomatch (this h).1⟩ k hk).2.1

/-- **C111, refuted (TCP).** `Start`, `Stop` and, when it has returned, `Start` again: the process dies, since `Stop` returns before the listener has been closed. -/
theorem C111_refuted : ∃ ls t, Steps (ServerCycle.Step .tcp) {} ls t ∧ Alternate ls ∧ t.dead = true ∧ startsIn ls = 2 ∧ stopsIn ls = 1 ∧ .stopReturns ∈ ls := by
  refine ⟨[.start, .listen 1, .select 1, .callStop, .handOver 1, .stopReturns, .start, .listen 2], _, .cons (.start rfl rfl) <| .cons (.listen 1 rfl rfl rfl) <| .cons (.select 1 rfl rfl) <| .cons (.callStop rfl rfl rfl) <|
    .cons (.handOver 1 1 rfl rfl rfl (by decide)) <| .cons (.stopReturns 1 rfl rfl) <| .cons (.start rfl rfl) <| .cons (.listenDies 2 rfl rfl rfl (by simp)) (.nil _), ?_, rfl, by decide, by decide, by decide⟩
  exact alternate_of (by decide)

/-- **C111, refuted (KCP).** With KCP the second `Start` is left without a listener, and the `Stop` after it never returns. -/
theorem C111_kcp_refuted : ∃ ls t, Steps (ServerCycle.Step .kcp) {} ls t ∧ Alternate ls ∧ startsIn ls = 2 ∧ stopsIn ls = 2 ∧
    ∀ ls' t', Steps (ServerCycle.Step .kcp) t ls' t' → t'.caller = .sending 2 ∧ .stopReturns ∉ ls' ∧ .listen 2 ∉ ls' := by
  refine ⟨[.start, .listen 1, .select 1, .callStop, .handOver 1, .stopReturns, .start, .listen 2, .callStop], _, .cons (.start rfl rfl) <| .cons (.listen 1 rfl rfl rfl) <| .cons (.select 1 rfl rfl) <| .cons (.callStop rfl rfl rfl) <|
    .cons (.handOver 1 1 rfl rfl rfl (by decide)) <| .cons (.stopReturns 1 rfl rfl) <| .cons (.start rfl rfl) <| .cons (.listenFails 2 rfl rfl rfl (by simp)) <| .cons (.callStop rfl rfl rfl) (.nil _),
    alternate_of (by decide), by decide, by decide, ?_⟩
  intro ls' t' h
  have := h.invariant_trace (P := fun ls s => (s.caller = .sending 2 ∧ s.lis 2 = .failed ∧ ∀ g, s.lis g = .none ∨ s.lis g = .closing ∨ s.lis g = .done ∨ s.lis g = .failed) ∧ .stopReturns ∉ ls ∧ .listen 2 ∉ ls) ?_ ?_
  · exact ⟨this.1.1, this.2⟩
  · rintro ls s l t ⟨⟨h1, h2, h3⟩, h4, h5⟩ hs
    cases hs <;> (try simp only [upd]) <;> grind
  · refine ⟨⟨rfl, rfl, fun g => ?_⟩, by simp, by simp⟩
    simp only [upd]
    grind

/-- **C111, refuted (the goroutine that accepts).** With KCP it never ends, also when the listener has been closed. -/
theorem C111_accept_refuted : (∀ ls t g, Steps (ServerCycle.Step .kcp) {} ls t → t.acc g ≠ .ended) ∧
    ∃ ls t, Steps (ServerCycle.Step .kcp) {} ls t ∧ Alternate ls ∧ t.lis 1 = .done ∧ t.acc 1 = .running ∧ t.caller = .idle := by
  constructor
  · intro ls t g h
    refine h.invariant (P := fun s => s.acc g ≠ .ended) ?_ (by simp)
    intro s l t hp hs
    cases hs <;> (try simp only [upd]) <;> grind
  · exact ⟨[.start, .listen 1, .select 1, .callStop, .handOver 1, .stopReturns, .closeListener 1, .acceptErr 1], _, .cons (.start rfl rfl) <| .cons (.listen 1 rfl rfl rfl) <| .cons (.select 1 rfl rfl) <|
      .cons (.callStop rfl rfl rfl) <| .cons (.handOver 1 1 rfl rfl rfl (by decide)) <| .cons (.stopReturns 1 rfl rfl) <| .cons (.closeListener 1 rfl rfl) <| .cons (.acceptAgain 1 rfl rfl rfl rfl) (.nil _),
      alternate_of (by decide), rfl, rfl, rfl⟩

/-- **C111, refuted (two calls of `Start` without `Stop`, KCP).** Whether the next `Stop` returns depends on a race: if the listening goroutine of the first `Start` had come to its `select`, it waits on the exit channel of that
start, which `Stop` does not know any more, and `Stop` never returns; if it comes there after the second `Start`, it waits on the new exit channel, and `Stop` returns. -/
theorem C111_start_twice_refuted :
    (∃ t, Steps (ServerCycle.Step .kcp) {} [.start, .listen 1, .select 1, .start, .listen 2, .callStop] t ∧ ∀ ls' t', Steps (ServerCycle.Step .kcp) t ls' t' → t'.caller = .sending 2 ∧ t'.port = some 1 ∧ .stopReturns ∉ ls') ∧
    ∃ t, Steps (ServerCycle.Step .kcp) {} [.start, .listen 1, .start, .listen 2, .select 1, .callStop, .handOver 1, .stopReturns, .closeListener 1] t ∧ t.caller = .idle ∧ t.port = none := by
  refine ⟨⟨_, .cons (.start rfl rfl) <| .cons (.listen 1 rfl rfl rfl) <| .cons (.select 1 rfl rfl) <| .cons (.start rfl rfl) <| .cons (.listenFails 2 rfl rfl rfl (by simp)) <| .cons (.callStop rfl rfl rfl) (.nil _), ?_⟩,
    _, .cons (.start rfl rfl) <| .cons (.listen 1 rfl rfl rfl) <| .cons (.start rfl rfl) <| .cons (.listenFails 2 rfl rfl rfl (by simp)) <| .cons (.select 1 rfl rfl) <| .cons (.callStop rfl rfl rfl) <|
      .cons (.handOver 1 2 rfl rfl rfl (by decide)) <| .cons (.stopReturns 2 rfl rfl) <| .cons (.closeListener 1 rfl rfl) (.nil _), rfl, rfl⟩
  intro ls' t' h
  have := h.invariant_trace (P := fun ls s => (s.caller = .sending 2 ∧ s.port = some 1 ∧ s.lis 1 = .waiting 1 ∧ s.closed 1 = false ∧ ∀ g, g ≠ 1 → s.lis g = .none ∨ s.lis g = .failed) ∧ .stopReturns ∉ ls) ?_ ?_
  · exact ⟨this.1.1, this.1.2.1, this.2⟩
  · rintro ls s l t ⟨⟨h1, h2, h3, h4, h5⟩, h6⟩ hs
    cases hs <;> (try simp only [upd]) <;> grind
  · refine ⟨⟨rfl, rfl, rfl, rfl, fun g hg => ?_⟩, by simp⟩
    simp only [upd]
    grind

/-- `Stop` before any `Start` never returns. -/
theorem C111_unstarted_refuted (mode : Mode) (ls : List ServerCycle.Label) (t : ServerCycle.State) (h : Steps (ServerCycle.Step mode) {} (.callStop :: ls) t) : ls = [] ∧ t.caller = .sending 0 := by
  cases h with
  | cons h1 h2 =>
    cases h1 with
    | callStop _ _ _ =>
      cases h2 with
      | nil => exact ⟨rfl, rfl⟩
      | cons h3 _ => cases h3 <;> simp_all
    | callStopDies _ _ h => cases h

/-- A second `Stop` ends the process: whenever a stop has returned and no start has been called since, the next step of the caller is its end, or a start. -/
theorem C111_twice_refuted (mode : Mode) (ls : List ServerCycle.Label) (s t : ServerCycle.State) (h : Steps (ServerCycle.Step mode) {} ls s) (ha : Alternate ls) (hidle : s.caller = .idle) (heq : startsIn ls = stopsIn ls)
    (h1 : 1 ≤ startsIn ls) (hs : ServerCycle.Step mode s .callStop t) : t.dead = true := by
  rcases cycle_inv h ha with ⟨h2, -⟩ | ⟨-, ⟨-, h3⟩ | ⟨-, h3⟩⟩
  · rcases h2.idle hidle with h4 | h4
    · have := (h4.2 (by rw [h2.gen]; exact h1)).1
      cases hs
      · simp_all
      · rfl
    · omega
  · cases hs <;> simp_all
  · rcases h3.caller with h4 | h4
    · omega
    · rw [h4.1] at hidle; cases hidle

/-- **C111**: a panic in one of the server's goroutines or in `Stop` ends everything, the accepting goroutines of earlier starts too: nothing happens any more. -/
theorem C111_dead {mode : Mode} {s t : ServerCycle.State} {ls : List ServerCycle.Label} (hd : s.dead = true) (h : Steps (ServerCycle.Step mode) s ls t) : ls = [] ∧ t = s := by
  cases h with
  | nil => exact ⟨rfl, rfl⟩
  | cons hs _ => cases hs <;> simp_all

example : ∃ s, Steps (ServerCycle.Step .kcp) {} [.start, .listen 1, .select 1, .callStop, .handOver 1, .stopReturns, .closeListener 1, .acceptErr 1, .callStop] s ∧ s.dead = true ∧ s.acc 1 = .running :=
  ⟨_, .cons (.start rfl rfl) <| .cons (.listen 1 rfl rfl rfl) <| .cons (.select 1 rfl rfl) <| .cons (.callStop rfl rfl rfl) <| .cons (.handOver 1 1 rfl rfl rfl (by decide)) <| .cons (.stopReturns 1 rfl rfl) <|
    .cons (.closeListener 1 rfl rfl) <| .cons (.acceptAgain 1 rfl rfl rfl rfl) <| .cons (.callStopDies rfl rfl rfl) (.nil _), rfl, rfl⟩

/-- Started, stopped, and started again when the listener has been closed, with every goroutine fair. -/
example : ∃ e : Exec (ServerCycle.Step .tcp), e.run 0 = {} ∧ (∀ n l, e.act n = some l → InTurn (e.trace n) l) ∧ (∀ n l, e.act n = some l → ¬ TooEarly (e.trace n) l) ∧ CycleFair e ∧
    (∃ n, e.act n = some .callStop) ∧ ∃ n, startsIn (e.trace n) = 2 := by
  obtain ⟨e, h1, h2, h3, h4⟩ := Exec.ofSteps (step := ServerCycle.Step .tcp) (s := {}) (ls := [.start, .listen 1, .select 1, .callStop, .handOver 1, .stopReturns, .closeListener 1, .acceptErr 1, .start, .listen 2, .select 2])
    (.cons (.start rfl rfl) <| .cons (.listen 1 rfl rfl rfl) <| .cons (.select 1 rfl rfl) <| .cons (.callStop rfl rfl rfl) <| .cons (.handOver 1 1 rfl rfl rfl (by decide)) <| .cons (.stopReturns 1 rfl rfl) <|
      .cons (.closeListener 1 rfl rfl) <| .cons (.acceptEnds 1 rfl rfl rfl rfl) <| .cons (.start rfl rfl) <| .cons (.listen 2 rfl rfl rfl) <| .cons (.select 2 rfl rfl) (.nil _))
  have hall : ∀ n l, e.act n = some l → InTurn (e.trace n) l ∧ ¬ TooEarly (e.trace n) l := by
    intro n l hl
    rw [h2] at hl
    rw [h3]
    have hn : n < 11 := by
      have := (List.getElem?_eq_some_iff.1 hl).1
      simpa using this
    have : n = 0 ∨ n = 1 ∨ n = 2 ∨ n = 3 ∨ n = 4 ∨ n = 5 ∨ n = 6 ∨ n = 7 ∨ n = 8 ∨ n = 9 ∨ n = 10 := by omega
    rcases this with rfl | rfl | rfl | rfl | rfl | rfl | rfl | rfl | rfl | rfl | rfl <;> simp at hl <;> subst hl <;> simp [InTurn, TooEarly, startsIn, stopsIn, closesIn]
  refine ⟨e, h1, fun n l h => (hall n l h).1, fun n l h => (hall n l h).2, ?_, ⟨3, by rw [h2]; rfl⟩, 9, by rw [h3]; decide⟩
  refine ⟨fun g => ?_, fun g => ?_, fun g => ?_, ?_, fun g => ?_, fun g => ?_⟩ <;> refine Exec.weakFair_of_end h4 ?_ <;> rintro ⟨l, t, rfl, hs⟩ <;> cases hs <;> simp only [upd] at * <;> grind

end Zinx.Props
